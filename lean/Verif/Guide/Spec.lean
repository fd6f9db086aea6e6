import Verif.Guide.Model
import Verif.Conn.Spec
/-! Specification vocabulary for guides, independent of the code. -/
namespace TR

/-- an input guide covers a GCell -/
def GuideRect.Covers (idxOf : Point → Point) (r : GuideRect) (n : Node) : Prop :=
  let p := idxOf r.box.ll
  let q := idxOf ⟨r.box.right - 1, r.box.top - 1⟩
  n.layer = r.layer ∧ p.x ≤ n.pt.x ∧ n.pt.x ≤ q.x ∧ p.y ≤ n.pt.y ∧ n.pt.y ≤ q.y

/-- a GCell on a layer belongs to the stored intervals -/
def Covered (T : GuideTech) (iv : Intvs) (n : Node) : Prop :=
  ∃ ts ∈ iv n.layer, ts.1 = T.track n ∧ ∃ i ∈ ts.2, i.1 ≤ T.pos n ∧ T.pos n ≤ i.2

/-- intervals of a track: ascending, non-empty, with at least one position free between any two -/
def Separated (s : IvSet) : Prop := s.Pairwise (fun i j => i.2 + 1 < j.1) ∧ ∀ i ∈ s, i.1 ≤ i.2

/-- a move from GCell to GCell: one step along the preferred direction of the layer, where
`lateral l` says on which layers that is possible, or a change to the next routing layer -/
def CellStep (T : GuideTech) (lateral : Int → Prop) (a b : Node) : Prop :=
  (a.layer = b.layer ∧ lateral a.layer ∧ T.track a = T.track b ∧ (T.pos b = T.pos a + 1 ∨ T.pos a = T.pos b + 1)) ∨
  (a.pt = b.pt ∧ (b.layer = a.layer + 2 ∨ a.layer = b.layer + 2))

/-- a GCell lies on a split guide -/
def GSeg.Has (T : GuideTech) (s : GSeg) (n : Node) : Prop :=
  s.l = n.layer ∧ s.t = T.track n ∧ s.b ≤ T.pos n ∧ T.pos n ≤ s.e

/-- neighbouring routing layers have different preferred directions -/
def GuideTech.Alternates (T : GuideTech) : Prop := ∀ l, T.horz (l + 2) = !T.horz l

/-- a GCell lies on one of the guides with index in `K` -/
def OnGuides (T : GuideTech) (segs : List GSeg) (K : Nat → Prop) (n : Node) : Prop :=
  ∃ i s, K i ∧ segs[i]? = some s ∧ s.Has T n

/-- pins `j` and `k` have GCells between which one can move through GCells of `C` -/
def PinLink (T : GuideTech) (lateral : Int → Prop) (C : Node → Prop) (pins : List (List Node)) (j k : Nat) : Prop :=
  ∃ ns ms a b, pins[j]? = some ns ∧ pins[k]? = some ms ∧ a ∈ ns ∧ b ∈ ms ∧ Chain (CellStep T lateral) C a b

/-- a covered GCell on an existing layer -/
def GuideCell (T : GuideTech) (iv : Intvs) (n : Node) : Prop := 0 ≤ n.layer ∧ n.layer < T.nLayers ∧ Covered T iv n

/-- where guides of the attempt may extend along their track -/
def lateralOf (T : GuideTech) (retry : Bool) (l : Int) : Prop := retry = true ∨ T.viaAccess < l

/-- pin `k` is connected to the first pin; passing through other pins only with `ft` -/
def PinReach (T : GuideTech) (lat : Int → Prop) (C : Node → Prop) (pins : List (List Node)) (ft : Bool) (k : Nat) : Prop :=
  if ft then Chain (PinLink T lat C pins) (fun j => j < pins.length) 0 k else PinLink T lat C pins 0 k

end TR
