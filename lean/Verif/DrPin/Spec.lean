import Verif.DrPin.Model
import Verif.WB.Spec
import Verif.Track.Props
/-! # Specification: where the access points of a terminal may lie -/
namespace TR

/-- where a point of the pin's rectangles lies in the design -/
def NetTerm.place (n : NetTerm) (q : Point) : Point :=
  match n.inst with
  | some I => q.transform I.upd
  | none => q

/-- `p` lies on metal of the terminal on routing layer `l` -/
def NetTerm.OnMetal (T : ApTech) (n : NetTerm) (l : Int) (p : Point) : Prop :=
  T.routing l = true ∧ ∃ pin ∈ n.pins, ∃ b, (l, b) ∈ pin.shapes ∧ ∃ q, b.Has q ∧ n.place q = p

/-- metal of the terminal in the region: its boundary counts, except, in the first iteration, the upper right corner, which belongs to other
regions -/
def NetTerm.InRegion (T : ApTech) (route : Box) (initDR : Bool) (n : NetTerm) : Prop :=
  ∃ l p, n.OnMetal T l p ∧ route.Has p ∧ (initDR = true → p ≠ route.ur)

/-- access point `a` was found by pin access for pin number `k` of the terminal, which belongs to instance `I` -/
def NetTerm.Found (n : NetTerm) (I : TermInst) (k : Nat) (a : PreAp) : Prop :=
  n.inst = some I ∧ ∃ pin c aps, n.pins[k]? = some pin ∧ I.paIdx = some c ∧ pin.access[c]? = some aps ∧ a ∈ aps

/-- where such a point lies in the design -/
def TermInst.spot (I : TermInst) (a : PreAp) : Point := ⟨I.at'.ox + a.pt.x, I.at'.oy + a.pt.y⟩

/-- a wire or via may start at `p` in the region: inside or on its boundary, but not at the upper right corner in the first iteration, and not on
the upper or right side of layers whose shapes must be rectangles if that side runs along the wires of the layer -/
def Usable (T : ApTech) (route : Box) (initDR : Bool) (l : Int) (p : Point) : Prop :=
  route.Has p ∧ (initDR = true → p ≠ route.ur) ∧
  (T.rectOnly l = true → (T.horz l = false → p.x ≠ route.right) ∧ (T.horz l = true → p.y ≠ route.top))

/-- the access point that the region keeps for a point of pin access -/
structure Keeps (T : ApTech) (I : TermInst) (k : Nat) (a : PreAp) (d : DrAp) : Prop where
  layer : d.layer = a.layer
  pt : d.pt = I.spot a
  cheap : d.cost = 0 ↔ I.pref[k]? = some (some a.id)
  dear : d.cost = 0 ∨ d.cost = 1
  area : d.area = if T.marFix then (T.minArea a.layer).getD 0 else 0
  dirs : d.dirs = a.dirs
  vias : d.vias = if a.dirs.u = true ∧ a.vias ≠ [] then some a.vias else none

/-- technology and library these statements are about: tracks have a positive distance, widths are not negative, rectangles are stored with their corners in order -/
structure ApInput (T : ApTech) (n : NetTerm) : Prop where
  spacing : ∀ l, ∀ p ∈ T.pats l, 0 < p.2.spacing
  widths : ∀ l, 0 ≤ T.width l
  boxes : ∀ pin ∈ n.pins, ∀ s ∈ pin.shapes, s.2.Proper

/-- the corners of the terminal's rectangles lie on the manufacturing grid -/
def OnGrid (T : ApTech) (n : NetTerm) : Prop :=
  0 < T.manuGrid ∧ ∀ pin ∈ n.pins, ∀ s ∈ pin.shapes,
    (∃ k, s.2.left = k * T.manuGrid) ∧ (∃ k, s.2.right = k * T.manuGrid) ∧
    (∃ k, s.2.bottom = k * T.manuGrid) ∧ (∃ k, s.2.top = k * T.manuGrid)

/-- the smallest box around the points -/
structure Around (b : Box) (ps : List Point) : Prop where
  has : ∀ p ∈ ps, b.Has p
  least : ∀ c : Box, (∀ p ∈ ps, c.Has p) → c.left ≤ b.left ∧ b.right ≤ c.right ∧ c.bottom ≤ b.bottom ∧ b.top ≤ c.top

/-- the point that stands for a pin: its first access point of cost 0, or its first if none has cost 0 -/
def StandsFor (aps : List DrAp) (p : Point) : Prop :=
  (∃ l a r, aps = l ++ a :: r ∧ a.cost = 0 ∧ (∀ b ∈ l, b.cost ≠ 0) ∧ p = a.pt) ∨
  ((∀ b ∈ aps, b.cost ≠ 0) ∧ ∃ a r, aps = a :: r ∧ p = a.pt)

end TR
