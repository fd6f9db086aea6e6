import Verif.Cost.Model
import Verif.GC.Cut.Spec
/-! Specification vocabulary for the costs of grid nodes, independent of the code. -/
namespace TR

instance (R : Box) (p : Point) : Decidable (R.Has p) := by unfold Box.Has; infer_instance

/-- node `(i, j)` of the grid lies at `p` -/
def NodeAt (g : Grid) (i j : Nat) (p : Point) : Prop := g.xs[i]? = some p.x ∧ g.ys[j]? = some p.y

/-- the metal of a wire of half width `h` at point `p` -/
def wireSq (p : Point) (h : Int) : Box := ⟨⟨p.x - h, p.y - h⟩, ⟨p.x + h, p.y + h⟩⟩

/-- two rectangles overlap, a common border is not enough -/
def Invades (a b : Box) : Prop := a.left < b.right ∧ b.left < a.right ∧ a.bottom < b.top ∧ b.bottom < a.top

instance (a b : Box) : Decidable (Invades a b) := by unfold Invades; infer_instance

/-- the spacing of a layer between two shapes: `w1`, `w2` their widths and `p` the run length; for a blockage the smallest
spacing of the layer if the program is set so (`lenient`) -/
def LayerSpacing (T : CTech) (l : Int) (lenient : Prop) (w1 w2 p d : Int) : Prop :=
  ∃ r, T.spc l = some r ∧ (lenient → d = r.least) ∧ (¬ lenient → r.req w1 w2 p = some d)

/-- the spacing rule does not decrease with the run length -/
def SpcMono (T : CTech) (l : Int) : Prop :=
  ∀ r, T.spc l = some r → ∀ w1 w2 p q d e, p ≤ q → r.req w1 w2 p = some d → r.req w1 w2 q = some e → d ≤ e

inductive CSide where
  | up | down | right | left
deriving DecidableEq, Repr

/-- is that side of the metal an end of line for the rule: is the metal narrow there -/
def EndSide (r : EolRule) (m : Box) : CSide → Prop
  | .up | .down => m.right - m.left < r.width
  | .right | .left => m.top - m.bottom < r.width

/-- the zone in front of that side that the rule keeps free -/
def eolZone (r : EolRule) (m : Box) : CSide → Box
  | .up => ⟨⟨m.left - r.within, m.top⟩, ⟨m.right + r.within, m.top + r.space⟩⟩
  | .down => ⟨⟨m.left - r.within, m.bottom - r.space⟩, ⟨m.right + r.within, m.bottom⟩⟩
  | .right => ⟨⟨m.right, m.bottom - r.within⟩, ⟨m.right + r.space, m.top + r.within⟩⟩
  | .left => ⟨⟨m.left - r.space, m.bottom - r.within⟩, ⟨m.left, m.top + r.within⟩⟩

instance (r : EolRule) (m : Box) (s : CSide) : Decidable (EndSide r m s) := by cases s <;> unfold EndSide <;> infer_instance

/-- other metal `o` lies in front of the end `s` of metal `m` -/
def EolClose (r : EolRule) (m o : Box) (s : CSide) : Prop := EndSide r m s ∧ Invades (eolZone r m s) o

instance (r : EolRule) (m o : Box) (s : CSide) : Decidable (EolClose r m o s) := by unfold EolClose; infer_instance

/-- number of pairs of a rule and a side of `m` for which `o` lies in front of that end -/
def eolHits (rules : List EolRule) (m o : Box) : Nat :=
  (rules.map fun r => [CSide.up, .down, .right, .left].countP fun s => decide (EolClose r m o s)).sum

def EolRulesOk (rules : List EolRule) : Prop := ∀ r ∈ rules, 0 ≤ r.space ∧ 0 ≤ r.within

/-- metal of a via is not empty: at least 2 wide in both directions -/
def Box.Thick (b : Box) : Prop := b.left + 2 ≤ b.right ∧ b.bottom + 2 ≤ b.top

/-- `a` lies in `b` -/
def Box.Inside (a b : Box) : Prop := b.left ≤ a.left ∧ a.right ≤ b.right ∧ b.bottom ≤ a.bottom ∧ a.top ≤ b.top

/-- the metal of a special via fits into that of the default via: it lies in it and has no more ends of line -/
def FitsDefault (rules : List EolRule) (sb vb : Box) : Prop :=
  sb.Proper ∧ sb.Inside vb ∧ ∀ r ∈ rules, ∀ s, EndSide r sb s → EndSide r vb s

/-- across the preferred direction, metal `vb` is wider than a wire -/
def Fat (T : CTech) (l : Int) (vb : Box) : Prop :=
  if T.horz l = true then T.width l < vb.top - vb.bottom else T.width l < vb.right - vb.left

instance (T : CTech) (l : Int) (vb : Box) : Decidable (Fat T l vb) := by unfold Fat; infer_instance

/-- the shape length that a wire of default width needs for the minimum area, in steps of the manufacturing grid -/
def IsPatchLen (T : CTech) (l L : Int) : Prop :=
  (∃ k, L = k * T.grid) ∧ T.minArea l ≤ L * T.width l ∧ ∀ k, T.minArea l ≤ k * T.grid * T.width l → L ≤ k * T.grid

/-- extent of metal `vb` along y (`vert`) or x; if it is not fat and this is the preferred direction it may have to be extended to `L` -/
def alongLen (T : CTech) (l : Int) (vb : Box) (L : Int) (vert : Bool) : Int → Prop := fun e =>
  let own := if vert = true then vb.top - vb.bottom else vb.right - vb.left
  if ¬ Fat T l vb ∧ (T.horz l = true ↔ vert = false) then e = max own L else e = own

/-- the run length assumed between a shape and the metal `vm` of a via (default metal `vb`): the real one, or, for a shape that may grow
along the via (`grows`: wires and patches) the extent of the via along the common run -/
def AssumedRun (T : CTech) (l : Int) (vb vm box : Box) (L : Int) (grows : Bool) (run : Int) : Prop :=
  (grows = false → run = runLen box vm) ∧
  (grows = true →
    (sharedX box vm < 0 → sharedY box vm < 0 → run = runLen box vm) ∧
    (0 ≤ sharedY box vm → sharedX box vm ≤ sharedY box vm → alongLen T l vb L true run) ∧
    (0 ≤ sharedX box vm → sharedY box vm < sharedX box vm → alongLen T l vb L false run))

end TR

namespace TR

/-- a cut-spacing rule of one layer forbids cut `c` of another net next to `box`: the rule is neither for one net only nor for two layers;
the distance is below the spacing (for a blockage below the search distance of an ADJACENTCUTS rule); a PARALLELOVERLAP rule only if the two run
alongside, an area rule only if one of them has an area -/
def CutForbids (r : CutSpRule) (blk : Bool) (box c : Box) : Prop :=
  r.sameNet = false ∧ r.second = none ∧
  (r.adj.isSome = true → CutNear r.c2c box c (if blk = true then r.within else r.spacing)) ∧
  (r.adj = none → CutNear r.c2c box c r.spacing ∧ (r.parOverlap = true → 0 < runLen box c) ∧
    (r.parOverlap = false → r.area ≠ -1 → r.area ≠ 0 → 0 < box.width * box.length ∨ 0 < c.width * c.length))

/-- the bounding box of the cuts of a via -/
def MzVia.CutsOk (v : MzVia) : Prop := (∀ c ∈ v.cuts, c.Proper) ∧ ∃ c ∈ v.cuts, c.Thick

/-- a MINIMUMCUT rule concerns vias on a shape of this size, from above (`upper`) or below -/
def MCutConcerns (r : MCutRule) (box : Box) (upper : Bool) : Prop :=
  r.width < box.width ∧ (∀ len dist, r.length = some (len, dist) → len < box.length) ∧ ∀ above, r.conn = some above → above = upper

/-- the cuts lie on the shape: those of the default via overlap it and those of the via itself at least touch it; or, for a rule with LENGTH,
they lie diagonally off it by less than `dist` in total -/
def MCutAt (r : MCutRule) (pitch : Int) (box defaultCuts cuts : Box) : Prop :=
  (r.length = none → Invades box defaultCuts ∧ 0 ≤ sharedX box cuts ∧ 0 ≤ sharedY box cuts) ∧
  (∀ len dist, r.length = some (len, dist) → sharedX box cuts < 0 ∧ sharedY box cuts < 0 ∧ - sharedX box cuts - sharedY box cuts < dist + pitch)

end TR
