import Verif.GC.Corner
import Verif.GC.Spec
/-! Specification of the spacing of corners, in terms of the edges of the outline of the metal. -/
namespace TR

/-- the outline turns to the left (right) from `a` to `b`: cross product of the two edges -/
def crossEdge (a b : GEdge) : Int := (a.hi.x - a.lo.x) * (b.hi.y - b.lo.y) - (a.hi.y - a.lo.y) * (b.hi.x - b.lo.x)
def LeftTurn (a b : GEdge) : Prop := 0 < crossEdge a b
def RightTurn (a b : GEdge) : Prop := crossEdge a b < 0

/-- the point displaced by `(dx, dy)` from the common point of two edges is on the left of an edge -/
def OnLeft (e : GEdge) (dx dy : Int) : Prop := 0 < (e.hi.x - e.lo.x) * dy - (e.hi.y - e.lo.y) * dx

/-- near the corner between two edges of an outline the metal covers the direction `(dx, dy)`: it is on the left of both edges at a
left turn, on the left of one of them at a right turn -/
def MetalAt (a b : GEdge) (dx dy : Int) : Prop :=
  (LeftTurn a b ∧ OnLeft a dx dy ∧ OnLeft b dx dy) ∨ (RightTurn a b ∧ (OnLeft a dx dy ∨ OnLeft b dx dy))

/-- `(sx, sy)` is the diagonal direction (each 1 or -1) that leads away from the metal, its opposite leading into it -/
structure CornOut (a b : GEdge) (sx sy : Int) : Prop where
  unitX : sx = 1 ∨ sx = -1
  unitY : sy = 1 ∨ sy = -1
  out : ¬ MetalAt a b sx sy
  inside : MetalAt a b (-sx) (-sy)

/-- a rectangle has `p` as its corner in direction `(sx, sy)` -/
def CornerOf (b : Box) (p : Point) (sx sy : Int) : Prop :=
  p.x = (if sx = 1 then b.right else b.left) ∧ p.y = (if sy = 1 then b.top else b.bottom)

/-- a rectangle reaches the quadrant at `p` in direction `(sx, sy)` -/
def ReachesQuadrant (b : Box) (p : Point) (sx sy : Int) : Prop := ∃ q, b.Has q ∧ 0 ≤ sx * (q.x - p.x) ∧ 0 ≤ sy * (q.y - p.y)

/-- the point and the rectangle come closer than `q` in both directions: a square of that size around the point, without its border,
has a point of the rectangle -/
def CloserXY (p : Point) (b : Box) (q : Int) : Prop := ∃ t, b.Has t ∧ (t.x - p.x < q ∧ p.x - t.x < q) ∧ (t.y - p.y < q ∧ p.y - t.y < q)

/-- the spacing that a rule requires from metal of width `w`: the entry of the largest width strictly below `w`, or the first entry -/
def CornNeeds (rule : CornRule) (w q : Int) : Prop := ∃ i, KeyFor rule.rows w i ∧ rule.valsX[i]? = some q

/-- consecutive edges of an outline, counting around -/
def Four (ring : List GEdge) (a b c d : GEdge) : Prop :=
  ∃ i, ring[i % ring.length]? = some a ∧ ring[(i + 1) % ring.length]? = some b ∧ ring[(i + 2) % ring.length]? = some c ∧
    ring[(i + 3) % ring.length]? = some d

/-- length of an edge -/
def GEdge.Long (e : GEdge) (l : Int) : Prop :=
  (e.lo.y = e.hi.y ∧ (l = e.hi.x - e.lo.x ∨ l = e.lo.x - e.hi.x) ∨ e.lo.x = e.hi.x ∧ (l = e.hi.y - e.lo.y ∨ l = e.lo.y - e.hi.y)) ∧ 0 ≤ l

/-- the corner between `b` and `c` is one of the two corners at the end of a line narrower than `w`: `c` (or `b`) is shorter than `w`,
and the outline turns left at both of its ends -/
def LineEnd (a b c d : GEdge) (w : Int) : Prop :=
  LeftTurn b c ∧ ((LeftTurn c d ∧ ∃ l, c.Long l ∧ l < w) ∨ (LeftTurn a b ∧ ∃ l, b.Long l ∧ l < w))

/-- the rule speaks about the corner between two edges -/
def RuleTurn (rule : CornRule) (a b : GEdge) : Prop :=
  (rule.kind = .convex ∧ LeftTurn a b) ∨ (rule.kind = .concave ∧ RightTurn a b)

/-- `m` is a violation of a corner rule by the corner between the edges `b` and `c` of a net `n` (with the neighbouring edges `a`, `d`)
and the rectangle `r` -/
def CornerViolation (D : GDb) (rule : CornRule) (n : Nat) (a b c d : GEdge) (r : GRect) (m : GMk) : Prop :=
  RuleTurn rule b c ∧ ¬ r.box.Has c.lo ∧
  -- a convex corner: the rectangle does not run alongside the metal of the corner
  (rule.kind = .convex → ¬ (r.box.left < c.lo.x ∧ c.lo.x < r.box.right) ∧ ¬ (r.box.bottom < c.lo.y ∧ c.lo.y < r.box.top)) ∧
  -- not the end of a line
  (∀ w, rule.eol = some w → ¬ LineEnd a b c d w) ∧
  -- a rectangle of the metal ends in this corner, and its width requires more than there is
  (∃ sx sy, CornOut b c sx sy ∧ ∃ o ∈ D.rects, o.net = n ∧ CornerOf o.box c.lo sx sy ∧
    (∃ q, CornNeeds rule (min (o.box.right - o.box.left) (o.box.top - o.box.bottom)) q ∧ CloserXY c.lo r.box q) ∧
    (r.fixed = false ∨ o.fixed = false) ∧
    (RoutedNear (D.fixedPolys n) o.box m.box (min (o.box.right - o.box.left) (o.box.top - o.box.bottom)) ∨
     RoutedNear (D.fixedPolys r.net) r.box m.box (min (r.box.right - r.box.left) (r.box.top - r.box.bottom)))) ∧
  IsBetween ⟨c.lo, c.lo⟩ r.box m.box ∧ m.layer = D.layer.num ∧ m.rule = .other rule.id ∧
  m.srcs.Pairwise (· < ·) ∧ (∀ w, w ∈ m.srcs ↔ w = (D.net n).owner ∨ w = (D.net r.net).owner)

/-- an outline: at least four edges of a net, each running in its direction, one beginning where the one before ends, with a right
angle in between -/
structure Outline (n : Nat) (ring : List GEdge) : Prop where
  four : 4 ≤ ring.length
  net : ∀ e ∈ ring, e.net = n
  ok : ∀ e ∈ ring, e.Ok
  turns : ∀ i a b, ring[i % ring.length]? = some a → ring[(i + 1) % ring.length]? = some b →
    a.hi = b.lo ∧ crossEdge a b ≠ 0

/-- a rule with a table: as many entries as widths, widths and entries growing, the same in both directions, no negative entries -/
structure CornRule.Ok (rule : CornRule) : Prop where
  ne : rule.rows ≠ []
  rows : StrictInc rule.rows
  len : rule.valsX.length = rule.rows.length
  mono : rule.valsX.Pairwise (· ≤ ·)
  same : rule.valsY = rule.valsX
  sameXY : rule.sameXY = true
  kind : rule.kind ≠ .unknown

end TR
