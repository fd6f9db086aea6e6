import Verif.GC.Eol.Model
import Verif.GC.Spec
/-! # Specification of end-of-line spacing

All four directions at once: positions are measured along an edge and outwards from it. -/
namespace TR

/-- unit vector from the start to the end of an edge -/
def LEdge.unit (e : LEdge) : Point := ⟨(e.hi.x - e.lo.x).sign, (e.hi.y - e.lo.y).sign⟩

/-- position of a point along the edge, from its start -/
def Along (e : LEdge) (p : Point) : Int := (p.x - e.lo.x) * e.unit.x + (p.y - e.lo.y) * e.unit.y

/-- distance of a point from the line of the edge, positive on the side without the metal (to the right) -/
def Outward (e : LEdge) (p : Point) : Int := (p.x - e.lo.x) * e.unit.y - (p.y - e.lo.y) * e.unit.x

/-- an axis-parallel edge of positive length -/
def LEdge.Ok (e : LEdge) : Prop := (e.lo.x = e.hi.x ∧ e.lo.y ≠ e.hi.y) ∨ (e.lo.x ≠ e.hi.x ∧ e.lo.y = e.hi.y)

/-- its neighbours are axis-parallel too and turn by a right angle -/
def LEdge.Turns (e : LEdge) : Prop :=
  (e.lo.x = e.hi.x → e.prevLo.y = e.lo.y ∧ e.prevLo.x ≠ e.lo.x ∧ e.nextHi.y = e.hi.y ∧ e.nextHi.x ≠ e.hi.x) ∧
  (e.lo.y = e.hi.y → e.prevLo.x = e.lo.x ∧ e.prevLo.y ≠ e.lo.y ∧ e.nextHi.x = e.hi.x ∧ e.nextHi.y ≠ e.hi.y)

/-- the region in which nothing may be opposite to the end of a line -/
def IsEolWindow (c : EolRule) (e : LEdge) (W : Box) : Prop :=
  ∀ p, W.Has p ↔ -c.within ≤ Along e p ∧ Along e p ≤ e.len + c.within ∧ 0 ≤ Outward e p ∧ Outward e p ≤ c.space

/-- the regions beside the end of a line in which metal running alongside counts: at its start and at its end -/
def IsParWindow (c : EolRule) (low : Bool) (e : LEdge) (W : Box) : Prop :=
  ∀ p, W.Has p ↔ (if low = true then -c.parSpace ≤ Along e p ∧ Along e p ≤ 0 else e.len ≤ Along e p ∧ Along e p ≤ e.len + c.parSpace) ∧
    -c.parWithin ≤ Outward e p ∧ Outward e p ≤ c.within

/-- the metal next to an edge, one unit deep -/
def IsStrip (e : LEdge) (S : Box) : Prop := ∀ p, S.Has p ↔ 0 ≤ Along e p ∧ Along e p ≤ e.len ∧ -1 ≤ Outward e p ∧ Outward e p ≤ 0

/-- the metal at an edge reaches into a region -/
def StripIn (f : LEdge) (W : Box) : Prop := ∃ S, IsStrip f S ∧ ∃ c, CellOf W c ∧ CellOf S c

/-- … and there it is routed metal -/
def StripInRouted (D : EolDb) (f : LEdge) (W : Box) : Prop :=
  f.fixed = false ∧ ∃ S, IsStrip f S ∧ ∃ c, CellOf W c ∧ CellOf S c ∧ ∃ s ∈ D.route f.net, CellOf s c

/-- an end of a line: an edge shorter than the rule's width between two convex corners — the outline comes to it from the inside and
leaves it to the inside -/
def EndOfLine (c : EolRule) (e : LEdge) : Prop := e.len < c.width ∧ 0 < -Outward e e.prevLo ∧ 0 < -Outward e e.nextHi

/-- metal running alongside: an edge that faces the side of the line at the start (end) of `e` and reaches into the region there -/
def Alongside (D : EolDb) (c : EolRule) (low : Bool) (e f : LEdge) : Prop :=
  f ∈ D.edges ∧ f.unit = (if low = true then ⟨-e.unit.y, e.unit.x⟩ else ⟨e.unit.y, -e.unit.x⟩) ∧ ∃ W, IsParWindow c low e W ∧ StripIn f W

/-- the condition of the rule on metal running alongside -/
def Triggered (D : EolDb) (c : EolRule) (e : LEdge) : Prop :=
  c.parSpace = -1 ∨
  (c.twoEdges = false ∧ ((∃ f, Alongside D c true e f) ∨ ∃ f, Alongside D c false e f)) ∨
  (c.twoEdges = true ∧ (∃ f, Alongside D c true e f) ∧ ∃ f, Alongside D c false e f)

/-- the end of the line itself or metal running alongside it is routed -/
def RoutedSelf (D : EolDb) (c : EolRule) (e : LEdge) : Prop :=
  (e.fixed = false ∧ ∃ S, IsStrip e S ∧ ∃ cl, CellOf S cl ∧ ∃ s ∈ D.route e.net, CellOf s cl) ∨
  (c.parSpace ≠ -1 ∧ ∃ low f, Alongside D c low e f ∧ ∃ W, IsParWindow c low e W ∧ StripInRouted D f W)

/-- `f` lies opposite to the end of line `e`, too close -/
def Opposite (D : EolDb) (c : EolRule) (e f : LEdge) : Prop :=
  f ∈ D.edges ∧ f.unit = ⟨-e.unit.x, -e.unit.y⟩ ∧ ∃ W, IsEolWindow c e W ∧ StripIn f W

/-- `f` is opposite to `e` with routed metal -/
def OppositeRouted (D : EolDb) (c : EolRule) (e f : LEdge) : Prop :=
  Opposite D c e f ∧ ∃ W, IsEolWindow c e W ∧ StripInRouted D f W

/-- no metal in the gap `m` between the edges; a flat gap is looked at one unit wider along `e` -/
def ClearGap (D : EolDb) (e : LEdge) (m : Box) : Prop :=
  ∀ r ∈ D.rects, ∀ c, CellOf r c → ¬ (
    if m.left = m.right ∨ m.bottom = m.top then
      m.left - (e.unit.x.natAbs : Int) ≤ c.x ∧ c.x < m.right + (e.unit.x.natAbs : Int) ∧
      m.bottom - (e.unit.y.natAbs : Int) ≤ c.y ∧ c.y < m.top + (e.unit.y.natAbs : Int)
    else CellOf m c)

/-- the marker for the end of line `e` and the edge `f` -/
def EolMarker (D : EolDb) (c : EolRule) (e f : LEdge) (m : GMk) : Prop :=
  (∃ S T, IsStrip e S ∧ IsStrip f T ∧ IsBetween S T m.box) ∧ m.layer = D.layer ∧ m.rule = .other c.id ∧
  m.srcs.Pairwise (· < ·) ∧ ∀ o, o ∈ m.srcs ↔ o = D.owner e.net ∨ o = D.owner f.net

/-- an end-of-line violation, apart from the question whether routed metal takes part -/
def EolViolation (D : EolDb) (c : EolRule) (e f : LEdge) (m : GMk) : Prop :=
  EndOfLine c e ∧ Triggered D c e ∧ Opposite D c e f ∧ EolMarker D c e f m ∧ ClearGap D e m.box

/-- a rule with sensible values -/
def EolRule.Ok (c : EolRule) : Prop := 0 ≤ c.space ∧ 0 ≤ c.within ∧ (c.parSpace ≠ -1 → 0 ≤ c.parSpace ∧ 0 ≤ c.parWithin)

/-- edges and rectangles of the layer are proper -/
structure EolDb.Ok (D : EolDb) : Prop where
  edges : ∀ e ∈ D.edges, e.Ok ∧ e.Turns
  rects : ∀ r ∈ D.rects, r.left < r.right ∧ r.bottom < r.top

/-- a query that returns the edges that touch a box, in some order -/
def EdgeQuery (D : EolDb) (query : Box → List LEdge) : Prop :=
  ∀ b : Box, b.Proper → ∀ e, e ∈ query b ↔ e ∈ D.edges ∧ ∃ p, b.Has p ∧ min e.lo.x e.hi.x ≤ p.x ∧ p.x ≤ max e.lo.x e.hi.x ∧ min e.lo.y e.hi.y ≤ p.y ∧ p.y ≤ max e.lo.y e.hi.y

end TR
