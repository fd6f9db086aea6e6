import Verif.Cut58.Model
import Verif.GC.Cut.Spec
import Verif.GC.CornerSpec
/-! # Specification of the cut spacing rules of LEF58_SPACING -/
namespace TR

/-- a cut is of the class with number `k`: its shorter and longer side are width and length of the class, and of no class after it -/
def C58Db.OfClass (C : C58Db) (r : GRect) (k : Int) : Prop :=
  ∃ i : Nat, k = i ∧
    C.classes[i]? = some (min (r.box.right - r.box.left) (r.box.top - r.box.bottom), max (r.box.right - r.box.left) (r.box.top - r.box.bottom)) ∧
    ∀ j : Nat, i < j →
      C.classes[j]? ≠ some (min (r.box.right - r.box.left) (r.box.top - r.box.bottom), max (r.box.right - r.box.left) (r.box.top - r.box.bottom))

/-- at least `n` other cuts of the class of the rule are closer than its WITHIN -/
def C58Db.Neighbours (C : C58Db) (c : L58Rule) (r : GRect) (n : Int) : Prop :=
  ∃ L : List GRect, L.Nodup ∧ (L.length : Int) = n ∧
    ∀ s ∈ L, s ∈ C.base.rects C.base.layer ∧ s.id ≠ r.id ∧ C.OfClass s c.cls ∧ CutNear c.c2c r.box s.box c.within

/-- a cut has `n` neighbours, as the program counts: one more is asked of a cut that is not of the class itself -/
def C58Db.Counts (C : C58Db) (c : L58Rule) (r : GRect) (n : Int) : Prop :=
  (C.OfClass r c.cls ∧ C.Neighbours c r n) ∨ (¬ C.OfClass r c.cls ∧ C.Neighbours c r (n + 1))

/-- the spacing that an ADJACENTCUTS rule requires -/
def C58Db.Requires (C : C58Db) (c : L58Rule) (r s : GRect) (q : Int) : Prop :=
  ((WideBlockage C.base C.base.layer r ∨ WideBlockage C.base C.base.layer s) ∧ q = c.within) ∨
  (¬ (WideBlockage C.base C.base.layer r ∨ WideBlockage C.base C.base.layer s) ∧ q = c.spacing)

/-- the options with which ADJACENTCUTS rules are checked -/
def L58Rule.Plain (c : L58Rule) : Prop :=
  c.exactAligned = -1 ∧ c.exceptPG = false ∧ c.exceptAll = -1 ∧ c.toAll = false ∧ c.noPrl = false ∧ c.enclosure = -1 ∧ c.sidePar = false ∧ c.sameMask = false

/-- violation of an ADJACENTCUTS rule by the cut `r`, with the neighbours, and the cut `s` -/
def C58Db.AdjViolation (C : C58Db) (c : L58Rule) (r s : GRect) (m : GMk) : Prop :=
  r.id ≠ s.id ∧ (r.fixed = false ∨ s.fixed = false) ∧ c.Plain ∧
  (C.Counts c r c.adj ∨ c.twoCuts ≠ -1 ∧ C.Counts c r c.twoCuts ∧ C.Counts c s c.twoCuts) ∧
  (∃ q, C.Requires c r s q ∧ CutNear c.c2c r.box s.box q) ∧ CutMarker C.base r s (.other c.id) m

/-- the values of an ADJACENTCUTS rule make sense -/
def L58Rule.AdjOk (c : L58Rule) : Prop := c.second = none ∧ 0 < c.adj ∧ 0 < c.within ∧ 0 ≤ c.spacing ∧ (c.twoCuts = -1 ∨ 0 < c.twoCuts) ∧ 0 ≤ c.cls

/-- an edge has a point in the box -/
def EdgeMeets (e : GEdge) (b : Box) : Prop :=
  ∃ p : Point, b.Has p ∧ min e.lo.x e.hi.x ≤ p.x ∧ p.x ≤ max e.lo.x e.hi.x ∧ min e.lo.y e.hi.y ≤ p.y ∧ p.y ≤ max e.lo.y e.hi.y

/-- consecutive edges `a b c d` of an outline of the metal of net `n` on layer `l` -/
def C58Db.Around (C : C58Db) (l : Int) (n : Nat) (a b c d : GEdge) : Prop := ∃ ring, (n, ring) ∈ C.rings l ∧ Four ring a b c d

/-- the point is on the border of the box -/
def OnBorder (b : Box) (p : Point) : Prop := b.Has p ∧ (p.x = b.left ∨ p.x = b.right ∨ p.y = b.bottom ∨ p.y = b.top)

/-- the corner between two edges is a matter of fixed metal only: a fixed rectangle of the net has it as its corner (convex), no routed
rectangle of the net has it on its border (concave) -/
def C58Db.CornFixed (C : C58Db) (l : Int) (n : Nat) (b c : GEdge) : Prop :=
  (LeftTurn b c ∧ ∃ x ∈ C.parts true l n, ∃ sx sy, CornOut b c sx sy ∧ CornerOf x c.lo sx sy) ∨
  (RightTurn b c ∧ ∀ x ∈ C.parts false l n, ¬ OnBorder x c.lo)

/-- the violation names the owners of the cut and of the metal over it; its box lies between the corner and the cut -/
def C58Db.CornMarker (C : C58Db) (c : L58Rule) (r s : GRect) (p : Point) (m : GMk) : Prop :=
  IsBetween ⟨p, p⟩ r.box m.box ∧ m.layer = C.base.layer ∧ m.rule = .other c.id ∧
  m.srcs.Pairwise (· < ·) ∧ ∀ o, o ∈ m.srcs ↔ o = (C.base.net r.net).owner ∨ o = (C.base.net s.net).owner

/-- a cut is closer than `q` to a point: its centre or its nearest point -/
def CutNearPt (c2c : Bool) (a : Box) (p : Point) (q : Int) : Prop :=
  (c2c = true ∧ ∃ t, IsCentre a t ∧ (t.x - p.x) * (t.x - p.x) + (t.y - p.y) * (t.y - p.y) < q * q) ∨
  (c2c = false ∧ ∃ t, a.Has t ∧ (t.x - p.x) * (t.x - p.x) + (t.y - p.y) * (t.y - p.y) < q * q)

/-- CONCAVECORNER: the cut `r` under the rectangle `s` is too close to a concave corner, between `b` and `c`, of the metal that is on a line of
the border of `s` -/
def C58Db.ConcaveViolation (C : C58Db) (rule : L58Rule) (r : GRect) (l2 : Int) (s : GRect) (n : Nat) (b c : GEdge) (m : GMk) : Prop :=
  RightTurn b c ∧ EdgeMeets c s.box ∧
  (c.lo.x = s.box.left ∨ c.lo.x = s.box.right ∨ c.lo.y = s.box.bottom ∨ c.lo.y = s.box.top) ∧
  CutNearPt rule.c2c r.box c.lo rule.spacing ∧ (r.fixed = false ∨ ¬ C.CornFixed l2 n b c) ∧ C.CornMarker rule r s c.lo m

/-- the corner between `b` and `c` is one of two corners at the end of a line narrower than EOLWIDTH, whose sides are at least MINLENGTH long -/
def L58Rule.LineEnd58 (rule : L58Rule) (a b c d : GEdge) : Prop :=
  (LeftTurn a b ∧ LeftTurn b c ∧ (∃ l, b.Long l ∧ l < rule.eolWidth) ∧
    (rule.minLength = -1 ∨ ∃ la lc, a.Long la ∧ c.Long lc ∧ rule.minLength ≤ la ∧ rule.minLength ≤ lc)) ∨
  (LeftTurn b c ∧ LeftTurn c d ∧ (∃ l, c.Long l ∧ l < rule.eolWidth) ∧
    (rule.minLength = -1 ∨ ∃ lb ld, b.Long lb ∧ d.Long ld ∧ rule.minLength ≤ lb ∧ rule.minLength ≤ ld))

/-- the legs, in x and y, of the triangle that is kept free at a corner: the edges, cut to the spacing -/
def L58Rule.Legs (rule : L58Rule) (b c : GEdge) (ex ey : Int) : Prop :=
  ∃ lb lc, b.Long lb ∧ c.Long lc ∧
    ((c.lo.x = c.hi.x ∧ ex = min rule.spacing lb ∧ ey = min rule.spacing lc) ∨ (c.lo.y = c.hi.y ∧ ex = min rule.spacing lc ∧ ey = min rule.spacing lb))

/-- the cut has a point inside the triangle (mirrored into all four quadrants) with these legs at the corner -/
def InTriangle (a : Box) (p : Point) (ex ey : Int) : Prop :=
  ∃ t u v, a.Has t ∧ (u = t.x - p.x ∨ u = p.x - t.x) ∧ 0 ≤ u ∧ (v = t.y - p.y ∨ v = p.y - t.y) ∧ 0 ≤ v ∧ ex * v + ey * u < ex * ey

/-- NONEOLCONVEXCORNER: the cut `r` under the rectangle `s` comes into the triangle at a convex corner, between `b` and `c`, of the metal that
is not at the end of a line -/
def C58Db.ConvexViolation (C : C58Db) (rule : L58Rule) (r : GRect) (l2 : Int) (s : GRect) (n : Nat) (a b c d : GEdge) (m : GMk) : Prop :=
  LeftTurn b c ∧ EdgeMeets c s.box ∧ ¬ rule.LineEnd58 a b c d ∧
  (∃ ex ey, rule.Legs b c ex ey ∧ InTriangle r.box c.lo ex ey) ∧ (r.fixed = false ∨ ¬ C.CornFixed l2 n b c) ∧ C.CornMarker rule r s c.lo m

/-- a corner rule that is checked -/
structure L58Rule.CornerOk (rule : L58Rule) (l2 : Int) : Prop where
  second : rule.second = some l2
  plain : rule.stack = false ∧ rule.orth = -1 ∧ rule.shortEdge = false ∧ rule.adj = -1
  cls : 0 ≤ rule.cls
  spc : 0 ≤ rule.spacing

/-- a query returns the edges of outlines that meet a box -/
def OutlineQuery (C : C58Db) (edges : Int → Box → List (List GEdge × Nat)) : Prop :=
  ∀ l (b : Box), b.Proper → ∀ ring i, (ring, i) ∈ edges l b ↔
    (∃ n, (n, ring) ∈ C.rings l) ∧ i < ring.length ∧ ∃ e, ring[i]? = some e ∧ EdgeMeets e b

end TR
