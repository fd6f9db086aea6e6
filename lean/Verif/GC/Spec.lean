import Verif.GC.Model
import Verif.WB.Spec
import Verif.Tech.Spec
/-! Specification vocabulary for spacing and short violations, independent of the code. -/
namespace TR

/-- the same violation: same box, layer and rule, and the same objects in either order -/
def GMk.Same (a b : GMk) : Prop :=
  a.box = b.box ∧ a.layer = b.layer ∧ a.rule = b.rule ∧
    ((a.srcs[0]? = b.srcs[0]? ∧ a.srcs[1]? = b.srcs[1]?) ∨ (a.srcs[0]? = b.srcs[1]? ∧ a.srcs[1]? = b.srcs[0]?))

/-- two closed rectangles come closer than `d`: they have points at a smaller Euclidean distance -/
def Closer (a b : Box) (d : Int) : Prop :=
  ∃ p q : Point, a.Has p ∧ b.Has q ∧ (p.x - q.x) * (p.x - q.x) + (p.y - q.y) * (p.y - q.y) < d * d

/-- overlap of the projections of two rectangles on the axes, negative if there is a gap -/
def sharedX (a b : Box) : Int := min a.right b.right - max a.left b.left
def sharedY (a b : Box) : Int := min a.top b.top - max a.bottom b.bottom

/-- parallel run length -/
def runLen (a b : Box) : Int := max (sharedX a b) (sharedY a b)

/-- `m` spans, in each direction, the common part of the projections of `a` and `b`, or the gap between them -/
def IsBetween (a b m : Box) : Prop :=
  m.left = min (max a.left b.left) (min a.right b.right) ∧ m.right = max (max a.left b.left) (min a.right b.right) ∧
  m.bottom = min (max a.bottom b.bottom) (min a.top b.top) ∧ m.top = max (max a.bottom b.bottom) (min a.top b.top)

/-- an edge runs in its direction -/
def GEdge.Ok (e : GEdge) : Prop :=
  match e.dir with
  | .W => e.lo.y = e.hi.y ∧ e.hi.x < e.lo.x
  | .E => e.lo.y = e.hi.y ∧ e.lo.x < e.hi.x
  | .N => e.lo.x = e.hi.x ∧ e.lo.y < e.hi.y
  | .S => e.lo.x = e.hi.x ∧ e.hi.y < e.lo.y

/-- `e` is the upper (lower) side of metal: it lies at height `y` from `x1` to `x2`; the right (left) side of metal: it lies at
`x` from `y1` to `y2` -/
def UpperSide (e : GEdge) (y x1 x2 : Int) : Prop := e.dir = .W ∧ e.lo = ⟨x2, y⟩ ∧ e.hi = ⟨x1, y⟩
def LowerSide (e : GEdge) (y x1 x2 : Int) : Prop := e.dir = .E ∧ e.lo = ⟨x1, y⟩ ∧ e.hi = ⟨x2, y⟩
def RightSide (e : GEdge) (x y1 y2 : Int) : Prop := e.dir = .N ∧ e.lo = ⟨x, y1⟩ ∧ e.hi = ⟨x, y2⟩
def LeftSide (e : GEdge) (x y1 y2 : Int) : Prop := e.dir = .S ∧ e.lo = ⟨x, y2⟩ ∧ e.hi = ⟨x, y1⟩

/-- metal of the two nets really ends below and above the gap `m`, along more than a point -/
def FacingV (P : GEdge → Prop) (m : Box) : Prop :=
  (∃ e y x1 x2, P e ∧ UpperSide e y x1 x2 ∧ m.bottom ≤ y ∧ y < m.top ∧ x1 < m.right ∧ m.left < x2) ∧
  (∃ e y x1 x2, P e ∧ LowerSide e y x1 x2 ∧ m.bottom < y ∧ y ≤ m.top ∧ x1 < m.right ∧ m.left < x2)

/-- the same left and right of it -/
def FacingH (P : GEdge → Prop) (m : Box) : Prop :=
  (∃ e x y1 y2, P e ∧ RightSide e x y1 y2 ∧ m.left ≤ x ∧ x < m.right ∧ y1 < m.top ∧ m.bottom < y2) ∧
  (∃ e x y1 y2, P e ∧ LeftSide e x y1 y2 ∧ m.left < x ∧ x ≤ m.right ∧ y1 < m.top ∧ m.bottom < y2)

/-- metal of the two nets ends on two opposite border lines of `m` and touches them (shapes that do not run alongside) -/
def FacingCorner (P : GEdge → Prop) (m : Box) : Prop :=
  ((∃ e x1 x2, P e ∧ UpperSide e m.bottom x1 x2 ∧ x1 ≤ m.right ∧ m.left ≤ x2) ∧
   (∃ e x1 x2, P e ∧ LowerSide e m.top x1 x2 ∧ x1 ≤ m.right ∧ m.left ≤ x2)) ∨
  ((∃ e y1 y2, P e ∧ RightSide e m.left y1 y2 ∧ y1 ≤ m.top ∧ m.bottom ≤ y2) ∧
   (∃ e y1 y2, P e ∧ LeftSide e m.right y1 y2 ∧ y1 ≤ m.top ∧ m.bottom ≤ y2))

/-- the metal of the two nets ends at the gap -/
def Exposed (P : GEdge → Prop) (a b m : Box) : Prop :=
  (runLen a b ≤ 0 ∧ FacingCorner P m) ∨ (0 < sharedX a b ∧ FacingV P m) ∨ (0 < sharedY a b ∧ FacingH P m)

/-- the unit square with lower left corner `c` lies in a rectangle -/
def CellOf (b : Box) (c : Point) : Prop := b.left ≤ c.x ∧ c.x < b.right ∧ b.bottom ≤ c.y ∧ c.y < b.top

/-- some metal of `b` within `w` of `m` is not part of the fixed shapes -/
def RoutedNear (fixed : List Box) (b m : Box) (w : Int) : Prop :=
  ∃ c, CellOf b c ∧ m.left - w ≤ c.x ∧ c.x < m.right + w ∧ m.bottom - w ≤ c.y ∧ c.y < m.top + w ∧
    ∀ s ∈ fixed, ¬ CellOf s c

/-- width that counts for the spacing table: that of the layer for blockages, if so configured -/
def CountedWidth (D : GDb) (r : GRect) : Int :=
  if (D.net r.net).obs = true ∧ D.useMinObs = true then D.layer.width else min (r.box.right - r.box.left) (r.box.top - r.box.bottom)

/-- the same-net spacing `x` of the layer applies to two rectangles -/
def SameNetRule (D : GDb) (r s : GRect) (x : Int) : Prop :=
  ∃ pg, D.layer.samenet = some (x, pg) ∧ r.net = s.net ∧ (D.net r.net).obs = false ∧ (pg = true → (D.net r.net).pg = true)

/-- the spacing that the rules of the layer require between two rectangles -/
def Required (D : GDb) (r s : GRect) (q : Int) : Prop :=
  match D.layer.minSpc with
  | some (.prl t) =>
    (∃ x, SameNetRule D r s x ∧ q = max x t.findMin) ∨
    ((∀ x, ¬ SameNetRule D r s x) ∧ t.find (max (CountedWidth D r) (CountedWidth D s)) (runLen r.box s.box) = some q)
  | _ => q = 0

/-- a routed part of a net lies in `m` (in a neighbourhood of it, if it is flat) -/
def RoutedIn (route : List Box) (m : Box) : Prop :=
  ∃ c, (∃ s ∈ route, CellOf s c) ∧
    (m.left ≤ c.x ∧ c.x < m.right ∨ m.left = m.right ∧ (c.x = m.left ∨ c.x = m.left - 1)) ∧
    (m.bottom ≤ c.y ∧ c.y < m.top ∨ m.bottom = m.top ∧ (c.y = m.bottom ∨ c.y = m.bottom - 1))

/-- edges of one of two nets -/
def EdgesOf (D : GDb) (n1 n2 : Nat) (e : GEdge) : Prop := e ∈ D.edges ∧ (e.net = n1 ∨ e.net = n2)

/-- the objects of a violation: those two, in the order of their addresses -/
def NamesOwners (D : GDb) (r s : GRect) (srcs : List Nat) : Prop :=
  srcs.Pairwise (· < ·) ∧ ∀ o, o ∈ srcs ↔ o = (D.net r.net).owner ∨ o = (D.net s.net).owner

/-- `m` is a spacing violation of two rectangles between which the spacing `q` is required -/
def SpacingViolation (D : GDb) (r s : GRect) (q : Int) (m : GMk) : Prop :=
  ¬ Touches r.box s.box ∧ (r.fixed = false ∨ s.fixed = false) ∧ Closer r.box s.box q ∧
  IsBetween r.box s.box m.box ∧ Exposed (EdgesOf D r.net s.net) r.box s.box m.box ∧
  (RoutedNear (D.fixedPolys r.net) r.box m.box (min (r.box.right - r.box.left) (r.box.top - r.box.bottom)) ∨
   RoutedNear (D.fixedPolys s.net) s.box m.box (min (s.box.right - s.box.left) (s.box.top - s.box.bottom))) ∧
  m.layer = D.layer.num ∧ m.rule = .spacing ∧ NamesOwners D r s m.srcs

/-- the blockage and pin exception: the common part of a blockage and a pin lies in one rectangle of the fixed shapes of the pin -/
def ObsOverPin (D : GDb) (r s : GRect) (m : Box) : Prop :=
  ((D.net r.net).obs = true ∧ (D.net s.net).obs = false ∧ ∃ b ∈ D.fixedMax s.net, b.left ≤ m.left ∧ m.right ≤ b.right ∧ b.bottom ≤ m.bottom ∧ m.top ≤ b.top) ∨
  ((D.net r.net).obs = false ∧ (D.net s.net).obs = true ∧ ∃ b ∈ D.fixedMax r.net, b.left ≤ m.left ∧ m.right ≤ b.right ∧ b.bottom ≤ m.bottom ∧ m.top ≤ b.top)

/-- `m` is a short of two touching rectangles of different nets -/
def ShortViolation (D : GDb) (r s : GRect) (m : GMk) : Prop :=
  r.net ≠ s.net ∧ Touches r.box s.box ∧ (r.fixed = false ∨ s.fixed = false) ∧ IsBetween r.box s.box m.box ∧
  ¬ ObsOverPin D r s m.box ∧ (RoutedIn (D.routePolys r.net) m.box ∨ RoutedIn (D.routePolys s.net) m.box) ∧
  m.layer = D.layer.num ∧ m.rule = .short ∧ NamesOwners D r s m.srcs

/-- an extent below the minimum width of the layer -/
def Thin (D : GDb) (b : Box) : Prop := b.right - b.left < D.layer.minWidth ∨ b.top - b.bottom < D.layer.minWidth

/-- the common part of two rectangles has a diagonal of at least the minimum width -/
def JoinsWell (D : GDb) (a b : Box) : Prop :=
  0 ≤ sharedX a b ∧ 0 ≤ sharedY a b ∧ (D.layer.minWidth * D.layer.minWidth : Int) ≤ sharedX a b * sharedX a b + sharedY a b * sharedY a b

/-- `m` is a violation of the rule that metal of a net must hang together over at least the minimum width: two touching
rectangles of the net, neither of them too thin, share too little, and no third one joins both well enough -/
def WeakJoint (D : GDb) (r s : GRect) (m : GMk) : Prop :=
  r.net = s.net ∧ Touches r.box s.box ∧ (r.fixed = false ∨ s.fixed = false) ∧ IsBetween r.box s.box m.box ∧
  RoutedIn (D.routePolys r.net) m.box ∧ ¬ JoinsWell D r.box s.box ∧ ¬ Thin D r.box ∧ ¬ Thin D s.box ∧
  (¬ ∃ t ∈ D.rects, t.id ≠ r.id ∧ t.id ≠ s.id ∧ t.net = r.net ∧ ¬ Thin D t.box ∧ JoinsWell D r.box t.box ∧ JoinsWell D s.box t.box ∧
    t.box.left ≤ m.box.left ∧ m.box.right ≤ t.box.right ∧ t.box.bottom ≤ m.box.bottom ∧ m.box.top ≤ t.box.top) ∧
  m.layer = D.layer.num ∧ m.rule = .nsMetal ∧ NamesOwners D r s m.srcs

/-- the squares that the spacing check computes fit into 32 bits -/
def FitsSpc (r s : GRect) (q : Int) : Prop :=
  q * q ≤ 2147483647 ∧
  max 0 (-sharedX r.box s.box) * max 0 (-sharedX r.box s.box) + max 0 (-sharedY r.box s.box) * max 0 (-sharedY r.box s.box) ≤ 2147483647

/-- the rectangles, edges and the spacing table are well formed -/
structure GDb.Ok (D : GDb) : Prop where
  rects : ∀ r ∈ D.rects, r.box.left < r.box.right ∧ r.box.bottom < r.box.top
  ids : ∀ r ∈ D.rects, ∀ s ∈ D.rects, r.id = s.id → r = s
  edges : ∀ e ∈ D.edges, e.Ok
  table : ∀ t, D.layer.minSpc = some (.prl t) → t.Ok

end TR
namespace TR

/-- the spacing rules are reasonable: table entries grow with width and run length and are not negative, the same-net spacing is not
above the largest table entry, and no spacing exceeds 32767 -/
structure GDb.RulesOk (D : GDb) : Prop where
  mono : ∀ t, D.layer.minSpc = some (.prl t) → t.Mono ∧ 0 ≤ t.findMin ∧ t.findMax ≤ 32767
  fixed : ∀ x, D.layer.minSpc = some (.fixed x) → 0 ≤ x ∧ x ≤ 32767
  same : ∀ t x pg, D.layer.minSpc = some (.prl t) → D.layer.samenet = some (x, pg) → 0 ≤ x ∧ x ≤ t.findMax
  minWidth : D.layer.minWidth ≤ 65535

/-- `m` is a violation between two different rectangles -/
def Violation (D : GDb) (r s : GRect) (m : GMk) : Prop :=
  r.id ≠ s.id ∧ ((∃ q, Required D r s q ∧ SpacingViolation D r s q m) ∨ ShortViolation D r s m ∨ WeakJoint D r s m)

end TR
