import Verif.GC.Model
/-! # Geometry checker: spacing of corners

Models `initNet_pins_polygonCorners_helper` (src/gc/FlexGC_init.cpp:583-668) and `checkMetalCornerSpacing`
(src/gc/FlexGC_main.cpp:36-95, 122-182, 780-957, 1097-1155).

Simplifications
* An outline of a polygon is the list of its edges, in order, the metal on the left; the corner objects are computed from it.
* The `fixed` flag of a corner is not modelled (it is only copied into the violation).
* Of the options of a rule only the corner type, EXCEPTEOL, the table and SAMEXY are read by the check; the others are not modelled. -/
namespace TR

/-- `frCornerTypeEnum` -/
inductive CornKind where | convex | concave | unknown
deriving DecidableEq

/-- `frCornerDirEnum` -/
inductive CornDir where | unknown | ne | se | sw | nw
deriving DecidableEq

/-- sign of the cross product of two axis-parallel directions: boost::polygon `orientation` of two edges, as used in
src/gc/FlexGC_init.cpp:601. -/
def turnSign : EDir → EDir → Int
  | .E, .N | .N, .W | .W, .S | .S, .E => 1
  | .N, .E | .W, .N | .S, .W | .E, .S => -1
  | _, _ => 0

/-- the type of a corner — src/gc/FlexGC_init.cpp:601-608. -/
def cornKind (prev next : EDir) : CornKind :=
  if turnSign prev next = 1 then .convex else if turnSign prev next = -1 then .concave else .unknown

/-- the direction of a corner — src/gc/FlexGC_init.cpp:610-622. -/
def cornDir (prev next : EDir) : CornDir :=
  if (prev = .N ∧ next = .W) ∨ (prev = .W ∧ next = .N) then .ne
  else if (prev = .W ∧ next = .S) ∨ (prev = .S ∧ next = .W) then .nw
  else if (prev = .S ∧ next = .E) ∨ (prev = .E ∧ next = .S) then .sw
  else if (prev = .E ∧ next = .N) ∨ (prev = .N ∧ next = .E) then .se
  else .unknown

/-- boost::polygon `length` of an axis-parallel edge -/
def GEdge.span (e : GEdge) : Int := max (e.hi.x - e.lo.x) (e.lo.x - e.hi.x) + max (e.hi.y - e.lo.y) (e.lo.y - e.hi.y)

instance : Inhabited GEdge := ⟨⟨0, .E, ⟨0, 0⟩, ⟨0, 0⟩⟩⟩

/-- `gcCorner`, with what the check reads of its neighbours -/
structure GCorner where
  net : Nat
  pt : Point
  kind : CornKind
  dir : CornDir
  prevLen : Int
  nextLen : Int
  prevKind : CornKind
  nextKind : CornKind

/-- the corner between edge `i - 1` and edge `i` of an outline — src/gc/FlexGC_init.cpp:585-667; `i - 1` is counted around the outline. -/
def cornerAt (ring : List GEdge) (i : Nat) : GCorner :=
  let n := ring.length
  let e (k : Nat) : GEdge := ring.getD (k % n) default
  let prev := e (i + n - 1)
  let next := e i
  { net := next.net, pt := next.lo, kind := cornKind prev.dir next.dir, dir := cornDir prev.dir next.dir,
    prevLen := prev.span, nextLen := next.span,
    prevKind := cornKind (e (i + n - 2)).dir prev.dir, nextKind := cornKind next.dir (e (i + 1)).dir }

/-- the corners of an outline, in order — src/gc/FlexGC_init.cpp:589-667. -/
def cornersOf (ring : List GEdge) : List GCorner := (List.range ring.length).map (cornerAt ring)

/-- `frLef58CornerSpacingConstraint` — src/db/tech/frConstraint.h:1704-1870: corner type, EXCEPTEOL width, table, SAMEXY. -/
structure CornRule where
  id : Nat
  kind : CornKind
  eol : Option Int
  rows : List Int
  valsX : List Int
  valsY : List Int
  sameXY : Bool

/-- `isCornerOverlap` — src/gc/FlexGC_main.cpp:36-64. -/
def cornerOn (c : GCorner) (b : Box) : Bool :=
  match c.dir with
  | .ne => decide (c.pt.x = b.right) && decide (c.pt.y = b.top)
  | .se => decide (c.pt.x = b.right) && decide (c.pt.y = b.bottom)
  | .sw => decide (c.pt.x = b.left) && decide (c.pt.y = b.bottom)
  | .nw => decide (c.pt.x = b.left) && decide (c.pt.y = b.top)
  | .unknown => false

/-- `checkMetalCornerSpacing_getMaxSpcVal` — src/gc/FlexGC_main.cpp:122-134. -/
def cornMax (rules : List CornRule) : Int × Int :=
  rules.foldl (fun m r => (max m.1 (r.valsX.getLastD 0), max m.2 (r.valsY.getLastD 0))) (0, 0)

/-- `checkMetalCornerSpacing_getQueryBox` — src/gc/FlexGC_main.cpp:149-184. -/
def cornWindow (c : GCorner) (m : Int × Int) : Box :=
  match c.dir with
  | .ne => ⟨⟨c.pt.x, c.pt.y⟩, ⟨c.pt.x + m.1, c.pt.y + m.2⟩⟩
  | .se => ⟨⟨c.pt.x, c.pt.y - m.2⟩, ⟨c.pt.x + m.1, c.pt.y⟩⟩
  | .sw => ⟨⟨c.pt.x - m.1, c.pt.y - m.2⟩, ⟨c.pt.x, c.pt.y⟩⟩
  | .nw => ⟨⟨c.pt.x - m.1, c.pt.y⟩, ⟨c.pt.x, c.pt.y + m.2⟩⟩
  | .unknown => ⟨c.pt, c.pt⟩

/-- the corner is exempt as the end of a line — src/gc/FlexGC_main.cpp:803-813. -/
def cornEol (c : GCorner) (rule : CornRule) : Bool :=
  match rule.eol with
  | none => false
  | some w =>
    decide (c.kind = .convex) &&
      ((decide (c.nextKind = .convex) && decide (c.nextLen < w)) || (decide (c.prevKind = .convex) && decide (c.prevLen < w)))

/-- the violation of a corner and a rectangle — src/gc/FlexGC_main.cpp:885-899. -/
def cornMarker (D : GDb) (rule : CornRule) (c : GCorner) (r : GRect) : GMk :=
  let m := genIntersect ⟨c.pt, c.pt⟩ r.box
  ⟨Box.mk4 m.left m.bottom m.right m.top, D.layer.num, .other rule.id, srcPair (D.net c.net).owner (D.net r.net).owner⟩

/-- the loop over the rectangles that have the corner as one of theirs — src/gc/FlexGC_main.cpp:822-956; `none` in the table lookup
is an access outside the table. -/
def cornLoop (D : GDb) (rule : CornRule) (c : GCorner) (r : GRect) : List GRect → GOut
  | [] => .ok
  | o :: rest =>
    if o.net ≠ c.net then cornLoop D rule c r rest
    else if !cornerOn c o.box then cornLoop D rule c r rest
    else
      let m := genIntersect ⟨c.pt, c.pt⟩ r.box
      let maxXY := if m.right - m.left ≥ m.top - m.bottom then m.right - m.left else m.top - m.bottom
      if rule.sameXY then
        match tbl1Find rule.rows rule.valsX o.width with
        | none => .ub
        | some req =>
          if maxXY ≥ req then cornLoop D rule c r rest
          else if r.fixed && o.fixed then cornLoop D rule c r rest
          else if !(hasRouteNear D m o || hasRouteNear D m r) then cornLoop D rule c r rest
          else .mk (cornMarker D rule c r)
      else cornLoop D rule c r rest

/-- `checkMetalCornerSpacing_main(gcCorner*, gcRect*, …)` — src/gc/FlexGC_main.cpp:780-957; `ord` is the order in which the query
returns. -/
def cornPair (D : GDb) (ord : List GRect → List GRect) (rule : CornRule) (c : GCorner) (r : GRect) : GOut :=
  if c.kind ≠ rule.kind then .ok
  else if (⟨c.pt, c.pt⟩ : Box).overlaps r.box then .ok
  else if rule.kind = .convex ∧ (r.box.left < c.pt.x ∧ c.pt.x < r.box.right) then .ok
  else if rule.kind = .convex ∧ (r.box.bottom < c.pt.y ∧ c.pt.y < r.box.top) then .ok
  else if cornEol c rule then .ok
  else cornLoop D rule c r (ord (D.rects.filter (fun o => (⟨c.pt, c.pt⟩ : Box).overlaps o.box)))

/-- `checkMetalCornerSpacing_main(gcCorner*)` — src/gc/FlexGC_main.cpp:1097-1116. -/
def cornCheck (D : GDb) (ord : List GRect → List GRect) (rules : List CornRule) (s : Option GStore) (c : GCorner) : Option GStore :=
  (ord (D.rects.filter (fun r => (cornWindow c (cornMax rules)).overlaps r.box))).foldl
    (fun s r => rules.foldl (fun s rule => stepOut s (cornPair D ord rule c r)) s) s

/-- `checkMetalCornerSpacing` on one layer — src/gc/FlexGC_main.cpp:1118-1155: all nets or one net; `rings` are the outlines of the
polygons of each net (`getPins`, `getPolygonCorners`); a layer without such rules is skipped. -/
def checkCorners (D : GDb) (ord : List GRect → List GRect) (rules : List CornRule) (rings : List (Nat × List GEdge)) (target : Option Nat)
    (s : GStore) : Option GStore :=
  if rules.isEmpty then some s
  else ((rings.filter (fun r => match target with | none => true | some n => r.1 == n)).flatMap (fun r => cornersOf r.2)).foldl
    (cornCheck D ord rules) (some s)

end TR
