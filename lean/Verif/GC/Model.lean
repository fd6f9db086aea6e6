import Verif.WB.Model
import Verif.Tech.Model
/-! # Geometry checker: violation store, metal spacing and shorts on one layer

Models `src/gc/FlexGC.cpp` (violation store) and the metal part of `src/gc/FlexGC_main.cpp`.

Simplifications
* Coordinates are integers.  The places where the code multiplies 32-bit `int`s are modelled with an explicit overflow
  outcome (`GOut.ub`); additions and subtractions of coordinates are assumed not to overflow.
* The shapes of the worker (maximal rectangles, polygon edges, fixed and routed areas per net) are given as lists:
  boost::polygon's Boolean operations and its r-trees are not modelled.  The area of an intersection is the number of
  unit cells in it.  A query of an r-tree returns the matching objects in any order.
* Pointers to nets, owners and rectangles are natural numbers. -/
namespace TR

/-! ### the store of violations -/

/-- the rule of a violation (`frConstraint*`) -/
inductive GRule where
  | spacing | short | nsMetal | other (n : Nat)
deriving DecidableEq, Repr

/-- `frMarker`, as far as the store looks at it — src/db/obj/frMarker.h:39-140; `srcs` is the content of a `std::set` of
pointers in order. -/
structure GMk where
  box : Box
  layer : Int
  rule : GRule
  srcs : List Nat
deriving DecidableEq, Repr

abbrev GKey := Box × Int × GRule × Option Nat × Option Nat

/-- `markers` and `mapMarkers` — src/gc/FlexGC_impl.h:114-115. -/
structure GStore where
  keys : List GKey
  markers : List GMk

/-- `FlexGCWorker::Impl::addMarker` — src/gc/FlexGC.cpp:50-70.  Simplification: at most two sources (`srcs.at(i)` throws
for a third one). -/
def addMarker (s : GStore) (m : GMk) : GStore × Bool :=
  let s0 := m.srcs[0]?
  let s1 := m.srcs[1]?
  if s.keys.contains (m.box, m.layer, m.rule, s0, s1) then (s, false)
  else if s.keys.contains (m.box, m.layer, m.rule, s1, s0) then (s, false)
  else (⟨(m.box, m.layer, m.rule, s0, s1) :: s.keys, s.markers ++ [m]⟩, true)

/-- a sequence of calls of `addMarker` -/
def addMarkers (s : GStore) (ms : List GMk) : GStore := ms.foldl (fun s m => (addMarker s m).1) s

/-- `clearMarkers` — src/gc/FlexGC_impl.h:75-78. -/
def clearMarkers (_ : GStore) : GStore := ⟨[], []⟩

/-- `addSrc` twice — src/db/obj/frMarker.h:65-67: a set of pointers -/
def srcPair (a b : Nat) : List Nat := if a = b then [a] else if a < b then [a, b] else [b, a]

/-! ### shapes -/

/-- `gcNet` with its owner: is the owner a blockage (`frcInstBlockage`, `frcBlockage`), is it a power or ground net or pin -/
structure GNet where
  owner : Nat
  obs : Bool
  pg : Bool

/-- `gcRect`: a maximal rectangle — src/db/gcObj/gcShape.h:264-345. `id` is its address. -/
structure GRect where
  id : Nat
  box : Box
  net : Nat
  fixed : Bool
deriving DecidableEq

/-- `frDirEnum` of a polygon edge -/
inductive EDir where | W | E | N | S
deriving DecidableEq

/-- `gcSegment`: an edge of a polygon, from `lo` to `hi` (`low()`, `high()`), the metal on its left -/
structure GEdge where
  net : Nat
  dir : EDir
  lo : Point
  hi : Point

/-- what the checks read of a routing layer -/
structure GLayer where
  num : Int
  width : Int
  minWidth : Nat
  minSpc : Option SpcRule
  samenet : Option (Int × Bool)

/-- the shapes of a worker on one layer -/
structure GDb where
  layer : GLayer
  useMinObs : Bool
  net : Nat → GNet
  fixedPolys : Nat → List Box
  routePolys : Nat → List Box
  fixedMax : Nat → List Box
  rects : List GRect
  edges : List GEdge

/-- outcome of checking one pair of rectangles: undefined behaviour, nothing reported, or a reported violation -/
inductive GOut where
  | ub | ok | mk (m : GMk)
deriving DecidableEq

/-- product of two 32-bit `int`s; `none` if it overflows -/
def mul32 (a b : Int) : Option Int := if -2147483648 ≤ a * b ∧ a * b ≤ 2147483647 then some (a * b) else none

/-- sum of two 32-bit `int`s -/
def add32 (a b : Int) : Option Int := if -2147483648 ≤ a + b ∧ a + b ≤ 2147483647 then some (a + b) else none

/-- distance of two intervals (boost::polygon `euclidean_distance`) as used in src/gc/FlexGC_main.cpp:666-667. -/
def ivDist (a b c d : Int) : Int := if b < c then c - b else if d < a then a - d else 0

/-- insertion into a sorted list -/
def insSorted (x : Int) : List Int → List Int
  | [] => [x]
  | y :: t => if x ≤ y then x :: y :: t else y :: insSorted x t

/-- sorting the four coordinates of two intervals -/
def sort4 (a b c d : Int) : List Int := insSorted a (insSorted b (insSorted c [d]))

/-- boost::polygon `generalized_intersect` of two rectangles, used in src/gc/FlexGC_main.cpp:669: the middle two of the four
sorted coordinates in each direction -/
def genIntersect (r s : Box) : Box :=
  ⟨⟨(sort4 r.left r.right s.left s.right).getD 1 0, (sort4 r.bottom r.top s.bottom s.top).getD 1 0⟩,
   ⟨(sort4 r.left r.right s.left s.right).getD 2 0, (sort4 r.bottom r.top s.bottom s.top).getD 2 0⟩⟩

/-- `myBloat`, and boost::polygon's `bloat` — src/gc/FlexGC_main.cpp:96-101. -/
def gBloat (b : Box) (v : Int) : Box := ⟨⟨b.left - v, b.bottom - v⟩, ⟨b.right + v, b.top + v⟩⟩

/-- `gcRect::width` — src/db/gcObj/gcShape.h:301-304. -/
def GRect.width (r : GRect) : Int := min (r.box.right - r.box.left) (r.box.top - r.box.bottom)

/-- integers `a, a+1, …` below `b` -/
def intsFrom (a b : Int) : List Int := (List.range (b - a).toNat).map (fun (i : Nat) => a + (i : Int))

/-- unit cells of a rectangle, by their lower left corners -/
def unitCells (b : Box) : List Point := (intsFrom b.left b.right).flatMap (fun x => (intsFrom b.bottom b.top).map (fun y => ⟨x, y⟩))

/-- the unit cell with this lower left corner lies in the rectangle -/
def cellIn (b : Box) (c : Point) : Bool := decide (b.left ≤ c.x) && decide (c.x < b.right) && decide (b.bottom ≤ c.y) && decide (c.y < b.top)

/-- intersection of two rectangles -/
def boxMeet (a b : Box) : Box := ⟨⟨max a.left b.left, max a.bottom b.bottom⟩, ⟨min a.right b.right, min a.top b.top⟩⟩

/-- area of the part of `b` that is covered by the shapes -/
def coveredArea (b : Box) (shapes : List Box) : Nat := (unitCells b).countP (fun c => shapes.any (fun s => cellIn s c))

/-! ### spacing -/

/-- `checkMetalSpacing_getMaxSpcVal` — src/gc/FlexGC_main.cpp:103-120. -/
def maxSpc (D : GDb) : Int :=
  match D.layer.minSpc with
  | none => 0
  | some (.fixed s) => s
  | some (.prl t) => t.findMax
  | some (.tw _) => 0

/-- `checkMetalSpacing_prl_getReqSpcVal` — src/gc/FlexGC_main.cpp:187-253; `none`: the table has no such entry. -/
def reqSpc (D : GDb) (r1 r2 : GRect) (prl : Int) : Option Int :=
  let obs1 := (D.net r1.net).obs
  let obs2 := (D.net r2.net).obs
  let isObs := obs1 || obs2
  let w1 := if obs1 && D.useMinObs then D.layer.width else r1.width
  let w2 := if obs2 && D.useMinObs then D.layer.width else r2.width
  match D.layer.minSpc with
  | some (.prl t) =>
    match t.find (max w1 w2) prl with
    | none => none
    | some v =>
      if !isObs && r1.net == r2.net then
        match D.layer.samenet with
        | none => some v
        | some (s, pgOnly) => if !pgOnly || (D.net r1.net).pg then some (max s t.findMin) else some v
      else some v
  | _ => some 0

/-- `queryPolygonEdge`: the edge and the rectangle have a point in common -/
def edgeTouches (q : Box) (e : GEdge) : Bool :=
  q.overlaps ⟨⟨min e.lo.x e.hi.x, min e.lo.y e.hi.y⟩, ⟨max e.lo.x e.hi.x, max e.lo.y e.hi.y⟩⟩

/-- the four flags of `checkMetalSpacing_prl_hasPolyEdge` for one edge: bottom, top, left, right —
src/gc/FlexGC_main.cpp:274-311. -/
def edgeFlag (m : Box) (prl : Int) (e : GEdge) : Option (Fin 4) :=
  if prl ≤ 0 then
    if e.dir = .W ∧ e.lo.y = m.bottom then some 0
    else if e.dir = .E ∧ e.lo.y = m.top then some 1
    else if e.dir = .N ∧ e.lo.x = m.left then some 2
    else if e.dir = .S ∧ e.lo.x = m.right then some 3
    else none
  else
    if e.dir = .W ∧ (e.lo.y ≥ m.bottom ∧ e.lo.y < m.top) ∧ ¬ (e.lo.x ≤ m.left ∨ e.hi.x ≥ m.right) then some 0
    else if e.dir = .E ∧ (e.lo.y > m.bottom ∧ e.lo.y ≤ m.top) ∧ ¬ (e.hi.x ≤ m.left ∨ e.lo.x ≥ m.right) then some 1
    else if e.dir = .N ∧ (e.lo.x ≥ m.left ∧ e.lo.x < m.right) ∧ ¬ (e.hi.y ≤ m.bottom ∨ e.lo.y ≥ m.top) then some 2
    else if e.dir = .S ∧ (e.lo.x > m.left ∧ e.lo.x ≤ m.right) ∧ ¬ (e.lo.y ≤ m.bottom ∨ e.hi.y ≥ m.top) then some 3
    else none

/-- `checkMetalSpacing_prl_hasPolyEdge` — src/gc/FlexGC_main.cpp:258-321. -/
def hasPolyEdge (D : GDb) (n1 n2 : Nat) (m : Box) (type : Nat) (prl : Int) : Bool :=
  let result := D.edges.filter (fun e => edgeTouches m e && (e.net == n1 || e.net == n2))
  let flag (k : Fin 4) : Bool := result.any (fun e => edgeFlag m prl e == some k)
  if (type = 0 ∨ type = 2) ∧ (flag 0 && flag 1) = true then true
  else if (type = 1 ∨ type = 2) ∧ (flag 2 && flag 3) = true then true
  else false

/-- the search for a routed shape of one of the two rectangles — src/gc/FlexGC_main.cpp:357-395. -/
def hasRouteNear (D : GDb) (m : Box) (r : GRect) : Bool :=
  let widthRect := boxMeet (gBloat m r.width) r.box
  decide (coveredArea widthRect (D.fixedPolys r.net) < (unitCells widthRect).length)

/-- the violation built at the end of the two checks — src/gc/FlexGC_main.cpp:397-410, 583-600. -/
def pairMarker (D : GDb) (r1 r2 : GRect) (m : Box) (rule : GRule) : GMk :=
  ⟨Box.mk4 m.left m.bottom m.right m.top, D.layer.num, rule, srcPair (D.net r1.net).owner (D.net r2.net).owner⟩

/-- `checkMetalSpacing_prl` — src/gc/FlexGC_main.cpp:323-410. -/
def prlCheck (D : GDb) (r1 r2 : GRect) (m : Box) (prl distX distY : Int) : GOut :=
  match reqSpc D r1 r2 prl with
  | none => .ub
  | some req =>
    if r1.fixed && r2.fixed then .ok
    else
      match mul32 distX distX, mul32 distY distY, mul32 req req with
      | some xx, some yy, some qq =>
        match add32 xx yy with
        | some dd =>
          if dd ≥ qq then .ok
          else
            let type : Nat := if prl ≤ 0 then 2 else if distX = 0 then 0 else if distY = 0 then 1 else 0
            if !hasPolyEdge D r1.net r2.net m type prl then .ok
            else if hasRouteNear D m r1 || hasRouteNear D m r2 then .mk (pairMarker D r1 r2 m .spacing)
            else .ok
        | none => .ub
      | _, _, _ => .ub

/-! ### shorts -/

/-- `checkMetalSpacing_short_skipOBSPin` — src/gc/FlexGC_main.cpp:457-494. -/
def skipObsPin (D : GDb) (r1 r2 : GRect) (m : Box) : Bool :=
  let o1 := (D.net r1.net).obs
  let o2 := (D.net r2.net).obs
  if !o1 && !o2 then false
  else if o1 && o2 then false
  else
    let r := if o1 then r2 else r1
    (D.fixedMax r.net).any (fun b => b.containsBox m)

/-- the marker, enlarged by one unit where it has no extent — src/gc/FlexGC_main.cpp:512-518. -/
def bloatFlat (m : Box) : Box :=
  let dx : Int := if m.right - m.left = 0 then 1 else 0
  let dy : Int := if m.top - m.bottom = 0 then 1 else 0
  ⟨⟨m.left - dx, m.bottom - dy⟩, ⟨m.right + dx, m.top + dy⟩⟩

/-- sum of the squares of the two extents (64-bit in the code) -/
def diag2 (b : Box) : Int := (b.right - b.left) * (b.right - b.left) + (b.top - b.bottom) * (b.top - b.bottom)

/-- `minWidth * minWidth` in unsigned 32-bit arithmetic -/
def minWidthSq (D : GDb) : Int := ((D.layer.minWidth * D.layer.minWidth) % 4294967296 : Nat)

/-- an extent below the minimum width -/
def thin (D : GDb) (b : Box) : Bool := decide (b.right - b.left < D.layer.minWidth) || decide (b.top - b.bottom < D.layer.minWidth)

/-- a third shape that joins the two — src/gc/FlexGC_main.cpp:546-580. -/
def bridges (D : GDb) (r1 r2 : GRect) (m : Box) (q : Box) (o : GRect) : Bool :=
  q.overlaps o.box && o.id != r1.id && o.id != r2.id && o.net == r1.net && o.box.containsBox m && !thin D o.box &&
    r1.box.overlaps o.box && r2.box.overlaps o.box &&
    decide (diag2 (boxMeet r1.box o.box) ≥ minWidthSq D) && decide (diag2 (boxMeet r2.box o.box) ≥ minWidthSq D)

/-- `checkMetalSpacing_short` — src/gc/FlexGC_main.cpp:496-600. -/
def shortCheck (D : GDb) (r1 r2 : GRect) (m : Box) : GOut :=
  if r1.fixed && r2.fixed then .ok
  else if skipObsPin D r1 r2 m then .ok
  else
    let b := bloatFlat m
    if coveredArea b (D.routePolys r1.net) = 0 ∧ coveredArea b (D.routePolys r2.net) = 0 then .ok
    else if r1.net = r2.net then
      if diag2 m ≥ minWidthSq D then .ok
      else if thin D r1.box || thin D r2.box then .ok
      else
        let c : Point := ⟨Int.tdiv (m.right + m.left) 2, Int.tdiv (m.top + m.bottom) 2⟩
        let q := gBloat ⟨c, c⟩ D.layer.minWidth
        if D.rects.any (bridges D r1 r2 m q) then .ok
        else .mk (pairMarker D r1 r2 m .nsMetal)
    else .mk (pairMarker D r1 r2 m .short)

/-! ### pairs, windows, layers -/

/-- `checkMetalSpacing_main(gcRect*, gcRect*)` — src/gc/FlexGC_main.cpp:656-687. -/
def checkPair (D : GDb) (r1 r2 : GRect) : GOut :=
  if r1.id = r2.id then .ok
  else
    let distX := ivDist r1.box.left r1.box.right r2.box.left r2.box.right
    let distY := ivDist r1.box.bottom r1.box.top r2.box.bottom r2.box.top
    let m := genIntersect r1.box r2.box
    let prlX := if distX ≠ 0 then -(m.right - m.left) else m.right - m.left
    let prlY := if distY ≠ 0 then -(m.top - m.bottom) else m.top - m.bottom
    if distX = 0 ∧ distY = 0 then shortCheck D r1 r2 m
    else prlCheck D r1 r2 m (max prlX prlY) distX distY

/-- the window query of `checkMetalSpacing_main(gcRect*)` — src/gc/FlexGC_main.cpp:691-741 -/
def spcWindow (D : GDb) (r : GRect) : List GRect := D.rects.filter (fun s => (gBloat r.box (maxSpc D)).overlaps s.box)

/-- the outcome of one pair, entered into the store; `none` after undefined behaviour -/
def stepOut (s : Option GStore) (o : GOut) : Option GStore :=
  match s, o with
  | none, _ => none
  | some _, .ub => none
  | some s, .ok => some s
  | some s, .mk m => some (addMarker s m).1

/-- `checkMetalSpacing_main(gcRect*)` — src/gc/FlexGC_main.cpp:691-741; `ord` is the order in which the query returns. -/
def checkRect (D : GDb) (ord : List GRect → List GRect) (s : Option GStore) (r : GRect) : Option GStore :=
  (ord (spcWindow D r)).foldl (fun s t => stepOut s (checkPair D r t)) s

/-- `checkMetalSpacing` on one layer — src/gc/FlexGC_main.cpp:743-776: all nets (`target = none`) or one net. -/
def checkLayer (D : GDb) (ord : List GRect → List GRect) (target : Option Nat) (s : GStore) : Option GStore :=
  (D.rects.filter (fun r => match target with | none => true | some n => r.net == n)).foldl (checkRect D ord) (some s)

end TR
