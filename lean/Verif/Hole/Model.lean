import Verif.GC.Shape
import Verif.GC.Rects.Model
/-! # Geometry checker: steps at line ends, holes, all shape rules together, patches

Models `checkMetalShape_lef58MinStep(_noBetweenEol)`, `checkMetalShape_minEnclosedArea`, `checkMetalShape_main`, `checkMetalShape` and
`patchMetalShape(_helper)` of `src/gc/FlexGC_main.cpp`, and the reading of MINENCLOSEDAREA in `src/io/io.cpp`.

Simplifications
* The outline of a polygon is the circular list of its edges, a hole the list of its corners, as boost::polygon gives them.
* The results are lists of boxes with the rule that is broken; that `addMarker` drops repeated violations is C61 and not repeated here.
* `checkMetalShape_minArea` (src/gc/FlexGC_main.cpp:1304-1393) is not called by the program: its call is commented out. -/
namespace TR

/-! ### steps at the end of a line -/

/-- `frLef58MinStepConstraint`, what the check reads of it: the length and the width of NOBETWEENEOL (`-1`: `none`) -/
structure Step58 where
  id : Nat
  len : Int
  eol : Option Int
deriving DecidableEq

/-- the corner between two edges is convex: boost::polygon `orientation` is 1 — src/gc/FlexGC_init.cpp:601-603 -/
def convexAt (a b : OEdge) : Bool :=
  decide (0 < (a.hi.x - a.lo.x) * (b.hi.y - b.lo.y) - (a.hi.y - a.lo.y) * (b.hi.x - b.lo.x))

/-- one start edge — src/gc/FlexGC_main.cpp:1429-1472: start edge, its next edge, the next after that -/
def step58At (len eol : Int) (s n nn : OEdge) : Option Box :=
  if ¬ s.len < len then none
  else if nn.len ≥ len then none
  else if !convexAt s n || !convexAt n nn then none
  else if n.len ≥ eol then none
  else if s.fixed && n.fixed && nn.fixed then none
  else some (Box.mk4 (min (min (min s.lo.x s.hi.x) n.hi.x) nn.hi.x) (min (min (min s.lo.y s.hi.y) n.hi.y) nn.hi.y)
    (max (max (max s.lo.x s.hi.x) n.hi.x) nn.hi.x) (max (max (max s.lo.y s.hi.y) n.hi.y) nn.hi.y))

/-- `checkMetalShape_lef58MinStep_noBetweenEol` on one outline — src/gc/FlexGC_main.cpp:1403-1480. -/
def step58Outline (len eol : Int) (es : List OEdge) : List Box :=
  (List.range es.length).filterMap (fun i =>
    step58At len eol (es.getD i default) (es.getD ((i + 1) % es.length) default) (es.getD ((i + 2) % es.length) default))

/-- `checkMetalShape_lef58MinStep` — src/gc/FlexGC_main.cpp:1513-1528: rules without NOBETWEENEOL are skipped. -/
def step58Check (rules : List Step58) (rings : List (List OEdge)) : List (Nat × Box) :=
  rules.flatMap (fun r => match r.eol with
    | none => []
    | some w => rings.flatMap (fun es => (step58Outline r.len w es).map (fun b => (r.id, b))))

/-! ### holes -/

/-- the sides of a closed line through corners, the last one back to `p0` -/
def sidesFrom (p0 : Point) : List Point → List (Point × Point)
  | [] => []
  | [a] => [(a, p0)]
  | a :: b :: t => (a, b) :: sidesFrom p0 (b :: t)

/-- the sides of a polygon given by its corners -/
def polySides (ps : List Point) : List (Point × Point) :=
  match ps with
  | [] => []
  | p :: t => sidesFrom p (p :: t)

/-- boost::polygon `area` of a rectilinear polygon: the sum over the sides of `x · Δy`, without its sign -/
def polyArea (ps : List Point) : Nat := Int.natAbs ((polySides ps).map (fun e : Point × Point => e.1.x * (e.2.y - e.1.y))).sum

/-- boost::polygon `extents` -/
def extents : List Point → Box
  | [] => ⟨⟨0, 0⟩, ⟨0, 0⟩⟩
  | p :: t => t.foldl (fun b q => ⟨⟨min b.left q.x, min b.bottom q.y⟩, ⟨max b.right q.x, max b.top q.y⟩⟩) ⟨p, p⟩

/-- a MINENCLOSEDAREA statement of a layer: area in database units, WIDTH -/
structure HoleStmt where
  id : Nat
  area : Int
  width : Option Int
deriving DecidableEq

/-- the statements that become rules — src/io/io.cpp:3706-3720: those with a WIDTH are skipped with a warning. -/
def holeRules (ss : List HoleStmt) : List (Nat × Int) :=
  ss.filterMap (fun s => match s.width with
    | some _ => none
    | none => some (s.id, s.area))

/-- `checkMetalShape_minEnclosedArea` — src/gc/FlexGC_main.cpp:1784-1810: `metal` is the polygon, `routed` what the net routed on the layer. -/
def holeCheck (rules : List (Nat × Int)) (metal routed : List Box) (holes : List (List Point)) : List (Nat × Box) :=
  holes.flatMap (fun h => rules.filterMap (fun r =>
    if (polyArea h : Int) < r.2 then
      if metal.all (fun m => coveredArea m routed = 0) then none
      else some (r.1, extents h)
    else none))

/-! ### all shape rules -/

/-- the rule that a marker of the shape checks names -/
inductive ShapeRule where
  | width | area | step | step58 (id : Nat) | rectOnly | grid | hole (id : Nat)
deriving DecidableEq

/-- what the shape checks read of a routing layer -/
structure ShapeLayer where
  minWidth : Nat
  minArea : Option Int
  step : Option StepRule
  step58 : List Step58
  rectOnly : Bool
  holes : List HoleStmt

/-- `gcPin`: a polygon of a net on a layer, with everything that the shape checks compute from it: its slices, its outlines, its maximal
rectangles, its holes -/
structure ShapePin where
  net : Nat
  metal : List Box
  hSlices : List Box
  vSlices : List Box
  outlines : List (List OEdge)
  rects : List Box
  holes : List (List Point)

/-- the direction and the end of an edge -/
def OEdge.toR (e : OEdge) : REdge :=
  (if e.lo.x < e.hi.x then .E else if e.hi.x < e.lo.x then .W else if e.lo.y < e.hi.y then .N else .S, e.hi)

/-- run a check over all outlines, `none` if one of them does not end -/
def stepAll (c : StepRule) : List (List OEdge) → Option (List Box)
  | [] => some []
  | es :: t => match minStepCheck c es, stepAll c t with
    | some a, some b => some (a ++ b)
    | _, _ => none

/-- `checkMetalShape_minStep` — src/gc/FlexGC_main.cpp:1530-1620: nothing without a rule. -/
def stepPin (rule : Option StepRule) (rings : List (List OEdge)) : Option (List Box) :=
  match rule with
  | none => some []
  | some c => stepAll c rings

/-- `checkMetalShape_main` — src/gc/FlexGC_main.cpp:1849-1893; `fixed` and `routed` are the fixed and the routed metal of the net on the
layer.  `none`: a check does not end or divides by zero. -/
def shapeMain (L : ShapeLayer) (grid : Int) (fixed routed : List Box) (P : ShapePin) : Option (List (ShapeRule × Box)) :=
  let width := minWidthCheck L.minWidth fixed P.hSlices P.vSlices
  match stepPin L.step P.outlines, offGridCheck grid routed P.rects with
  | some step, some off =>
    some (width.map (fun b => (.width, b)) ++ step.map (fun b => (.step, b)) ++
      (step58Check L.step58 P.outlines).map (fun x => (.step58 x.1, x.2)) ++
      (if L.rectOnly then (rectOnlyCheck L.minWidth P.metal fixed (P.outlines.map (·.map OEdge.toR))).map (fun b => (.rectOnly, b)) else []) ++
      off.map (fun b => (.grid, b)) ++
      (holeCheck (holeRules L.holes) P.metal routed P.holes).map (fun x => (.hole x.1, x.2)))
  | _, _ => none

/-- what `checkMetalShape` works on: the layers of the technology and the worker's bounds; nets with their pins -/
structure ShpDb where
  bottom : Int
  top : Int
  minLayer : Int
  maxLayer : Int
  grid : Int
  /-- `none`: not a routing layer -/
  layer : Int → Option ShapeLayer
  /-- the numbers of the nets -/
  nets : List Nat
  target : Option Nat
  owner : Nat → Nat
  pins : Nat → Int → List ShapePin
  fixed : Nat → Int → List Box
  routed : Nat → Int → List Box

/-- a marker of the shape checks: layer, owner of the net, rule, box -/
structure ShapeMk where
  layer : Int
  src : Nat
  rule : ShapeRule
  box : Box
deriving DecidableEq

/-- the pins of a net on a layer -/
def shapePins (D : ShpDb) (i : Int) (L : ShapeLayer) (n : Nat) : List (Option (List ShapeMk)) :=
  (D.pins n i).map (fun P => (shapeMain L D.grid (D.fixed n i) (D.routed n i) P).map (fun ms => ms.map (fun m => ⟨i, D.owner n, m.1, m.2⟩)))

/-- append all results, `none` if one is missing -/
def gatherAll {α : Type} : List (Option (List α)) → Option (List α)
  | [] => some []
  | none :: _ => none
  | some a :: t => match gatherAll t with
    | some b => some (a ++ b)
    | none => none

/-- `checkMetalShape` — src/gc/FlexGC_main.cpp:1895-1923. -/
def shapeAll (D : ShpDb) : Option (List ShapeMk) :=
  gatherAll ((intsFrom (max D.bottom D.minLayer) (min D.top D.maxLayer + 1)).flatMap (fun i =>
    match D.layer i with
    | none => []
    | some L => (match D.target with | some t => [t] | none => D.nets).flatMap (fun n => shapePins D i L n)))

/-! ### patches -/

/-- a figure that the worker has near a marker: what the patching reads of it -/
structure NearFig where
  via : Bool
  owner : Nat
  net : Nat
  layer1 : Int
  origin : Point
deriving DecidableEq

/-- `drPatchWire` -/
structure PatchMk where
  layer : Int
  net : Nat
  origin : Point
  off : Box
deriving DecidableEq

/-- the search for a via — src/gc/FlexGC_main.cpp:3655-3671: the first figure that fits. -/
def patchVia (m : ShapeMk) (figs : List NearFig) : Option NearFig :=
  figs.find? (fun f => f.via && decide (f.owner = m.src) && decide (f.layer1 = m.layer) &&
    !(decide (f.origin.x ≠ (m.box.left + m.box.right).tdiv 2) && decide (f.origin.y ≠ (m.box.bottom + m.box.top).tdiv 2)))

/-- one marker — src/gc/FlexGC_main.cpp:3635-3694; the figures are those that the worker's region query has in the box of the marker. -/
def patchOne (query : Box → Int → List NearFig) (m : ShapeMk) : Option PatchMk :=
  if m.rule ≠ .step then none
  else if m.layer ≠ 10 then none
  else match patchVia m (query m.box m.layer) with
    | none => none
    | some f =>
      some ⟨m.layer, f.net, f.origin,
        ⟨⟨min m.box.left f.origin.x - f.origin.x, min m.box.bottom f.origin.y - f.origin.y⟩,
         ⟨max m.box.right f.origin.x - f.origin.x, max m.box.top f.origin.y - f.origin.y⟩⟩⟩

/-- `patchMetalShape` — src/gc/FlexGC_main.cpp:3618-3627: the patches, the markers being dropped again. -/
def patchShapes (D : ShpDb) (query : Box → Int → List NearFig) : Option (List PatchMk) :=
  (shapeAll D).map (fun ms => ms.filterMap (patchOne query))

/-- the patching of `main` — src/gc/FlexGC_main.cpp:3703-3705: only when enabled, inside detailed routing, for one technology. -/
def patchMain (surgical inDr gf14 : Bool) (D : ShpDb) (query : Box → Int → List NearFig) : Option (List PatchMk) :=
  if surgical && inDr && gf14 then patchShapes D query else some []

end TR
