import Verif.GC.Corner
/-! # Geometry checker: pins, edges and corners of a net

Models `initNet_pins_polygon` (src/gc/FlexGC_init.cpp:341-365), `initNet_pins_polygonEdges` (366-582), `initNet_pins_polygonCorners` (583-669),
`initNet_pins_maxRectangles` (671-729), `addPin` (src/db/gcObj/gcNet.h:61-73) and `getDir` (src/db/gcObj/gcShape.h:153-174).

Simplifications
* boost::polygon is not modelled: the polygons with holes that it makes of the shapes of a net on a layer are part of the input, once for all shapes and once
  for the fixed shapes alone, and so are the largest rectangles of a pin and of the fixed shapes.
* Pointers between edges and corners of one outline are indices in its list.
* An outline without vertices makes the program read past its end; `geFixedRing` takes it for an outline without edges (boost::polygon returns none). -/
namespace TR

/-- `polygon_90_with_holes_data` -/
structure GePoly where
  outer : List Point
  holes : List (List Point)
deriving DecidableEq

/-- the shapes of a net on one layer: merged polygons, polygons of the fixed metal alone, and the single rectangles (cuts) -/
structure GeShapes where
  merged : List GePoly
  fixedPolys : List GePoly
  routeRects : List Box
  fixedRects : List Box

/-- `addPin` for a rectangle: `set_compact` with xl, yl, xh, yh — src/db/gcObj/gcNet.h:66-73. -/
def geRectPoly (b : Box) : GePoly := ⟨[⟨b.left, b.bottom⟩, ⟨b.right, b.bottom⟩, ⟨b.right, b.top⟩, ⟨b.left, b.top⟩], []⟩

/-- the pins of a layer — src/gc/FlexGC_init.cpp:341-365. -/
def gePins (s : GeShapes) : List GePoly := s.merged ++ s.routeRects.map geRectPoly ++ s.fixedRects.map geRectPoly

/-- the loop from the second vertex to the last, and the last edge — src/gc/FlexGC_init.cpp:376-387, 389-402. -/
def geFixedLoop (first : Point) : Point → List Point → List (Point × Point)
  | bp, [] => [(bp, first)]
  | bp, ep :: t => (bp, ep) :: geFixedLoop first ep t

def geFixedRing : List Point → List (Point × Point)
  | [] => []
  | v :: t => geFixedLoop v v t

/-- the four edges of a fixed rectangle — src/gc/FlexGC_init.cpp:406-417. -/
def geFixedRect (b : Box) : List (Point × Point) :=
  [(⟨b.left, b.bottom⟩, ⟨b.right, b.bottom⟩), (⟨b.right, b.bottom⟩, ⟨b.right, b.top⟩), (⟨b.right, b.top⟩, ⟨b.left, b.top⟩), (⟨b.left, b.top⟩, ⟨b.left, b.bottom⟩)]

/-- `initNet_pins_polygonEdges_getFixedPolygonEdges` on one layer — src/gc/FlexGC_init.cpp:366-419. -/
def geFixed (s : GeShapes) : List (Point × Point) :=
  s.fixedPolys.flatMap (fun p => geFixedRing p.outer ++ p.holes.flatMap geFixedRing) ++ s.fixedRects.flatMap geFixedRect

/-- `gcSegment` in an outline; `prev` and `next` are `prev_edge` and `next_edge` -/
structure GeEdge where
  lo : Point
  hi : Point
  fixed : Bool
  prev : Option Nat
  next : Option Nat
deriving DecidableEq, Inhabited

/-- `tmpEdges.back()->setNextEdge(edge)` -/
def geLink (tmp : List GeEdge) : List GeEdge := tmp.modify (tmp.length - 1) (fun e => { e with next := some tmp.length })

/-- the loop over the second to the last vertex — src/gc/FlexGC_init.cpp:433-459, 502-528. -/
def geLoop (fx : List (Point × Point)) : Point → List Point → List GeEdge → Point × List GeEdge
  | bp, [], tmp => (bp, tmp)
  | bp, ep :: t, tmp =>
    let e : GeEdge := ⟨bp, ep, decide ((bp, ep) ∈ fx), if tmp = [] then none else some (tmp.length - 1), none⟩
    geLoop fx ep t ((if tmp = [] then tmp else geLink tmp) ++ [e])

/-- `initNet_pins_polygonEdges_helper_outer` and `_inner` — src/gc/FlexGC_init.cpp:421-487, 489-555. `none`: an outline of less than two vertices, for which
the program reads past the end of the vertices or of the edges. -/
def geRing (fx : List (Point × Point)) : List Point → Option (List GeEdge)
  | [] => none
  | v :: t =>
    let r := geLoop fx v t []
    if r.2 = [] then none
    else
      let e : GeEdge := ⟨r.1, v, decide ((r.1, v) ∈ fx), some (r.2.length - 1), some 0⟩
      some ((geLink r.2).modify 0 (fun f => { f with prev := some r.2.length }) ++ [e])

/-- the outlines of a pin: the outer one and then the holes — src/gc/FlexGC_init.cpp:557-582. -/
def gePin (s : GeShapes) (p : GePoly) : Option (List (List GeEdge)) := (p.outer :: p.holes).mapM (geRing (geFixed s))

/-- `getDir` — src/db/gcObj/gcShape.h:153-174. -/
def geDir (lo hi : Point) : EDir :=
  if lo.x = hi.x then (if lo.y < hi.y then .N else .S) else (if lo.x < hi.x then .E else .W)

/-- `gcCorner` -/
structure GeCorner where
  pt : Point
  prevEdge : Nat
  nextEdge : Nat
  kind : CornKind
  dir : CornDir
  fixed : Bool
  prevCorner : Option Nat
  nextCorner : Option Nat
deriving DecidableEq

instance : Inhabited GeCorner := ⟨⟨default, 0, 0, .unknown, .unknown, false, none, none⟩⟩

/-- `isCornerOverlap` — src/gc/FlexGC_main.cpp:36-64. -/
def geCornerOn (d : CornDir) (p : Point) (b : Box) : Bool := match d with
  | .ne => decide (p.x = b.right) && decide (p.y = b.top)
  | .se => decide (p.x = b.right) && decide (p.y = b.bottom)
  | .sw => decide (p.x = b.left) && decide (p.y = b.bottom)
  | .nw => decide (p.x = b.left) && decide (p.y = b.top)
  | .unknown => false

/-- the fixed flag of a corner — src/gc/FlexGC_init.cpp:625-643; a corner of unknown type keeps `false` (gcShape.h:67). -/
def geCornerFixed (s : GeShapes) (k : CornKind) (d : CornDir) (p : Point) : Bool := match k with
  | .convex => s.fixedRects.any (geCornerOn d p)
  | .concave => !(s.routeRects.any (fun b => b.containsPt p true && !b.containsPt p false))
  | .unknown => false

/-- the loop over the edges of an outline, for edge `i` on — src/gc/FlexGC_init.cpp:589-650. The second list gives, for each edge, its low and high corner. -/
def geCornLoop (s : GeShapes) (es : List GeEdge) : Nat → Nat → Nat → List GeCorner → List (Option Nat × Option Nat) → List GeCorner × List (Option Nat × Option Nat)
  | 0, _, _, cs, ls => (cs, ls)
  | fuel + 1, prev, i, cs, ls =>
    let p := es.getD prev default
    let q := es.getD i default
    let k := cornKind (geDir p.lo p.hi) (geDir q.lo q.hi)
    let d := cornDir (geDir p.lo p.hi) (geDir q.lo q.hi)
    let c : GeCorner := ⟨p.hi, prev, i, k, d, geCornerFixed s k d (match k with | .convex => p.hi | _ => q.lo), if cs = [] then none else some (cs.length - 1), none⟩
    let cs' := (if cs = [] then cs else cs.modify (cs.length - 1) (fun c => { c with nextCorner := some cs.length })) ++ [c]
    let ls' := (ls.modify prev (fun l => (l.1, some i))).modify i (fun l => (some i, l.2))
    geCornLoop s es fuel i (i + 1) cs' ls'

/-- `initNet_pins_polygonCorners_helper` for one outline — src/gc/FlexGC_init.cpp:583-659. -/
def geCorners (s : GeShapes) (es : List GeEdge) : List GeCorner × List (Option Nat × Option Nat) :=
  let r := geCornLoop s es es.length (es.length - 1) 0 [] (es.map (fun _ => (none, none)))
  let last := r.1.length - 1
  ((r.1.modify last (fun c => { c with nextCorner := some 0 })).modify 0 (fun c => { c with prevCorner := some last }), r.2)

/-- `initNet_pins_maxRectangles` for one pin: each largest rectangle with its fixed flag — src/gc/FlexGC_init.cpp:671-729. -/
def geRects (s : GeShapes) (maxFixed maxPin : List Box) : List (Box × Bool) :=
  maxPin.map (fun b => (b, decide ((b.ll, b.ur) ∈ maxFixed.map (fun r => (r.ll, r.ur)) ++ s.fixedRects.map (fun r => (r.ll, r.ur)))))

end TR
