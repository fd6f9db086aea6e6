import Verif.Track.Model
/-!
# Construction of the maze grid

Models `FlexDRWorker::initTrackCoords` and `initMazeIdx` (src/dr/FlexDR_init.cpp:1837-2120) and
`FlexGridGraph::init`, `initTracks`, `initGrids`, `initEdges` (src/dr/FlexGridGraph.cpp:38-400):
which coordinates the maze grid of a region has, which edges it starts with, and which of them
are marked as off-track.

Simplifications: every routing layer is horizontal or vertical; coordinates and layer numbers are
unbounded integers; the inner maps (layer → track pattern) are only searched by the code and are
functions here, `some true` for a pattern and `some false` for a null pointer; debugging output is
left out.
-/
namespace TR

/-- The parts of the technology and design the construction reads: the routing layers in order and
their directions (true = horizontal), the topmost layer number (src/db/tech/frTechObject.h:76-78),
the layer range open to planar routing (src/global.h), the RIGHTWAYONGRIDONLY flags, the global
USENONPREFTRACKS (src/global.cpp:59), the track patterns with their `isHorizontal` flag (true: the
pattern lists x coordinates; src/db/obj/frTrackPattern.h:37-96), and the layer pitches. -/
structure GTech where
  layers : List Int
  hor : Int → Bool
  top : Int
  botRoute : Int
  topRoute : Int
  onGrid : Int → Bool
  nonPref : Bool
  pats : Int → List (Bool × TrackPat)
  pitch : Int → Int

/-- `map<frCoord, map<frLayerNum, frTrackPattern*>>`, in key order. -/
abbrev CoordMap := List (Int × (Int → Option Bool))

/-- `m[c][l] = v` — src/dr/FlexDR_init.cpp:1856-1934, src/dr/FlexGridGraph.cpp:387-389. -/
def CoordMap.put (c l : Int) (v : Bool) : CoordMap → CoordMap
  | [] => [(c, fun k => if k = l then some v else none)]
  | (a, f) :: m =>
    if c < a then (c, fun k => if k = l then some v else none) :: (a, f) :: m
    else if a < c then (a, f) :: CoordMap.put c l v m
    else (a, fun k => if k = l then some v else f k) :: m

/-- the two maps -/
structure CoordMaps where
  x : CoordMap
  y : CoordMap

/-- `xMap[c][l] = v` -/
def CoordMaps.putX (m : CoordMaps) (c l : Int) (v : Bool) : CoordMaps := { m with x := m.x.put c l v }
/-- `yMap[c][l] = v` -/
def CoordMaps.putY (m : CoordMaps) (c l : Int) (v : Bool) : CoordMaps := { m with y := m.y.put c l v }

/-- An existing object of a net of the region: a wire, a via, or an access point. Patches add no
coordinates (src/dr/FlexDR_init.cpp:1922-1923). -/
inductive BObj where
  | wire (l : Int) (a b : Point)
  | via (l1 l2 : Int) (p : Point)
  | ap (l : Int) (p : Point)
deriving DecidableEq, Repr

/-- the layer whose tracks carry the other direction: two up, else two down (the bottom layer
number is 0, src/db/tech/frTechObject.h:73-75) — src/dr/FlexDR_init.cpp:1860-1866, 1872-1880,
1887-1893, 1900-1908, 1940-1947; src/dr/FlexGridGraph.cpp:120-127. -/
def GTech.otherLayer (T : GTech) (l : Int) : Option Int :=
  if l + 2 ≤ T.top then some (l + 2) else if 0 ≤ l - 2 then some (l - 2) else none

/-- `initTrackCoords_route` for one wire — src/dr/FlexDR_init.cpp:1850-1911. -/
def coordsWire (T : GTech) (l : Int) (a b : Point) (m : CoordMaps) : CoordMaps :=
  if a.x = b.x then
    if T.hor l then
      let m := match T.otherLayer l with
        | some o => m.putX a.x o false
        | none => m
      (m.putY a.y l false).putY b.y l false
    else
      let m := m.putX a.x l false
      match T.otherLayer l with
      | some o => (m.putY a.y o false).putY b.y o false
      | none => m
  else
    if !T.hor l then
      let m := match T.otherLayer l with
        | some o => m.putY a.y o false
        | none => m
      (m.putX a.x l false).putX b.x l false
    else
      let m := m.putY a.y l false
      match T.otherLayer l with
      | some o => (m.putX a.x o false).putX b.x o false
      | none => m

/-- a line of layer `l` through `p` in the layer's direction -/
def coordsLine (T : GTech) (l : Int) (p : Point) (m : CoordMaps) : CoordMaps :=
  if T.hor l then m.putY p.y l false else m.putX p.x l false

/-- `initTrackCoords_route` / `_pin` for one object — src/dr/FlexDR_init.cpp:1848-1929 (wires and
vias), 1936-1969 (access points; without another layer the number 0 is used). -/
def coordsObj (T : GTech) (m : CoordMaps) : BObj → CoordMaps
  | .wire l a b => coordsWire T l a b m
  | .via l1 l2 p => coordsLine T l2 p (coordsLine T l1 p m)
  | .ap l p => coordsLine T ((T.otherLayer l).getD 0) p (coordsLine T l p m)

/-- `initTrackCoords` — src/dr/FlexDR_init.cpp:1975-1995: the boundaries of the route box and of
the extended box under layer −10, then all objects. -/
def trackCoordMaps (T : GTech) (rbox ebox : Box) (objs : List BObj) : CoordMaps :=
  let m : CoordMaps := ⟨[], []⟩
  let m := (((m.putY rbox.bottom (-10) false).putY rbox.top (-10) false).putY ebox.bottom (-10) false).putY
    ebox.top (-10) false
  let m := (((m.putX rbox.left (-10) false).putX rbox.right (-10) false).putX ebox.left (-10) false).putX
    ebox.right (-10) false
  objs.foldl (coordsObj T) m

/-- one track pattern of one layer — src/dr/FlexGridGraph.cpp:368-391. -/
def patTracks (T : GTech) (bbox : Box) (l : Int) (m : CoordMaps) (tp : Bool × TrackPat) : CoordMaps :=
  let flag := if T.nonPref then (tp.1 && !T.hor l) || (!tp.1 && T.hor l) else true
  if flag then
    if tp.1 then (trackCoords tp.2 bbox.left bbox.right).foldl (fun m c => m.putX c l true) m
    else (trackCoords tp.2 bbox.bottom bbox.top).foldl (fun m c => m.putY c l true) m
  else m

/-- `initTracks` — src/dr/FlexGridGraph.cpp:353-400. -/
def gridTracks (T : GTech) (bbox : Box) (m : CoordMaps) : CoordMaps :=
  T.layers.foldl (fun m l => (T.pats l).foldl (patTracks T bbox l) m) m

/-- the heights of the layers — src/dr/FlexGridGraph.cpp:56-61 (VIACOST is 4,
src/global.cpp:88). -/
def layerHeights (T : GTech) : Int → List Int → List Int
  | _, [] => []
  | h, l :: ls => (h + T.pitch l * 4) :: layerHeights T (h + T.pitch l * 4) ls

/-- `initGrids` — src/dr/FlexGridGraph.cpp:38-84. -/
def emptyGrid (T : GTech) (m : CoordMaps) (followGuide : Bool) : Grid where
  xs := m.x.map (·.1)
  ys := m.y.map (·.1)
  zs := T.layers
  zDir := fun z => match T.layers[z.toNat]? with
    | some l => T.hor l
    | none => false
  bits := fun _ => 0#64
  srcs := fun _ => false
  dsts := fun _ => false
  guides := fun _ => !followGuide
  prevs := fun _ => false

/-- `nonPrefLayerNum` of `initEdges` — src/dr/FlexGridGraph.cpp:120-127. -/
def GTech.nonPrefLayer (T : GTech) (l : Int) : Int :=
  if l + 2 ≤ T.top then l + 2 else if 0 ≤ l - 2 then l - 2 else l

/-- the body of the three loops of `initEdges` for one node — src/dr/FlexGridGraph.cpp:137-311:
`fy`, `fx` are the inner maps of its y and x coordinate. -/
def cellOps (T : GTech) (box : Box) (initDR : Bool) (n : MIdx) (l : Int) (fy fx : Int → Option Bool) :
    List GOp :=
  let open_ := decide (T.botRoute ≤ l) && decide (l ≤ T.topRoute)
  let np := T.nonPrefLayer l
  (if T.hor l then
    match fy l with
    | none => []
    | some py =>
      (if open_ && (!T.onGrid l || py) then
        .addEdge n .E box initDR :: (if !py then [.setGridCostE n] else [])
       else []) ++
      (match fx (l + 2) with
       | none => []
       | some px =>
         if (T.onGrid l && !py) || (T.onGrid np && !px) then []
         else .addEdge n .U box initDR :: (if !py || !px then [.setGridCostU n] else []))
   else
    match fx l with
    | none => []
    | some px =>
      (if open_ && (!T.onGrid l || px) then
        .addEdge n .N box initDR :: (if !px then [.setGridCostN n] else [])
       else []) ++
      (match fy (l + 2) with
       | none => []
       | some py =>
         if (T.onGrid l && !px) || (T.onGrid np && !py) then []
         else .addEdge n .U box initDR :: (if !py || !px then [.setGridCostU n] else []))) ++
  (if T.nonPref then
    if T.hor l then
      match fx np with
      | none => []
      | some _ => if open_ then [.addEdge n .N box initDR, .setGridCostN n] else []
    else
      match fy np with
      | none => []
      | some _ => if open_ then [.addEdge n .E box initDR, .setGridCostE n] else []
   else [])

/-- the calls made by `initEdges` — src/dr/FlexGridGraph.cpp:119-315. -/
def edgeOps (T : GTech) (m : CoordMaps) (box : Box) (initDR : Bool) : List GOp :=
  T.layers.zipIdx.flatMap fun lz => m.y.zipIdx.flatMap fun yz => m.x.zipIdx.flatMap fun xz =>
    cellOps T box initDR ⟨xz.2, yz.2, lz.2⟩ lz.1 yz.1.2 xz.1.2

/-- the coordinate maps of a region — src/dr/FlexDR_init.cpp:1997-2003, src/dr/FlexGridGraph.cpp:332-333. -/
def regionMaps (T : GTech) (rbox ebox : Box) (objs : List BObj) : CoordMaps :=
  gridTracks T ebox (trackCoordMaps T rbox ebox objs)

/-- `initGridGraph` with `FlexGridGraph::init` — src/dr/FlexDR_init.cpp:1997-2005,
src/dr/FlexGridGraph.cpp:320-336. -/
def buildGrid (T : GTech) (rbox ebox : Box) (objs : List BObj) (initDR followGuide : Bool) : Grid :=
  let m := regionMaps T rbox ebox objs
  (emptyGrid T m followGuide).run (edgeOps T m rbox initDR)

/-- `initMazeIdx_connFig` — src/dr/FlexDR_init.cpp:2007-2052: the indices of the two ends of a wire
(clipped to the extended box) or of the two layers of a via; `none` = the error message. -/
def figMazeIdx (g : Grid) (ebox : Box) : BObj → Option (MIdx × MIdx)
  | .wire l a b =>
    let bp : Point := ⟨max a.x ebox.left, max a.y ebox.bottom⟩
    let ep : Point := ⟨min b.x ebox.right, min b.y ebox.top⟩
    if g.hasMazeIdx bp l && g.hasMazeIdx ep l then some (g.mazeIdx bp l, g.mazeIdx ep l) else none
  | .via l1 l2 p =>
    if g.hasMazeIdx p l1 && g.hasMazeIdx p l2 then some (g.mazeIdx p l1, g.mazeIdx p l2) else none
  | .ap _ _ => none

/-- the track status of an access point on the layer of node `n`: which of the two flags
(`onTrackX`, `onTrackY`) are cleared — src/dr/FlexDR_init.cpp:2062-2075, 2086-2099. -/
def apFlags (T : GTech) (g : Grid) (n : MIdx) (l : Int) (f : Bool × Bool) : Bool × Bool :=
  if T.hor l then
    if g.hasGridCost n .W || g.hasGridCost n .E then (false, f.2) else f
  else
    if g.hasGridCost n .S || g.hasGridCost n .N then (f.1, false) else f

/-- `initMazeIdx_ap` — src/dr/FlexDR_init.cpp:2054-2104: the index (`none` = the error message) and
the two track flags, `f` before the call. -/
def apMazeIdx (T : GTech) (g : Grid) (l : Int) (p : Point) (f : Bool × Bool) :
    Option MIdx × (Bool × Bool) :=
  let r : Option MIdx × (Bool × Bool) :=
    if g.hasMazeIdx p l then (some (g.mazeIdx p l), apFlags T g (g.mazeIdx p l) l f) else (none, f)
  if g.hasMazeIdx p (l + 2) then (r.1, apFlags T g (g.mazeIdx p (l + 2)) (l + 2) r.2) else r

end TR
