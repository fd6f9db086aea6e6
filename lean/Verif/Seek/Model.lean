import Verif.Astar.Model
import Verif.Tech.Model
/-!
# Costs of the maze search

Models the cost side of `FlexGridGraph::search` (src/dr/FlexGridGraph_maze.cpp:35-137, 233-298,
357-476, 591-666) and the order of the frontier (src/dr/FlexWavefront.h:64-78) on top of the
bookkeeping of `Verif.Astar.Model`.

Simplifications:
* costs and lengths are unbounded; the code computes costs in 32-bit unsigned and lengths in 32-bit
  signed arithmetic. Edge lengths are cut off at 0, which matters only for unsorted coordinates.
* the extra estimate of lines 265-292, switched on for one named process node only, is left out.
* the layer path area (lines 104-106, 110-119) never enters a cost and is left out.
* an index outside a coordinate list or a table (undefined in the code) reads 0 or "not forbidden".
* "no via yet" / "no turn yet", written as the largest `int` in the code, is `none`; a real length
  never equals that value.
-/
namespace TR

/-- Everything the costs depend on besides the grid: heights of the layers (`zHeights`), the
factors `ggDRCCost` and `ggMarkerCost`, whether the worker is in iteration 3 or later, the default
width of a layer and the forbidden-length tables — src/dr/FlexGridGraph.h:785-815,
src/db/tech/frTechObject.h:137-149. -/
structure SeekTech where
  heights : List Int
  drc : Nat
  marker : Nat
  late : Bool
  width : Int → Nat
  v2v : List LenTable
  vturn : List LenTable

/-- a coordinate by index (`xCoords[x]` and so on) -/
def coordAt (l : List Int) (i : Int) : Int := l.getD i.toNat 0

/-- `getEdgeLength` — src/dr/FlexGridGraph.h:291-310. -/
def Grid.edgeLen (g : Grid) (T : SeekTech) (n : MIdx) (d : Dir) : Nat :=
  let (n, d) := correct n d
  match d with
  | .E => (coordAt g.xs (n.x + 1) - coordAt g.xs n.x).toNat
  | .N => (coordAt g.ys (n.y + 1) - coordAt g.ys n.y).toNat
  | .U => (coordAt T.heights (n.z + 1) - coordAt T.heights n.z).toNat
  | _ => 0

/-- `isVia2ViaForbiddenLen` — src/db/tech/frTechObject.h:137-144. -/
def SeekTech.v2vForbidden (T : SeekTech) (z : Int) (prevDown currDown dirX : Bool) (len : Int) : Bool :=
  match T.v2v[z.toNat]? with
  | none => false
  | some t => (isVia2Via t prevDown currDown dirX len).getD false

/-- `isViaForbiddenTurnLen` — src/db/tech/frTechObject.h:146-149. -/
def SeekTech.turnForbidden (T : SeekTech) (z : Int) (down dirX : Bool) (len : Int) : Bool :=
  match T.vturn[z.toNat]? with
  | none => false
  | some t => (isViaTurn t down dirX len).getD false

/-- `std::numeric_limits<frCoord>::max()` -/
def frMax : Int := 2147483647

/-- The cost fields of `FlexWavefrontGrid` — src/dr/FlexWavefront.h:152-162: x and y length since
the last via (`vLengthX/Y`), `prevViaUp`, `tLength`, `dist`, `pathCost`, `cost`. -/
structure SeekCost where
  since : Option (Nat × Nat)
  viaUp : Bool
  turn : Option Nat
  dist : Int
  path : Nat
  cost : Nat
deriving DecidableEq, Repr, Inhabited

/-- the two lengths as the code sees them -/
def SeekCost.vlen (c : SeekCost) : Int × Int :=
  match c.since with
  | none => (frMax, frMax)
  | some (x, y) => (x, y)

/-- `dir == frDirEnum::U || dir == frDirEnum::D` -/
def Dir.vert : Dir → Bool
  | .U => true | .D => true | _ => false

/-- `dir == frDirEnum::W || dir == frDirEnum::E` -/
def Dir.alongX : Dir → Bool
  | .W => true | .E => true | _ => false

/-- `dir == frDirEnum::S || dir == frDirEnum::N` -/
def Dir.alongY : Dir → Bool
  | .S => true | .N => true | _ => false

/-- `isForbiddenVia2Via` — src/dr/FlexGridGraph_maze.cpp:375-394. -/
def SeekTech.viaPair (T : SeekTech) (c : SeekCost) (z : Int) (d : Dir) : Bool :=
  let v := c.vlen
  let up := decide (d = .U)
  if decide (v.1 = 0) && decide (v.2 > 0) && T.v2vForbidden z (!c.viaUp) (!up) false v.2 then true
  else if decide (v.1 > 0) && decide (v.2 = 0) && T.v2vForbidden z (!c.viaUp) (!up) true v.1 then true
  else if decide (v.1 > 0) && decide (v.2 > 0) &&
      (T.v2vForbidden z (!c.viaUp) (!up) false v.2 && T.v2vForbidden z (!c.viaUp) (!up) true v.1) then true
  else false

/-- `isForbiddenTLen` — src/dr/FlexGridGraph_maze.cpp:406-446. The branch for a via tests the local
`tLength`, which still holds its initial "none". -/
def SeekTech.badTurn (T : SeekTech) (c : SeekCost) (z : Int) (last d : Dir) : Bool :=
  let tLength : Option Nat := none
  if d.vert then
    let up := decide (d = .U)
    if tLength ≠ none then
      if last.alongX then T.turnForbidden z (!up) true (match c.turn with | none => frMax | some t => t)
      else if last.alongY then T.turnForbidden z (!up) false (match c.turn with | none => frMax | some t => t)
      else false
    else false
  else
    if last.alongX then T.turnForbidden z (!c.viaUp) true c.vlen.1
    else if last.alongY then T.turnForbidden z (!c.viaUp) false c.vlen.2
    else false

/-- the part of `getNextPathCost` that depends on the edge only —
src/dr/FlexGridGraph_maze.cpp:456-471; GRIDCOST is 2, SHAPECOST 8, BLOCKCOST 32, GUIDECOST 1
(src/global.cpp). -/
def Grid.edgeCost (g : Grid) (T : SeekTech) (n : MIdx) (d : Dir) : Nat :=
  let len := g.edgeLen T n d
  len + (if g.hasGridCost n d then 2 * len else 0)
    + (if g.hasDRCCost n d then T.drc * len else 0)
    + (if g.hasMarkerCost n d then T.marker * len else 0)
    + (if g.hasShapeCost n d then 8 * len else 0)
    + (if g.isBlocked n d then 32 * T.width n.z * 20 else 0)
    + (if !g.hasGuide n d then 1 * len else 0)

/-- `getNextPathCost` — src/dr/FlexGridGraph_maze.cpp:357-476. `last` is the direction in which the
current node was entered. -/
def Grid.nextPathCost (g : Grid) (T : SeekTech) (c : SeekCost) (n : MIdx) (last d : Dir) : Nat :=
  let len := g.edgeLen T n d
  c.path
    + (if last ≠ d ∧ last ≠ .UNKNOWN then 1 else 0)
    + (if d.vert then
        if T.viaPair c n.z d then (if T.late then T.marker * len else T.drc * len) else 0
       else 0)
    + (if last ≠ .UNKNOWN ∧ last ≠ d then
        if T.badTurn c n.z last d then (if T.late then T.drc * len else T.marker * len) else 0
       else 0)
    + g.edgeCost T n d

/-- one coordinate of the estimate: how far `v` lies outside `[lo, hi]` -/
def outside (lo hi v : Int) : Nat := (max (max (lo - v) (v - hi)) 0).toNat

/-- `getEstCost` — src/dr/FlexGridGraph_maze.cpp:233-298, to the index box from `a` to `b`. -/
def Grid.estCost (g : Grid) (T : SeekTech) (a b n : MIdx) (d : Dir) : Nat :=
  let mx := outside (coordAt g.xs a.x) (coordAt g.xs b.x) (coordAt g.xs n.x)
  let my := outside (coordAt g.ys a.y) (coordAt g.ys b.y) (coordAt g.ys n.y)
  let mz := outside (coordAt T.heights a.z) (coordAt T.heights b.z) (coordAt T.heights n.z)
  mx + my + mz
    + (if mx ≠ 0 ∧ d ≠ .UNKNOWN ∧ d ≠ .E ∧ d ≠ .W then 1 else 0)
    + (if my ≠ 0 ∧ d ≠ .UNKNOWN ∧ d ≠ .S ∧ d ≠ .N then 1 else 0)
    + (if mz ≠ 0 ∧ d ≠ .UNKNOWN ∧ d ≠ .U ∧ d ≠ .D then 1 else 0)

/-- `nextPinBox` — src/dr/FlexGridGraph_maze.cpp:597-612: box of the access points of the pin. -/
def Grid.pinBox (g : Grid) (aps : List MIdx) : MIdx × MIdx :=
  aps.foldl (fun s m => (⟨min s.1.x m.x, min s.1.y m.y, min s.1.z m.z⟩,
      ⟨max s.2.x m.x, max s.2.y m.y, max s.2.z m.z⟩))
    (⟨g.X - 1, g.Y - 1, g.Z - 1⟩, ⟨0, 0, 0⟩)

/-- Parameters of one call of `search`: destination box and `centerPt`. -/
structure SeekGoal where
  lo : MIdx
  hi : MIdx
  center : Point

/-- distance to the center — src/dr/FlexGridGraph_maze.cpp:61-63, 630-631. -/
def Grid.seekDist (g : Grid) (G : SeekGoal) (n : MIdx) : Int :=
  ((coordAt g.xs n.x - G.center.x).natAbs : Int) + ((coordAt g.ys n.y - G.center.y).natAbs : Int)

/-- cost fields of the entry made by `expand` — src/dr/FlexGridGraph_maze.cpp:49-52, 65-119. -/
def Grid.nextSeek (g : Grid) (T : SeekTech) (G : SeekGoal) (c : SeekCost) (n : MIdx) (last d : Dir) : SeekCost :=
  let len := g.edgeLen T n d
  let next := nextGrid n d
  let path := g.nextPathCost T c n last d
  { since :=
      if d.vert then some (0, 0)
      else match c.since with
        | none => none
        | some (x, y) => if d.alongX then some (x + len, y) else some (x, y + len)
    viaUp := if d.vert then decide (d = .D) else c.viaUp
    turn :=
      if d.vert then none
      else if last ≠ .UNKNOWN ∧ last ≠ d then some len
      else c.turn.map (· + len)
    dist := g.seekDist G next
    path := path
    cost := path + g.estCost T G.lo G.hi next d }

/-- An entry of the frontier with its cost fields. -/
structure SeekEnt where
  e : GEnt
  c : SeekCost
deriving DecidableEq, Repr, Inhabited

/-- the fields compared by the frontier order -/
def SeekEnt.key (a : SeekEnt) : WaveKey := ⟨a.c.cost, a.c.dist, a.e.n.z, a.c.path⟩

/-- `expand` — src/dr/FlexGridGraph_maze.cpp:35-137. -/
def Grid.seekExpand (g : Grid) (T : SeekTech) (G : SeekGoal) (q : List SeekEnt) (a : SeekEnt) (d : Dir) :
    Grid × List SeekEnt :=
  let next := nextGrid a.e.n d
  let c := g.nextSeek T G a.c a.e.n (bufLastDir a.e.buf) d
  let (tailDir, buf) := bufShiftAdd a.e.buf d
  let tail := tailIdx next buf
  if tailDir ≠ .UNKNOWN then
    if g.getPrevDir tail = .UNKNOWN ∨ g.getPrevDir tail = tailDir then
      (g.setPrevDir tail tailDir, q ++ [⟨⟨next, buf⟩, c⟩])
    else (g, q)
  else (g, q ++ [⟨⟨next, buf⟩, c⟩])

/-- one guarded expansion of `expandWavefront` -/
def Grid.seekTry (T : SeekTech) (G : SeekGoal) (a : SeekEnt) (s : Grid × List SeekEnt) (d : Dir) :
    Grid × List SeekEnt :=
  if s.1.isExpandable a.e d then s.1.seekExpand T G s.2 a d else s

/-- `expandWavefront` — src/dr/FlexGridGraph_maze.cpp:139-231. -/
def Grid.seekWavefront (g : Grid) (T : SeekTech) (G : SeekGoal) (q : List SeekEnt) (a : SeekEnt) :
    Grid × List SeekEnt :=
  [Dir.N, .E, .S, .W, .U, .D].foldl (Grid.seekTry T G a) (g, q)

/-- the main loop of `search` — src/dr/FlexGridGraph_maze.cpp:636-664. `top` gives the position of
the entry that `priority_queue::top` returns. -/
def Grid.seekLoop (T : SeekTech) (G : SeekGoal) (top : List SeekEnt → Nat) :
    Nat → Grid → List SeekEnt → Option (Grid × Option SeekEnt)
  | 0, _, _ => none
  | f + 1, g, q =>
    match q[top q]? with
    | none => some (g, none)
    | some a =>
      let q' := q.eraseIdx (top q)
      if g.getPrevDir a.e.n ≠ .UNKNOWN then Grid.seekLoop T G top f g q'
      else if g.isDst a.e.n then some (g, some a)
      else
        let r := g.seekWavefront T G q' a
        Grid.seekLoop T G top f r.1 r.2

/-- the entry of a node of the source component — src/dr/FlexGridGraph_maze.cpp:626-634. -/
def Grid.seekStart (g : Grid) (T : SeekTech) (G : SeekGoal) (n : MIdx) : SeekEnt :=
  ⟨⟨n, 0#6⟩, ⟨none, true, none, g.seekDist G n, 0, g.estCost T G.lo G.hi n .UNKNOWN⟩⟩

/-- `FlexGridGraph::search` — src/dr/FlexGridGraph_maze.cpp:591-666, for a pin with access points
`aps`. The second component is the cost of the entry the search stopped at. -/
def Grid.seek (g : Grid) (T : SeekTech) (center : Point) (top : List SeekEnt → Nat) (fuel : Nat)
    (comps aps : List MIdx) : Option (SearchResult × Nat) :=
  let G : SeekGoal := ⟨(g.pinBox aps).1, (g.pinBox aps).2, center⟩
  match comps.find? g.isDst with
  | some idx => some (⟨true, [idx], comps, false, g⟩, 0)
  | none =>
    match Grid.seekLoop T G top fuel g (comps.map (g.seekStart T G)) with
    | none => none
    | some (g', none) => some (⟨false, [], comps, false, g'⟩, 0)
    | some (g', some a) =>
      match g'.traceBackPath fuel a.e with
      | none => none
      | some t => some (⟨true, t.path, comps ++ t.root, t.warn, g'⟩, a.c.path)

end TR
