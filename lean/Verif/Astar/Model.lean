import Verif.Maze.Grid
/-!
# Maze search

Models `FlexGridGraph::search` and its helpers (src/dr/FlexGridGraph_maze.cpp:35-666) on the grid
storage of `Verif.Maze.Grid`.

Simplifications:
* Costs decide only in which order frontier entries are popped (`std::priority_queue::top`). The
  model pops the entry at an arbitrary position `pick step`, one position per round; theorems
  quantify over all `pick : Nat → Nat`, hence over all costs and all heap tie-breaking.
* An entry keeps the node and the 6-bit backtrace buffer; cost, length and area fields of
  `FlexWavefrontGrid` only feed the cost and are dropped.
* The bounding box of the connected component (`ccMazeIdx1/2`) and diagnostics are dropped; the
  "unexpected direction" warning is recorded as a flag.
* Loops carry fuel; `none` means out of fuel. Theorem C15 gives a fuel that always suffices.
-/
namespace TR

/-- `FlexWavefrontGrid`, without cost fields — src/dr/FlexWavefront.h:42-165. -/
structure GEnt where
  n : MIdx
  buf : BitVec 6
deriving DecidableEq, Repr, Inhabited

/-- `getTailIdx` — src/dr/FlexGridGraph_maze.cpp:478-490 (two rounds). -/
def tailIdx (n : MIdx) (buf : BitVec 6) : MIdx :=
  let d1 := Dir.ofCode (buf - ((buf >>> 3) <<< 3)).toNat
  let buf' := buf >>> 3
  let d2 := Dir.ofCode (buf' - ((buf' >>> 3) <<< 3)).toNat
  prevGrid (prevGrid n d1) d2

/-- `isExpandable` — src/dr/FlexGridGraph_maze.cpp:492-516. -/
def Grid.isExpandable (g : Grid) (e : GEnt) (d : Dir) : Bool :=
  let hg := g.hasEdge e.n d
  let (m, rd) := reverse e.n d
  if !hg || g.isSrc m || (g.getPrevDir m != .UNKNOWN) || (bufLastDir e.buf == rd) then false else true

/-- `expand` — src/dr/FlexGridGraph_maze.cpp:35-137, bookkeeping part (42-48, 111-134). -/
def Grid.expand (g : Grid) (q : List GEnt) (e : GEnt) (d : Dir) : Grid × List GEnt :=
  let next := nextGrid e.n d
  let (tailDir, buf) := bufShiftAdd e.buf d
  let tail := tailIdx next buf
  if tailDir ≠ .UNKNOWN then
    if g.getPrevDir tail = .UNKNOWN ∨ g.getPrevDir tail = tailDir then
      (g.setPrevDir tail tailDir, q ++ [⟨next, buf⟩])
    else (g, q)
  else (g, q ++ [⟨next, buf⟩])

/-- one guarded expansion of `expandWavefront` -/
def Grid.tryExpand (e : GEnt) (s : Grid × List GEnt) (d : Dir) : Grid × List GEnt :=
  if s.1.isExpandable e d then s.1.expand s.2 e d else s

/-- `expandWavefront` — src/dr/FlexGridGraph_maze.cpp:139-231. -/
def Grid.expandWavefront (g : Grid) (q : List GEnt) (e : GEnt) : Grid × List GEnt :=
  [Dir.N, .E, .S, .W, .U, .D].foldl (Grid.tryExpand e) (g, q)

/-- the main loop of `search` — src/dr/FlexGridGraph_maze.cpp:636-664. Returns the entry popped
at a destination, or nothing when the frontier is exhausted. -/
def Grid.searchLoop (pick : Nat → Nat) : Nat → Nat → Grid → List GEnt → Option (Grid × Option GEnt)
  | 0, _, _, _ => none
  | f + 1, k, g, q =>
    match q[pick k % q.length]? with
    | none => some (g, none)
    | some e =>
      let q' := q.eraseIdx (pick k % q.length)
      if g.getPrevDir e.n ≠ .UNKNOWN then Grid.searchLoop pick f (k + 1) g q'
      else if g.isDst e.n then some (g, some e)
      else
        let r := g.expandWavefront q' e
        Grid.searchLoop pick f (k + 1) r.1 r.2

/-- Local variables of `traceBackPath` — src/dr/FlexGridGraph_maze.cpp:518-529. `root` is the list
of nodes pushed on the caller's component list. -/
structure Trace where
  cur : MIdx
  prevDir : Dir
  path : List MIdx
  root : List MIdx
  warn : Bool
deriving DecidableEq, Repr

/-- push the current point if it is a turn, then step back — src/dr/FlexGridGraph_maze.cpp:543-552, 563-571. -/
def Trace.back (t : Trace) (d : Dir) : Trace :=
  { t with
    path := if d ≠ t.prevDir then t.path ++ [t.cur] else t.path
    cur := prevGrid t.cur d
    prevDir := d }

/-- "pop content in buffer" — src/dr/FlexGridGraph_maze.cpp:530-553; first argument counts the
remaining rounds. -/
def Grid.traceBuf (g : Grid) : Nat → BitVec 6 → Trace → Trace
  | 0, _, t => t
  | i + 1, buf, t =>
    if g.isSrc t.cur then t
    else
      let d := bufLastDir buf
      if d = .UNKNOWN then { t with warn := true }
      else Grid.traceBuf g i (buf >>> 3) ({ t with root := t.root ++ [t.cur] }.back d)

/-- "trace back according to grid prev dir" — src/dr/FlexGridGraph_maze.cpp:554-572. -/
def Grid.traceGrid (g : Grid) : Nat → Trace → Option Trace
  | 0, _ => none
  | f + 1, t =>
    if g.isSrc t.cur then some t
    else
      let d := g.getPrevDir t.cur
      let t := { t with root := t.root ++ [t.cur] }
      if d = .UNKNOWN then some { t with warn := true }
      else Grid.traceGrid g f (t.back d)

/-- `traceBackPath` — src/dr/FlexGridGraph_maze.cpp:518-589. -/
def Grid.traceBackPath (g : Grid) (fuel : Nat) (e : GEnt) : Option Trace :=
  match g.traceGrid fuel (g.traceBuf 2 e.buf ⟨e.n, .UNKNOWN, [], [], false⟩) with
  | none => none
  | some t => some (if t.path ≠ [] then { t with path := t.path ++ [t.cur] } else t)

/-- Result of `search`. -/
structure SearchResult where
  found : Bool
  /-- the `path` output parameter -/
  path : List MIdx
  /-- the `connComps` in/out parameter -/
  comps : List MIdx
  /-- whether the "unexpected direction" warning was printed -/
  warn : Bool
  grid : Grid

/-- `FlexGridGraph::search` — src/dr/FlexGridGraph_maze.cpp:591-666 (the destination box of
lines 599-612 only feeds the cost). -/
def Grid.search (g : Grid) (pick : Nat → Nat) (fuel : Nat) (comps : List MIdx) : Option SearchResult :=
  match comps.find? g.isDst with
  | some idx => some ⟨true, [idx], comps, false, g⟩
  | none =>
    match Grid.searchLoop pick fuel 0 g (comps.map (fun n => ⟨n, 0#6⟩)) with
    | none => none
    | some (g', none) => some ⟨false, [], comps, false, g'⟩
    | some (g', some e) =>
      match g'.traceBackPath fuel e with
      | none => none
      | some t => some ⟨true, t.path, comps ++ t.root, t.warn, g'⟩

end TR
