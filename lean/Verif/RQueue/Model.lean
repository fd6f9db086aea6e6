/-! # Model: the rip-up-and-reroute queue of a routing worker

Models `route_queue_main`, `route_queue_init_queue`, `route_queue_update_queue`,
`route_queue_update_from_marker` and `route_queue_resetRipup` — src/dr/FlexDR_init.cpp:3134-3138,
3187-3400, src/dr/FlexDR_maze.cpp:2105-2255.

Simplifications:
* The violation checker is arbitrary: `gc t` is what it reports in loop pass `t` (`none`:
  `setTargetNet` failed). Any history-dependent checker is such a function. `routed t` says whether
  the maze router finds a path in pass `t`; otherwise the program exits.
* Owners of shapes (`frBlockObject*`) are numbers. `set`s of pointers are iterated in list order; their
  order in C++ is that of the addresses.
* Costs, shapes and patches are not part of this model. -/
namespace TR

/-- a marker: owners of the aggressors and of all sources; null pointers are `none` -/
structure QMarker where
  aggr : List (Option Nat)
  srcs : List (Option Nat)

/-- the worker: `movable o`: the owner is a signal or clock net; `subnets o`: its nets in the worker
(`getDRNets`); `endIter`: `getMazeEndIter()` -/
structure QEnv where
  movable : Nat → Bool
  subnets : Nat → List Nat
  endIter : Nat

/-- `RouteQueueEntry` -/
inductive QEntry where
  | route (net num : Nat)
  | check (owner : Nat)
deriving DecidableEq, Repr

/-- `set::insert` keeping the order of insertion -/
def ownIns (s : List Nat) (o : Nat) : List Nat := if o ∈ s then s else s ++ [o]

def toSet (l : List Nat) : List Nat := l.foldl ownIns []

/-- the nets of an owner that may still be rerouted — src/dr/FlexDR_init.cpp:3257-3260, 3277-3280, 3362-3365. -/
def QEnv.open (E : QEnv) (cnt : Nat → Nat) (o : Nat) : List Nat := (E.subnets o).filter (fun d => decide (cnt d < E.endIter))

/-- the owner is a signal or clock net with a net that may still be rerouted -/
def QEnv.live (E : QEnv) (cnt : Nat → Nat) (o : Nat) : Bool := E.movable o && !(E.open cnt o).isEmpty

/-- accumulators of `route_queue_update_queue` -/
structure QAcc where
  victims : List Nat := []
  aggressors : List Nat := []
  checks : List QEntry := []
  routes : List QEntry := []

/-- owners to be rerouted for a marker: the live aggressors, or else the live sources —
src/dr/FlexDR_init.cpp:3247-3293, 3312-3341. When no aggressor is live, `movableAggressorOwners` is empty. -/
def QEnv.rerouteOwners (E : QEnv) (cnt : Nat → Nat) (m : QMarker) : List Nat :=
  let a := (toSet (m.aggr.filterMap id)).filter (E.live cnt)
  if a.isEmpty then (toSet (m.srcs.filterMap id)).filter (E.live cnt) else a

/-- `route_queue_update_from_marker` — src/dr/FlexDR_init.cpp:3239-3381. -/
def updateFromMarker (E : QEnv) (cnt : Nat → Nat) (A : QAcc) (m : QMarker) : QAcc :=
  let own := E.rerouteOwners cnt m
  if own.isEmpty then A
  else
    let newAggr := own.filter (fun o => decide (o ∉ A.aggressors))
    let vict := (toSet (m.srcs.filterMap id)).filter (fun o => decide (o ∉ own))
    let newVict := vict.filter (fun o => decide (o ∉ A.victims))
    { victims := A.victims ++ newVict
      aggressors := A.aggressors ++ newAggr
      checks := A.checks ++ newVict.map .check
      routes := A.routes ++ newAggr.flatMap (fun o => (E.open cnt o).map (fun d => .route d (cnt d))) }

/-- `route_queue_update_queue(markers, queue)` — src/dr/FlexDR_init.cpp:3221-3231, 3383-3400: the entries appended. -/
def batch (E : QEnv) (cnt : Nat → Nat) (ms : List QMarker) : List QEntry :=
  let A := ms.foldl (updateFromMarker E cnt) {}
  A.routes ++ A.checks

/-- state of the loop: pass number, reroutes of each net, queue -/
structure QState where
  time : Nat
  cnt : Nat → Nat
  queue : List QEntry

def bump (cnt : Nat → Nat) (d : Nat) : Nat → Nat := fun x => if x = d then cnt x + 1 else cnt x

/-- entries appended after a check — src/dr/FlexDR_maze.cpp:2244-2246. -/
def pushed (E : QEnv) (cnt : Nat → Nat) : Option (List QMarker) → List QEntry
  | none => []
  | some ms => batch E cnt ms

/-- one pass of the loop — src/dr/FlexDR_maze.cpp:2107-2254; `none`: the program exits (2162). -/
def qStep (E : QEnv) (gc : Nat → Option (List QMarker)) (routed : Nat → Bool) (s : QState) : Option QState :=
  match s.queue with
  | [] => some s
  | .route d n :: q =>
    if n ≠ s.cnt d then some ⟨s.time + 1, s.cnt, q⟩      -- 2123-2125: stale
    else if routed s.time then
      let cnt := bump s.cnt d
      some ⟨s.time + 1, cnt, q ++ pushed E cnt (gc s.time)⟩
    else none
  | .check _ :: q => some ⟨s.time + 1, s.cnt, q ++ pushed E s.cnt (gc s.time)⟩

/-- the loop with a bound on the number of passes -/
inductive QOut where
  | done (s : QState)
  | exit
  | more (s : QState)

/-- `route_queue_main` — src/dr/FlexDR_maze.cpp:2105-2255. -/
def qRun (E : QEnv) (gc : Nat → Option (List QMarker)) (routed : Nat → Bool) : Nat → QState → QOut
  | 0, s => if s.queue.isEmpty then .done s else .more s
  | fuel + 1, s =>
    if s.queue.isEmpty then .done s
    else match qStep E gc routed s with
      | none => .exit
      | some s' => qRun E gc routed fuel s'

/-- `route_queue_resetRipup`, `route_queue_init_queue` — src/dr/FlexDR_init.cpp:3134-3138, 3187-3219.
`ripup`: `getRipupMode() != 0`; `nets`: all nets of the worker in the order of
`mazeIterInit_sortRerouteNets`, `ms`: the markers of the worker. -/
def qInit (E : QEnv) (ripup : Bool) (nets : List Nat) (ms : List QMarker) : QState :=
  ⟨0, fun _ => 0, if ripup then nets.map (fun d => .route d 0) else batch E (fun _ => 0) ms⟩

end TR
