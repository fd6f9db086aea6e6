import Verif.Run.Schedule
import Verif.TaWork.Model
/-! # Model: the threads of detailed routing and of track assignment

Models the parallel loops `#pragma omp parallel for schedule(dynamic)` of `FlexDR::searchRepair` (src/dr/FlexDR.cpp:1622-1667) and of `FlexTA::initTA_helper`
(src/ta/FlexTA.cpp:128-245), together with the sequential write-back after each of them.

A round of a loop (`main_mt` of one worker) is a program of its own: it has its private memory (the worker object), reads the design and the technology, and takes
any number of steps. Its only effects outside of its memory are additions to what is collected: the nets of which it sets the mark `modified`
(src/dr/FlexDR_maze.cpp:1612-1618, 2122-2128) and the counters in the critical section (src/dr/FlexDR.cpp:1634-1636, src/ta/FlexTA.cpp:230-234). Reading the code
shows that no round reads these (`frNet::isModified` is read only in src/dr/FlexDR_conn.cpp:1034), and that it writes nothing else of the design.

The scheduler picks any round that has not ended for the next step, so every number of threads, every assignment of rounds to threads and every order of
steps is covered.

Simplifications: memory is sequentially consistent; the progress messages are left out. -/
namespace TR

/-! ### parallel loops -/

/-- a round of a parallel loop: the private memory at its beginning, and what it does next, given the shared data: `none` if it has ended, otherwise the new
private memory and what it adds to the collection — `main_mt`, src/dr/FlexDR.cpp:78-115, src/ta/FlexTA.cpp:84-126. -/
structure ThrTask (D S F : Type) where
  start : S
  step : D → S → Option (S × List F)

/-- the private memories of the rounds and what has been collected, in the order of arrival -/
structure ThrSt (S F : Type) where
  priv : List S
  got : List F

/-- one step of some round -/
inductive ThrStep {D S F : Type} (d : D) (ts : List (ThrTask D S F)) : ThrSt S F → ThrSt S F → Prop where
  | mk (st : ThrSt S F) (i : Nat) (t : ThrTask D S F) (s s' : S) (fs : List F) : ts[i]? = some t → st.priv[i]? = some s → t.step d s = some (s', fs) →
      ThrStep d ts st ⟨st.priv.set i s', st.got ++ fs⟩

/-- any number of steps -/
inductive ThrSteps {D S F : Type} (d : D) (ts : List (ThrTask D S F)) : ThrSt S F → ThrSt S F → Prop where
  | refl (st : ThrSt S F) : ThrSteps d ts st st
  | snoc {a b c : ThrSt S F} : ThrSteps d ts a b → ThrStep d ts b c → ThrSteps d ts a c

/-- the loop has begun, nothing has been done -/
def thrInit {D S F : Type} (ts : List (ThrTask D S F)) : ThrSt S F := ⟨ts.map (fun t => t.start), []⟩

/-- the barrier at the end of the loop: all rounds have ended -/
def ThrDone {D S F : Type} (d : D) (ts : List (ThrTask D S F)) (st : ThrSt S F) : Prop :=
  ∀ (i : Nat) (t : ThrTask D S F) (s : S), ts[i]? = some t → st.priv[i]? = some s → t.step d s = none

/-- a complete execution of the loop — src/dr/FlexDR.cpp:1631-1657, src/ta/FlexTA.cpp:227-235. -/
def ThrLoop {D S F : Type} (d : D) (ts : List (ThrTask D S F)) (st : ThrSt S F) : Prop := ThrSteps d ts (thrInit ts) st ∧ ThrDone d ts st

/-! ### detailed routing -/

/-- the programs of the workers: `task c W` for call `c` and region `W`; `result`: what `end` reads of the worker's memory -/
structure DrProg (S : Type) where
  task : Call → Worker → ThrTask DesignSt S Nat
  result : S → WorkerResult

/-- a batch with threads: the workers load and route in parallel, then they are written back one after the other — src/dr/FlexDR.cpp:1627-1667. -/
def ThrBatch {S : Type} (R : RunEnv) (Q : DrProg S) (c : Call) (s : RunSt) (ws : List Worker) (s' : RunSt) : Prop :=
  ∃ st, ThrLoop s.d (ws.map (Q.task c)) st ∧
    s'.d = (ws.zip st.priv).foldl (fun D p => workerEnd R.E (c.cfg p.1) s.d.markers (Q.result p.2) D) s.d ∧
    (∀ n, s'.flag n = true ↔ s.flag n = true ∨ n ∈ st.got) ∧ s'.viols = s.viols

/-- the batches of an iteration, one after the other — src/dr/FlexDR.cpp:1624-1669. -/
inductive ThrBatches {S : Type} (R : RunEnv) (Q : DrProg S) (c : Call) : RunSt → List (List Worker) → RunSt → Prop where
  | nil (s : RunSt) : ThrBatches R Q c s [] s
  | cons {s s1 s2 : RunSt} {b : List Worker} {bs : List (List Worker)} : ThrBatch R Q c s b s1 → ThrBatches R Q c s1 bs s2 → ThrBatches R Q c s (b :: bs) s2

/-- `searchRepair` with threads — src/dr/FlexDR.cpp:1479-1700; `none`: the program exits. -/
def ThrRepair {S : Type} (R : RunEnv) (Q : DrProg S) (c : Call) (s : RunSt) (o : Option RunSt) : Prop :=
  if c.iter > END_ITERATION then o = some s
  else if c.ripupMode ≠ 1 ∧ s.d.markers.length = 0 then o = some s
  else ∃ s1, ThrBatches R Q c s (batches BATCHSIZE R.grid c.size c.offset).flatten s1 ∧
    o = match checkAll R (R.nets.filter s1.flag) s1.d.objs with
      | none => none
      | some objs => some ⟨⟨objs, s1.d.markers⟩, fun n => s1.flag n && !R.nets.contains n, s1.viols ++ [s1.d.markers.length]⟩

/-- a sequence of calls -/
inductive ThrCalls {S : Type} (R : RunEnv) (Q : DrProg S) : List Call → RunSt → Option RunSt → Prop where
  | nil (s : RunSt) : ThrCalls R Q [] s (some s)
  | exit {c : Call} {cs : List Call} {s : RunSt} : ThrRepair R Q c s none → ThrCalls R Q (c :: cs) s none
  | next {c : Call} {cs : List Call} {s s' : RunSt} {o : Option RunSt} : ThrRepair R Q c s (some s') → ThrCalls R Q cs s' o → ThrCalls R Q (c :: cs) s o

/-- `FlexDR::main` after `init`, with threads — src/dr/FlexDR.cpp:1912-2015. -/
def ThrMain {S : Type} (R : RunEnv) (Q : DrProg S) (s : RunSt) (o : Option RunSt) : Prop := ThrCalls R Q schedule s o

/-! ### track assignment -/

/-- where the wires of all guides are -/
abbrev TaPlaces := Nat → List TaFig

/-- a panel of a pass: its tracks, the wires assigned in it, those of its surroundings, the records of the fixed shapes, the data of its guides, and the order in which
wires are taken (`popFromReassignIroutes`) — src/ta/FlexTA_init.cpp:462-490, 706-817, 885-900. -/
structure TaPanelIn where
  P : PanelTech
  wires : List Nat
  ext : List Nat
  fixed : List CostRec
  G : Nat → WireGuide
  pick : Nat → Nat

/-- `init` and `assign` of a later pass (`main_mt`): the places of the wires afterwards, and how many were assigned; `none`: the program exits —
src/ta/FlexTA.cpp:84-126. The worker has figures only of the wires of the panel and of its surroundings (src/ta/FlexTA_init.cpp:386-460). The number of rounds is the
bound of `c126_ends`, after which no wire is left to be looked at. -/
def panelRun (net : Nat → Nat) (maxRetry : Nat) (pl : TaPlaces) (p : TaPanelIn) : Option (TaPlaces × Nat) :=
  (laterPass p.P net (fun q => if q ∈ p.wires ++ p.ext then pl q else []) p.fixed p.wires p.ext maxRetry p.G p.pick
    ((maxRetry * p.wires.length) * (p.wires.length + 1) + p.wires.length)).map fun s => (s.st.figs, ((p.wires ++ p.ext).map s.cnt).sum)

/-- `end`: the wires of the panel are stored — src/ta/FlexTA_end.cpp:33-54. -/
def panelEnd (p : TaPanelIn) (new : TaPlaces) (pl : TaPlaces) : TaPlaces := fun q => if q ∈ p.wires then new q else pl q

/-- `workers.back().size() >= BATCHSIZETA` — src/ta/FlexTA.cpp:196-199, 215-218. -/
def taChunk (k : Nat) {α : Type} (acc : List (List α)) (x : α) : List (List α) := match acc.getLast? with
  | none => [[x]]
  | some b => if b.length ≥ k then acc ++ [[x]] else acc.dropLast ++ [b ++ [x]]

/-- with one thread each panel is finished before the next one begins; otherwise the panels run in batches of 8 — src/ta/FlexTA.cpp:133, 196-218, src/global.cpp:52. -/
def taGroups (threads : Nat) {α : Type} (ps : List α) : List (List α) := if threads = 1 then ps.map (fun p => [p]) else ps.foldl (taChunk 8) []

/-- a batch executed in order: all panels from the same places, then they are stored — src/ta/FlexTA.cpp:224-241. The number is `sol`. -/
def taGroup (net : Nat → Nat) (maxRetry : Nat) (pl : TaPlaces × Nat) (ps : List TaPanelIn) : Option (TaPlaces × Nat) :=
  (ps.mapM (panelRun net maxRetry pl.1)).map fun rs => ((ps.zip rs).foldl (fun o x => panelEnd x.1 x.2.1 o) pl.1, pl.2 + (rs.map (fun r => r.2)).sum)

/-- a later pass over the panels of one direction — src/ta/FlexTA.cpp:128-245. -/
def taPassOver (net : Nat → Nat) (maxRetry : Nat) (gs : List (List TaPanelIn)) (pl : TaPlaces × Nat) : Option (TaPlaces × Nat) :=
  gs.foldlM (taGroup net maxRetry) pl

/-- … with threads: programs of which each, on its own, gives what `panelRun` gives -/
abbrev TaProg (S : Type) := TaPanelIn → ThrTask TaPlaces S Nat

/-- a batch with threads: the panels in parallel, then stored one after the other — src/ta/FlexTA.cpp:224-241. -/
def ThrTaGroup {S : Type} (T : TaProg S) (out : S → TaPlaces) (pl : TaPlaces × Nat) (ps : List TaPanelIn) (pl' : TaPlaces × Nat) : Prop :=
  ∃ st, ThrLoop pl.1 (ps.map T) st ∧ pl'.1 = (ps.zip st.priv).foldl (fun o x => panelEnd x.1 (out x.2) o) pl.1 ∧ pl'.2 = pl.2 + st.got.sum

/-- the batches one after the other -/
inductive ThrTaPass {S : Type} (T : TaProg S) (out : S → TaPlaces) : TaPlaces × Nat → List (List TaPanelIn) → TaPlaces × Nat → Prop where
  | nil (pl : TaPlaces × Nat) : ThrTaPass T out pl [] pl
  | cons {a b c : TaPlaces × Nat} {ps : List TaPanelIn} {gs : List (List TaPanelIn)} : ThrTaGroup T out a ps b → ThrTaPass T out b gs c → ThrTaPass T out a (ps :: gs) c

end TR
