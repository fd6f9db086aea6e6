import Verif.WB.End
import Verif.GCell.Props
/-! # Model: the iterations of detailed routing

Models the sequence of calls in `FlexDR::main` (src/dr/FlexDR.cpp:1912-2015), `FlexDR::searchRepair` (1479-1700)
and the net loop of `checkConnectivity` (src/dr/FlexDR_conn.cpp:1026-1164).

What a region's worker computes (`route_queue`) and what the connectivity check makes of one net are parameters:
`router` gives for every iteration and region the result from the design as it is when the batch starts, `clean` the
outcome for one net. They may be any functions, so statements hold for every behaviour of them and every order in which
the threads of a batch finish. The clean-up of a net is modelled in `Verif.Conn`, the write-back in `Verif.WB`.

Simplifications: `DRCTEST` is off; messages and statistics are left out; the test mode of `searchRepair` (last argument,
never set) is left out. -/
namespace TR

/-- `BATCHSIZE`, `END_ITERATION` — src/global.cpp. -/
def BATCHSIZE : Nat := 1024
def END_ITERATION : Nat := 80

/-- arguments of `searchRepair` that differ between the calls — src/dr/FlexDR.cpp:1479-1483. -/
structure Call where
  iter : Nat
  size : Int
  offset : Int
  mazeEndIter : Nat
  drcCost : Nat
  markerCost : Nat
  ripupMode : Nat
  followGuide : Bool
deriving DecidableEq, Repr

/-- the calls in `FlexDR::main` — src/dr/FlexDR.cpp:1936-2000, with `DRCCOST` 8 and `MARKERCOST` 32. -/
def schedule : List Call := [
   ⟨0, 7, 0, 3, 8, 0, 1, true⟩, ⟨1, 7, -2, 3, 8, 8, 1, true⟩, ⟨2, 7, -5, 3, 8, 8, 1, true⟩, ⟨3, 7, 0, 8, 8, 32, 0, false⟩,
   ⟨4, 7, -1, 8, 8, 32, 0, false⟩, ⟨5, 7, -2, 8, 8, 32, 0, false⟩, ⟨6, 7, -3, 8, 8, 32, 0, false⟩, ⟨7, 7, -4, 8, 8, 32, 0, false⟩,
   ⟨8, 7, -5, 8, 8, 32, 0, false⟩, ⟨9, 7, -6, 8, 8, 32, 0, false⟩, ⟨10, 7, 0, 8, 16, 32, 0, false⟩, ⟨11, 7, -1, 8, 16, 32, 0, false⟩,
   ⟨12, 7, -2, 8, 16, 32, 0, false⟩, ⟨13, 7, -3, 8, 16, 32, 0, false⟩, ⟨14, 7, -4, 8, 16, 32, 0, false⟩, ⟨15, 7, -5, 8, 16, 32, 0, false⟩,
   ⟨16, 7, -6, 8, 16, 32, 0, false⟩, ⟨17, 7, -3, 8, 8, 32, 1, false⟩, ⟨18, 7, 0, 8, 32, 32, 0, false⟩, ⟨19, 7, -1, 8, 32, 32, 0, false⟩,
   ⟨20, 7, -2, 8, 32, 32, 0, false⟩, ⟨21, 7, -3, 8, 32, 32, 0, false⟩, ⟨22, 7, -4, 8, 32, 32, 0, false⟩, ⟨23, 7, -5, 8, 32, 32, 0, false⟩,
   ⟨24, 7, -6, 8, 32, 32, 0, false⟩, ⟨25, 5, -2, 8, 8, 32, 1, false⟩, ⟨26, 7, 0, 8, 64, 64, 0, false⟩, ⟨27, 7, -1, 8, 64, 64, 0, false⟩,
   ⟨28, 7, -2, 8, 64, 64, 0, false⟩, ⟨29, 7, -3, 8, 64, 64, 0, false⟩, ⟨30, 7, -4, 8, 64, 64, 0, false⟩, ⟨31, 7, -5, 8, 64, 64, 0, false⟩,
   ⟨32, 7, -6, 8, 64, 64, 0, false⟩, ⟨33, 3, -1, 8, 8, 32, 1, false⟩, ⟨34, 7, 0, 8, 128, 128, 0, false⟩, ⟨35, 7, -1, 8, 128, 128, 0, false⟩,
   ⟨36, 7, -2, 8, 128, 128, 0, false⟩, ⟨37, 7, -3, 8, 128, 128, 0, false⟩, ⟨38, 7, -4, 8, 128, 128, 0, false⟩, ⟨39, 7, -5, 8, 128, 128, 0, false⟩,
   ⟨40, 7, -6, 8, 128, 128, 0, false⟩, ⟨41, 3, -2, 8, 8, 32, 1, false⟩, ⟨42, 7, 0, 16, 128, 128, 0, false⟩, ⟨43, 7, -1, 16, 128, 128, 0, false⟩,
   ⟨44, 7, -2, 16, 128, 128, 0, false⟩, ⟨45, 7, -3, 16, 128, 128, 0, false⟩, ⟨46, 7, -4, 16, 128, 128, 0, false⟩, ⟨47, 7, -5, 16, 128, 128, 0, false⟩,
   ⟨48, 7, -6, 16, 128, 128, 0, false⟩, ⟨49, 3, 0, 8, 8, 32, 1, false⟩, ⟨50, 7, 0, 32, 256, 256, 0, false⟩, ⟨51, 7, -1, 32, 256, 256, 0, false⟩,
   ⟨52, 7, -2, 32, 256, 256, 0, false⟩, ⟨53, 7, -3, 32, 256, 256, 0, false⟩, ⟨54, 7, -4, 32, 256, 256, 0, false⟩, ⟨55, 7, -5, 32, 256, 256, 0, false⟩,
   ⟨56, 7, -6, 32, 256, 256, 0, false⟩, ⟨57, 3, -1, 8, 8, 32, 1, false⟩, ⟨58, 7, 0, 64, 512, 512, 0, false⟩, ⟨59, 7, -1, 64, 512, 512, 0, false⟩,
   ⟨60, 7, -2, 64, 512, 512, 0, false⟩, ⟨61, 7, -3, 64, 512, 512, 0, false⟩, ⟨62, 7, -4, 64, 512, 512, 0, false⟩, ⟨63, 7, -5, 64, 512, 512, 0, false⟩,
   ⟨64, 7, -6, 64, 512, 512, 0, false⟩]

/-- the settings given to a worker — src/dr/FlexDR.cpp:1580-1607; `enableDRC` is set in every call, `isInitDR` means iteration 0. -/
def Call.cfg (c : Call) (W : Worker) : WorkerCfg := ⟨decide (c.iter = 0), true, c.iter, c.ripupMode, false, W.routeBox, W.drcBox⟩

/-- the design, the `modified` flags of its nets and `numViols` -/
structure RunSt where
  d : DesignSt
  flag : Nat → Bool
  viols : List Nat

structure RunEnv where
  E : DesignEnv
  grid : GGrid
  /-- all nets of the design -/
  nets : List Nat
  router : Nat → Worker → DesignSt → WorkerResult
  /-- connectivity check and clean-up of one net; `none`: the net is broken -/
  clean : Nat → List DObj → Option (List DObj)

/-- nets flagged while a worker routes; a worker that skips routing flags none — src/dr/FlexDR_maze.cpp:1612-1618, 2029-2040, 2122-2128. -/
def Call.flags (R : RunEnv) (c : Call) (D : DesignSt) (W : Worker) (n : Nat) : Bool :=
  let i := initMarkers (c.cfg W) D.markers
  !skipRouting (c.cfg W) i.1 i.2 && (R.router c.iter W D).mod n

/-- one batch: all workers load and route, then they are written back one after the other — src/dr/FlexDR.cpp:1629-1667. -/
def runBatch (R : RunEnv) (c : Call) (S : RunSt) (ws : List Worker) : RunSt :=
  { S with
    d := ws.foldl (fun D W => workerEnd R.E (c.cfg W) S.d.markers (R.router c.iter W S.d) D) S.d
    flag := fun n => S.flag n || ws.any (fun W => c.flags R S.d W n) }

/-- objects of a net -/
def objsOf (n : Nat) (objs : List DObj) : List DObj := objs.filter (fun o => o.net == n)

/-- check and clean-up of one net, the others stay — src/dr/FlexDR_conn.cpp:1130-1152. -/
def checkOne (R : RunEnv) (objs : List DObj) (n : Nat) : Option (List DObj) :=
  match R.clean n (objsOf n objs) with
  | none => none
  | some os => some (objs.filter (fun o => o.net != n) ++ os)

/-- `checkConnectivity` — src/dr/FlexDR_conn.cpp:1026-1164: all flagged nets; `none`: some net is broken, the program exits. -/
def checkAll (R : RunEnv) : List Nat → List DObj → Option (List DObj)
  | [], objs => some objs
  | n :: ns, objs => match checkOne R objs n with
    | none => none
    | some objs' => checkAll R ns objs'

/-- `searchRepair` — src/dr/FlexDR.cpp:1479-1700. -/
def searchRepair (R : RunEnv) (c : Call) (S : RunSt) : Option RunSt :=
  if c.iter > END_ITERATION then some S
  else if c.ripupMode ≠ 1 ∧ S.d.markers.length = 0 then some S
  else
    let S1 := (batches BATCHSIZE R.grid c.size c.offset).flatten.foldl (runBatch R c) S
    match checkAll R (R.nets.filter S1.flag) S1.d.objs with
    | none => none
    | some objs => some ⟨⟨objs, S1.d.markers⟩, fun n => S1.flag n && !R.nets.contains n, S1.viols ++ [S1.d.markers.length]⟩

/-- a sequence of calls; `none`: the program exited -/
def runCalls (R : RunEnv) : List Call → RunSt → Option RunSt
  | [], S => some S
  | c :: cs, S => match searchRepair R c S with
    | none => none
    | some S' => runCalls R cs S'

/-- `FlexDR::main` after `init` -/
def runMain (R : RunEnv) (S : RunSt) : Option RunSt := runCalls R schedule S

end TR
