import Verif.PA.Point.Model
import Verif.PA.Track.Model
import Verif.GC.Model
/-!
# Pin access: the order of the vias, the parallel loops and their counters

Models `initViaRawPriority` and `getViaRawPriority` (src/pa/FlexPA_init.cpp:292-345), `prepPoint`
(src/pa/FlexPA_prep.cpp:1119-1201), `revertAccessPoints` (1337-1362), `isSkipTerm` (1711-1722) and the counters
of `prepPoint_pin` (888-920, 1079-1092).

Simplifications: the points found for a pin (`prepPoint_pin`, modelled in `Verif/PA/Point`) are given as a
function of the instance and the pin. The numbers of a priority are not limited to 32 bits. The layers of a
via are given with their preferred direction.
-/
namespace TR

/-! ### order of the vias -/

/-- a via definition as pin access sees it -/
structure RawVia where
  isDefault : Bool
  /-- rectangles on the lower and on the upper metal -/
  figs1 : List Box
  figs2 : List Box
  /-- number of cuts -/
  cuts : Nat
  /-- preferred direction of the two layers: `some true` for horizontal -/
  dir1 : Option Bool
  dir2 : Option Bool
  deriving DecidableEq

/-- `gtl::extents` of the union of rectangles; the rectangle is left as it was made if there is none —
src/pa/FlexPA_init.cpp:312-320. -/
def extOf : List Box → Box
  | [] => ⟨⟨0, 0⟩, ⟨0, 0⟩⟩
  | [b] => b
  | b :: l => let e := extOf l
    ⟨⟨min b.left e.left, min b.bottom e.bottom⟩, ⟨max b.right e.right, max b.top e.top⟩⟩

/-- the smaller side of the metal — src/pa/FlexPA_init.cpp:322. -/
def metalWidth (figs : List Box) : Int :=
  min ((extOf figs).right - (extOf figs).left) ((extOf figs).top - (extOf figs).bottom)

/-- the longer side is not along the layer — src/pa/FlexPA_init.cpp:321-324. -/
def metalAcross (figs : List Box) (dir : Option Bool) : Bool :=
  let horz := decide ((extOf figs).right - (extOf figs).left > (extOf figs).top - (extOf figs).bottom)
  (horz && decide (dir = some false)) || (!horz && decide (dir = some true))

/-- `gtl::area` of the union -/
def metalArea (figs : List Box) : Int := (coveredArea (extOf figs) figs : Int)

def boolInt (b : Bool) : Int := if b then 1 else 0

/-- `getViaRawPriority`, compared as a tuple — src/pa/FlexPA_init.cpp:306-345. -/
def viaPrio (v : RawVia) : List Int :=
  [boolInt (!v.isDefault), metalWidth v.figs1, metalWidth v.figs2, boolInt (metalAcross v.figs2 v.dir2), metalArea v.figs2,
   metalArea v.figs1, boolInt (metalAcross v.figs1 v.dir1)]

/-- assignment to an entry of a map ordered by priority -/
def prioPut (k : List Int) (v : RawVia) : List (List Int × RawVia) → List (List Int × RawVia)
  | [] => [(k, v)]
  | e :: m => if k < e.1 then (k, v) :: e :: m else if k = e.1 then (k, v) :: m else e :: prioPut k v m

/-- `layerNum2ViaDefs[layerNum][cutNum]` for the vias of a layer, which are visited in the order of their
addresses — src/pa/FlexPA_init.cpp:292-304. -/
def viaMap (cuts : Nat) (vs : List RawVia) : List (List Int × RawVia) :=
  (vs.filter fun v => v.cuts = cuts).foldl (fun m v => prioPut (viaPrio v) v m) []

/-- the vias that are tried at a point: the first two with a single cut — src/pa/FlexPA_prep.cpp:706-717. -/
def viasTried (vs : List RawVia) : List RawVia := ((viaMap 1 vs).map (·.2)).take 2

/-! ### the parallel loops -/

/-- the steps of several threads in one order of execution: always the next step of one of them -/
inductive Interleave {α : Type} : List (List α) → List α → Prop where
  | done (ts : List (List α)) : (∀ t ∈ ts, t = []) → Interleave ts []
  | step (ts : List (List α)) (i : Nat) (x : α) (t : List α) (es : List α) :
      ts[i]? = some (x :: t) → Interleave (ts.set i t) es → Interleave ts (x :: es)

/-- a list of access points: of a pin of a cell for one `frPinAccess`, or of a pin of a terminal of the block -/
inductive PaSlot where
  | cell (block pin idx : Nat)
  | io (term pin : Nat)
  deriving DecidableEq

/-- the design as pin access sees it -/
structure PaDesign where
  insts : List PInst
  key : PInst → Nat × Orient × List Int
  ord : List (Nat × Orient × List Int) → List (Nat × Orient × List Int)
  /-- the class of the cell is one that pins are accessed for — src/pa/FlexPA_prep.cpp:1135-1144 -/
  routed : Nat → Bool
  /-- pins of a cell -/
  pins : Nat → List Nat
  /-- the terminal of the pin is a signal or a clock (`isSkipInstTerm` is false) — src/pa/FlexPA_prep.cpp:1711-1722 -/
  signal : Nat → Nat → Bool
  /-- points found for a pin of an instance -/
  found : PInst → Nat → List AccPt
  /-- terminals of the block -/
  terms : List Nat
  /-- the terminal is a signal or a clock and has a net -/
  ioUsed : Nat → Bool
  ioPins : Nat → List Nat
  ioFound : Nat → Nat → List AccPt

def PaDesign.unique (D : PaDesign) : List PInst := uniqueInsts D.key D.ord D.insts

/-- `unique2paidx` — src/pa/FlexPA_init.cpp:250-264. -/
def PaDesign.idx (D : PaDesign) (u : PInst) : Nat :=
  (((paIndices (fun b => !(D.pins b).isEmpty) (fun _ => 0) D.unique).find? (fun e => e.1 == u.id)).map (·.2)).getD 0

/-- what one round of the loop over unique instances stores, in its order — src/pa/FlexPA_prep.cpp:1132-1158. -/
def PaDesign.cellTask (D : PaDesign) (u : PInst) : List (PaSlot × AccPt) :=
  if D.routed u.block then
    ((D.pins u.block).filter (D.signal u.block)).flatMap fun k => (D.found u k).map fun p => (.cell u.block k (D.idx u), p)
  else []

/-- what one round of the loop over terminals stores — src/pa/FlexPA_prep.cpp:1179-1196. -/
def PaDesign.ioTask (D : PaDesign) (t : Nat) : List (PaSlot × AccPt) :=
  if D.ioUsed t then (D.ioPins t).flatMap fun k => (D.ioFound t k).map fun p => (.io t k, p) else []

abbrev PaStore := PaSlot → List AccPt

/-- `addAccessPoint` -/
def paPush (st : PaStore) (e : PaSlot × AccPt) : PaStore := fun s => if s = e.1 then st s ++ [e.2] else st s

/-- an access point moved -/
def AccPt.shift (a : AccPt) (dx dy : Int) : AccPt := { a with pt := ⟨a.pt.x + dx, a.pt.y + dy⟩ }

/-- the points of one pin are moved back by the origin of the instance — src/pa/FlexPA_prep.cpp:1352-1358. -/
def PaDesign.revertPin (D : PaDesign) (st : PaStore) (uk : PInst × Nat) : PaStore := fun s =>
  if s = .cell uk.1.block uk.2 (D.idx uk.1) then (st s).map fun a => a.shift (-uk.1.origin.x) (-uk.1.origin.y) else st s

/-- `revertAccessPoints` — src/pa/FlexPA_prep.cpp:1337-1362. -/
def PaDesign.revert (D : PaDesign) (st : PaStore) : PaStore :=
  (D.unique.flatMap fun u => (D.pins u.block).map fun k => (u, k)).foldl D.revertPin st

/-- an execution of `prepPoint` and `revertAccessPoints`: the rounds of the two loops run in any order and at the
same time — src/pa/FlexPA_prep.cpp:1119-1201. -/
def PaDesign.Run (D : PaDesign) (st : PaStore) : Prop :=
  ∃ es fs, Interleave (D.unique.map D.cellTask) es ∧ Interleave (D.terms.map D.ioTask) fs ∧
    st = D.revert ((es ++ fs).foldl paPush fun _ => [])

/-- the points of a pin of an instance as they are read later: those of the pin-access object of the instance, at
its origin — src/dr/FlexDR_init.cpp:1355-1400. -/
def PaDesign.access (D : PaDesign) (st : PaStore) (i : PInst) (k : Nat) : List AccPt :=
  match paIdx (fun b => !(D.pins b).isEmpty) D.key D.ord D.insts i with
  | none => []
  | some n => (st (.cell i.block k n)).map fun a => a.shift i.origin.x i.origin.y

/-! ### the counters -/

/-- a step of a thread on a counter: a plain `++` is a load and a store, one under `omp atomic` is one step —
src/pa/FlexPA_prep.cpp:899-917, 1088-1092. -/
inductive CntStep where
  | load (t : Nat)
  | store (t : Nat)
  | atomic
  deriving DecidableEq

/-- the counter and what every thread has loaded -/
structure CntState where
  cnt : Nat
  reg : Nat → Nat

def cntStep (s : CntState) : CntStep → CntState
  | .load t => { s with reg := fun u => if u = t then s.cnt else s.reg u }
  | .store t => { s with cnt := s.reg t + 1 }
  | .atomic => { s with cnt := s.cnt + 1 }

/-- thread `t` adds one to the counter `n` times -/
def plainIncs (t n : Nat) : List CntStep := (List.replicate n [CntStep.load t, CntStep.store t]).flatten

def atomicIncs (n : Nat) : List CntStep := List.replicate n .atomic

/-- the counter after an execution -/
def cntAfter (es : List CntStep) : Nat := (es.foldl cntStep ⟨0, fun _ => 0⟩).cnt

end TR
