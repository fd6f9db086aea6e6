/-!
# The numbers objects are told apart by

Almost every set and map of TritonRoute that holds cells, instances, nets, terminals or the pins of
a worker compares its elements by a number, the id (`frBlockObjectComp`,
src/db/obj/frBlockObject.h:36-62), not by address.  Two objects with the same id are one object to
such a set.  This file models where the ids come from: the counters of the reader
(src/io/io.h:46-47, 76-80), of a routing worker and of a track assignment worker.

Simplified: the counters are unbounded integers (the code uses `int`).  Of each object only what is
needed to tell it apart is kept.
-/

namespace TR

/-- What an object is.  Models the classes that are given an id while LEF and DEF are read
(src/io/io.cpp:85, 438, 445, 454, 553, 937, 4187, 4354, 4470). -/
inductive IdKind where
  | cell | cellTerm | cellBlk | inst | instTerm | instBlk | term | blk | net
deriving DecidableEq, Repr

/-- An object with its id.  `owner` is its name, or that of the cell or instance it belongs to,
`home` the number of that cell or instance, `pos` its position there.
Models `frBlockObject::id` (src/db/obj/frBlockObject.h:36-58). -/
structure IdObj where
  kind : IdKind
  owner : String
  home : Int
  pos : Nat
  id : Int
deriving DecidableEq, Repr

/-- A statement of a library cell that makes an object: `PIN` or `OBS`
(src/io/io.cpp:4187, 4354). -/
inductive IdItem where
  | pin | obs
deriving DecidableEq, Repr

/-- A library cell as the LEF parser reports it: begin, pins and obstructions, end
(src/io/io.cpp:4458-4483). -/
structure IdMacro where
  name : String
  items : List IdItem
deriving DecidableEq, Repr

/-- A statement of the DEF file that makes objects: a component with its instance and cell names
(src/io/io.cpp:413-478), a pin, with whether it has several ports (918-940), a net or special net
(535-556), a placement or routing blockage (72-90). -/
inductive IdDef where
  | comp (inst cell : String)
  | pin (name : String) (hasPort : Bool)
  | net (name : String) (special : Bool)
  | blockage
deriving DecidableEq, Repr

/-- The reader: its five counters (src/io/io.h:76-80), how many pins and obstructions the cell of a
name has (`name2refBlock`, src/frDesign.h:78), the instance names (`name2inst`), and everything made
so far, oldest first. -/
structure IdSt where
  nRef : Int
  nInst : Int
  nTerm : Int
  nNet : Int
  nBlk : Int
  name2 : String → Option (Nat × Nat)
  insts : List String
  log : List IdObj

/-- The reader before the first file (src/io/io.h:46-47). -/
def idInit : IdSt :=
  { nRef := 0
    nInst := 0
    nTerm := 0
    nNet := 0
    nBlk := 0
    name2 := fun _ => none
    insts := []
    log := [] }

/-- A `PIN` or `OBS` of the cell `name`: the `np`-th pin or `nb`-th obstruction.
Models src/io/io.cpp:4184-4192 and 4352-4356. -/
def idItem (name : String) (np nb : Nat) (s : IdSt) : IdItem → IdSt
  | .pin => { s with
      nTerm := s.nTerm + 1
      log := s.log ++ [⟨.cellTerm, name, s.nRef, np, s.nTerm⟩] }
  | .obs => { s with
      nBlk := s.nBlk + 1
      log := s.log ++ [⟨.cellBlk, name, s.nRef, nb, s.nBlk⟩] }

/-- The statements of one cell in order; `np`, `nb` count its pins and obstructions so far. -/
def idItems (name : String) : List IdItem → Nat → Nat → IdSt → Nat × Nat × IdSt
  | [], np, nb, s => (np, nb, s)
  | .pin :: r, np, nb, s => idItems name r (np + 1) nb (idItem name np nb s .pin)
  | .obs :: r, np, nb, s => idItems name r np (nb + 1) (idItem name np nb s .obs)

/-- The end of a cell: it is numbered from 1 on, becomes the cell of its name, and the counters of
terminals and obstructions start again.  Models `getLefString` (src/io/io.cpp:4468-4477) and
`addRefBlock` (src/frDesign.h:68-71). -/
def idMacroEnd (name : String) (np nb : Nat) (s : IdSt) : IdSt :=
  { s with
    log := s.log ++ [⟨.cell, name, 0, 0, s.nRef + 1⟩]
    name2 := fun n => if n = name then some (np, nb) else s.name2 n
    nRef := s.nRef + 1
    nTerm := 0
    nBlk := 0 }

/-- One library cell. -/
def idMacro (s : IdSt) (m : IdMacro) : IdSt :=
  let r := idItems m.name m.items 0 0 s
  idMacroEnd m.name r.1 r.2.1 r.2.2

/-- The terminals of a new instance, one for each terminal of its cell
(src/io/io.cpp:442-450). -/
def idInstTerms (inst : String) (home : Int) : Nat → Nat → IdSt → IdSt
  | 0, _, s => s
  | n + 1, k, s => idInstTerms inst home n (k + 1)
      { s with
        nTerm := s.nTerm + 1
        log := s.log ++ [⟨.instTerm, inst, home, k, s.nTerm⟩] }

/-- The obstructions of a new instance, one for each of its cell (src/io/io.cpp:451-457). -/
def idInstBlks (inst : String) (home : Int) : Nat → Nat → IdSt → IdSt
  | 0, _, s => s
  | n + 1, k, s => idInstBlks inst home n (k + 1)
      { s with
        nBlk := s.nBlk + 1
        log := s.log ++ [⟨.instBlk, inst, home, k, s.nBlk⟩] }

/-- A component whose cell has `np` pins and `nb` obstructions.
Models src/io/io.cpp:435-457 and 466. -/
def idComp (inst : String) (np nb : Nat) (s : IdSt) : IdSt :=
  let s1 := { s with
    nInst := s.nInst + 1
    insts := s.insts ++ [inst]
    log := s.log ++ [⟨.inst, inst, 0, 0, s.nInst⟩] }
  idInstBlks inst s.nInst nb 0 (idInstTerms inst s.nInst np 0 s1)

/-- One statement of the DEF file; `none` where the program exits: an unknown cell (io.cpp:423-428),
two instances of one name (459-464), a pin with several ports (929-931).  Models the numbering in
`getDefComponents`, `getDefTerminals`, `getDefNets` and `getDefBlockages`. -/
def idDef (s : IdSt) : IdDef → Option IdSt
  | .comp inst cell =>
    match s.name2 cell with
    | none => none
    | some (np, nb) => if inst ∈ s.insts then none else some (idComp inst np nb s)
  | .pin name hasPort =>
    if hasPort then none
    else some { s with
      nTerm := s.nTerm + 1
      log := s.log ++ [⟨.term, name, 0, 0, s.nTerm⟩] }
  | .net name _ => some { s with
      nNet := s.nNet + 1
      log := s.log ++ [⟨.net, name, 0, 0, s.nNet⟩] }
  | .blockage => some { s with
      nBlk := s.nBlk + 1
      log := s.log ++ [⟨.blk, "", 0, 0, s.nBlk⟩] }

/-- The statements of the DEF file in order. -/
def idDefs : List IdDef → IdSt → Option IdSt
  | [], s => some s
  | d :: r, s =>
    match idDef s d with
    | none => none
    | some s' => idDefs r s'

/-- LEF, then DEF (`readLefDef`, src/io/io.cpp:4840-4899: `readLef` before `readDef`). -/
def idRead (lef : List IdMacro) (ds : List IdDef) : Option IdSt :=
  idDefs ds (lef.foldl idMacro idInit)

/-- The id of the design itself, given at its end (src/io/io.cpp:500). -/
def idTop : Int := 0

/-- The id of the two nets made for floating supply pins, which nobody numbers
(src/io/io.cpp:1111-1121, src/db/obj/frBlockObject.h:54). -/
def idFake : Int := -1

/-- Insertion into a set ordered by id: nothing happens if an element with this id is there.
Models `std::set<X*, frBlockObjectComp>::insert` (src/db/obj/frBlockObject.h:59-63). -/
def idInsert (o : IdObj) : List IdObj → List IdObj
  | [] => [o]
  | a :: r =>
    if o.id < a.id then o :: a :: r
    else if a.id < o.id then a :: idInsert o r
    else a :: r

/-- A set filled with objects, in the order in which they come. -/
def idSet (os : List IdObj) : List IdObj :=
  os.foldl (fun s o => idInsert o s) []

/-- A pin of a routing region: net, its position there, whether it is a crossing of the region's
boundary, id. -/
structure IdPin where
  net : Nat
  pos : Nat
  bound : Bool
  id : Int
deriving DecidableEq, Repr

/-- `n` pins of one kind of the net numbered `net`, the first at position `k`.
Models src/dr/FlexDR_init.cpp:1493-1495 (terminals) and 1600-1602 (boundary): `pinCnt` belongs to
the worker and goes on counting. -/
def idPins (net : Nat) (bound : Bool) : Nat → Nat → Int → List IdPin × Int
  | 0, _, c => ([], c)
  | n + 1, k, c =>
    let r := idPins net bound n (k + 1) (c + 1)
    (⟨net, k, bound, c⟩ :: r.1, r.2)

/-- The nets of a routing region, each with the number of its terminals and of its crossings of the
boundary; the net gets as id how many nets there are before it.
Models `initNet` (src/dr/FlexDR_init.cpp:1611-1637). -/
def idNets : List (Nat × Nat) → Nat → Int → List (Nat × List IdPin)
  | [], _, _ => []
  | (nt, nb) :: r, i, c =>
    let t := idPins i false nt 0 c
    let b := idPins i true nb nt t.2
    (i, t.1 ++ b.1) :: idNets r (i + 1) b.2

/-- The pins of all nets of a region; the worker's counter starts at 0 (src/dr/FlexDR.h:268). -/
def idDr (ns : List (Nat × Nat)) : List IdPin :=
  ((idNets ns 0 0).map (·.2)).flatten

/-- Wires to be put on tracks, as added; `true` for those that lie outside the panel.  Ids of those
inside and of those outside.  Models `FlexTAWorker::addIroute` (src/ta/FlexTA.h:104-111). -/
def idTa : List Bool → List Nat × List Nat → List Nat × List Nat
  | [], s => s
  | true :: r, s => idTa r (s.1, s.2 ++ [s.1.length + s.2.length])
  | false :: r, s => idTa r (s.1 ++ [s.1.length + s.2.length], s.2)

end TR
