import Verif.GcDb.Model

/-!
# The search structures of the violation checker

Models `FlexGCWorkerRegionQuery` (src/gc/FlexGC_rq.cpp:36-265) and how it follows the nets of the checker: the start
(src/gc/FlexGC_init.cpp:730-747) and `updateGCWorker` (822-881), on top of the shapes of `Verif.GcDb.Model`.

Simplifications: both R-trees of all layers are one list; an edge, which is parallel to an axis, is its box; the edges and maximal
rectangles that `initNet` makes of the shapes of a net are an arbitrary function `mk` (C114 and C115 are about it); the address that
the n-th object gets is arbitrary, so an address may be used again. The loop over the set of nets (ordered by number) goes over a
list without repetition.
-/

namespace TR

/-- an edge (`rect = false`) or a maximal rectangle -/
structure GqObj where
  rect : Bool
  layer : Nat
  box : Box
deriving DecidableEq, Repr

/-- entry: object, its net and its address -/
abbrev GqEnt := DbOwner × Nat × GqObj

structure GqSt where
  chk : CheckerSt
  /-- `nets` of the checker, by owner -/
  owners : List DbOwner
  /-- the edges and rectangles of the pins of a net -/
  objs : DbOwner → List (Nat × GqObj)
  /-- the R-trees -/
  ents : List GqEnt
  /-- number of objects made so far -/
  made : Nat

/-- the objects of a net with their addresses -/
def gqMake (addr : Nat → Nat) (made : Nat) : List GqObj → List (Nat × GqObj)
  | [] => []
  | g :: gs => (addr made, g) :: gqMake addr (made + 1) gs

/-- `addNet` at the first shape of an owner; the nets for floating supply pins first; every net of the worker even without a shape
— src/gc/FlexGC_impl.h:66-73, src/gc/FlexGC_init.cpp:92-101, 320-325, 755-757 -/
def gqOwners (F : List FixedShape) (nets : List PartNet) : List DbOwner :=
  ([DbOwner.vss, DbOwner.vdd] ++ F.map (fun f => f.obj.owner) ++ nets.map (fun w => DbOwner.net w.net)).foldl (fun os o => if o ∈ os then os else os ++ [o]) []

/-- `initNet` of one net: its pins are added to those it has — src/gc/FlexGC_init.cpp:340-364, 730-735 -/
def GqSt.initNet (mk : DbNet → List GqObj) (addr : Nat → Nat) (s : GqSt) (o : DbOwner) : GqSt :=
  let gs := mk (s.chk.db o)
  { s with objs := fun p => if p = o then s.objs o ++ gqMake addr s.made gs else s.objs p
           made := s.made + gs.length }

/-- `addToRegionQuery` — src/gc/FlexGC_rq.cpp:235-249 -/
def GqSt.addNet (s : GqSt) (o : DbOwner) : GqSt :=
  { s with ents := (s.objs o).foldl (fun es x => (o, x.1, x.2) :: es) s.ents }

/-- `removeFromRegionQuery` — src/gc/FlexGC_rq.cpp:251-265 -/
def GqSt.removeNet (s : GqSt) (o : DbOwner) : GqSt :=
  { s with ents := (s.objs o).foldl (fun es x => es.erase (o, x.1, x.2)) s.ents }

/-- `clear` of a net, as far as it concerns its pins — src/db/gcObj/gcNet.h:82-84 -/
def GqSt.clearPins (s : GqSt) (o : DbOwner) : GqSt :=
  { s with objs := fun p => if p = o then [] else s.objs p }

/-- `init` of the checker: all nets, then the structure from all nets — src/gc/FlexGC_init.cpp:737-781, src/gc/FlexGC_rq.cpp:118-152 -/
def gqInit (mk : DbNet → List GqObj) (addr : Nat → Nat) (F : List FixedShape) (nets : List PartNet) : GqSt :=
  let os := gqOwners F nets
  os.foldl GqSt.addNet (os.foldl (GqSt.initNet mk addr) ⟨⟨nets, initDb F nets, [], []⟩, os, fun _ => [], [], 0⟩)

/-- the set of nets to be refreshed — src/gc/FlexGC_init.cpp:829-840 -/
def gqNets (c : CheckerSt) : List Nat :=
  (c.pending ++ c.pw.filterMap c.netOf).foldl (fun ns n => if n ∈ ns then ns else ns ++ [n]) []

/-- `updateGCWorker` — src/gc/FlexGC_init.cpp:822-881: first the old objects of all these nets are taken out, then the shapes are
brought up to date (`CheckerSt.update`), then the new objects are made and put in -/
def GqSt.update (mk : DbNet → List GqObj) (addr : Nat → Nat) (s : GqSt) : GqSt :=
  let ns := gqNets s.chk
  let t := ns.foldl (fun s n => (s.removeNet (.net n)).clearPins (.net n)) s
  ns.foldl (fun s n => (s.initNet mk addr (.net n)).addNet (.net n)) { t with chk := s.chk.update }

/-- the beginning of `main` — src/gc/FlexGC_main.cpp:3702-3709 -/
def GqSt.main (mk : DbNet → List GqObj) (addr : Nat → Nat) (node surgical : Bool) (patches : List DbPatch) (s : GqSt) : GqSt :=
  let s := if surgical && node then { s with chk := { s.chk with pw := patches } } else s
  if s.chk.pending ≠ [] ∨ s.chk.pw ≠ [] then s.update mk addr else s

/-- src/dr/FlexDR_maze.cpp:2066-2088, 2197-2214 -/
def GqSt.writePatches (s : GqSt) : GqSt := { s with chk := s.chk.writePatches }

/-- an entry of the queue — src/dr/FlexDR_maze.cpp:2104-2256 -/
def GqSt.step (mk : DbNet → List GqObj) (addr : Nat → Nat) (node : Bool) (s : GqSt) : QueueOp → GqSt
  | .reroute i figs patches =>
    match s.chk.nets[i]? with
    | none => s
    | some w => ({ s with chk := { s.chk with nets := s.chk.nets.set i { w with route := figs }, pending := s.chk.pending ++ [w.net] } }.main
        mk addr node true patches).writePatches
  | .check => s.main mk addr node false []

/-- `route_queue` — src/dr/FlexDR_maze.cpp:2029-2101 -/
def gqQueue (mk : DbNet → List GqObj) (addr : Nat → Nat) (node recheck : Bool) (F : List FixedShape) (nets : List PartNet)
    (first : List DbPatch) (ops : List QueueOp) (last : List DbPatch) : GqSt :=
  let s := gqInit mk addr F nets
  let s := if recheck then s.main mk addr node true first else s
  let s := ops.foldl (GqSt.step mk addr node) s
  (s.main mk addr node true last).writePatches

/-- `queryPolygonEdge`, `queryMaxRectangle` — src/gc/FlexGC_rq.cpp:89-112 -/
def GqSt.query (s : GqSt) (rect : Bool) (l : Nat) (q : Box) : List GqEnt :=
  s.ents.filter fun e => decide (e.2.2.rect = rect) && decide (e.2.2.layer = l) && e.2.2.box.overlaps q

end TR
