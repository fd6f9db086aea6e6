import Verif.Geom.Model
/-! # Model: the shapes known to the violation checker

Models how the checker of a region collects shapes and follows the rerouting of nets: `getNet`, `initObj`, `initDesign`,
`initDRObj`, `initDRWorker` (src/gc/FlexGC_init.cpp:38-112, 143-195, 247-339), `updateGCWorker` (822-881), the containers of
`gcNet` (src/db/gcObj/gcNet.h), the incremental part of `main` (src/gc/FlexGC_main.cpp:3699-3709), and its use in
`route_queue` and `route_queue_main` (src/dr/FlexDR_maze.cpp:2029-2256).

Simplifications:
* Polygon sets are lists of the boxes added, per layer; two sets are the same metal if they have the same boxes.
* The patches found by `patchMetalShape` are arbitrary: they are given with each step.
* The set of nets to refresh is a list, in which a net may come twice.
* Target objects (`initDesign_skipObj`) belong to pin access and are not modelled. -/
namespace TR

/-- type of a terminal as far as it matters here: `frTermEnum` -/
inductive PinUse where
  | power | ground | other
deriving DecidableEq, Repr

/-- objects of the design with shapes; a routed object always has a net (otherwise the program stops) -/
inductive DbObj where
  | term (id : Nat) (net : Option Nat) (use : PinUse)
  | instTerm (id : Nat) (net : Option Nat) (use : PinUse)
  | blockage (id : Nat)
  | instBlockage (id : Nat)
  | routed (net : Nat)
deriving DecidableEq, Repr

/-- key of `owner2nets`, with the two nets for floating supply pins apart -/
inductive DbOwner where
  | vss | vdd
  | net (n : Nat)
  | term (id : Nat)
  | instTerm (id : Nat)
  | blockage (id : Nat)
  | instBlockage (id : Nat)
deriving DecidableEq, Repr

/-- `getNet` — src/gc/FlexGC_init.cpp:38-103. -/
def DbObj.owner : DbObj → DbOwner
  | .term _ (some n) _ => .net n
  | .term id none u => match u with | .power => .vdd | .ground => .vss | .other => .term id
  | .instTerm _ (some n) _ => .net n
  | .instTerm id none u => match u with | .power => .vdd | .ground => .vss | .other => .instTerm id
  | .blockage id => .blockage id
  | .instBlockage id => .instBlockage id
  | .routed n => .net n

/-- a box on a layer -/
abbrev LBox := Nat × Box

/-- routed objects of a worker: wire, via (boxes in place on the lower, cut and upper layer), patch — src/db/drObj. -/
inductive DbFig where
  | seg (layer : Nat) (box : Box)
  | via (l1 cut l2 : Nat) (b1 bc b2 : List Box)
  | patch (layer : Nat) (box : Box)
deriving DecidableEq, Repr

/-- containers of `gcNet` — src/db/gcObj/gcNet.h: metal as polygons, cuts as single rectangles, fixed and routed apart. -/
structure DbNet where
  fixedPoly : List LBox
  fixedCut : List LBox
  routePoly : List LBox
  routeCut : List LBox
deriving DecidableEq, Repr

abbrev ShapeDb := DbOwner → DbNet

/-- `addPolygon`, `addRectangle` — src/db/gcObj/gcNet.h:44-60; `initObj` — src/gc/FlexGC_init.cpp:105-112. -/
def DbNet.add (d : DbNet) (isCut isFixed : Bool) (x : LBox) : DbNet :=
  match isCut, isFixed with
  | false, true => { d with fixedPoly := d.fixedPoly ++ [x] }
  | false, false => { d with routePoly := d.routePoly ++ [x] }
  | true, true => { d with fixedCut := d.fixedCut ++ [x] }
  | true, false => { d with routeCut := d.routeCut ++ [x] }

def ShapeDb.set (db : ShapeDb) (o : DbOwner) (d : DbNet) : ShapeDb := fun q => if q = o then d else db q

/-- `clear` — src/db/gcObj/gcNet.h:76-85: the routed shapes. -/
def DbNet.clear (d : DbNet) : DbNet := { d with routePoly := [], routeCut := [] }

/-- `initDRObj` — src/gc/FlexGC_init.cpp:247-311. -/
def DbNet.addFig (d : DbNet) (f : DbFig) : DbNet :=
  match f with
  | .seg l b => d.add false false (l, b)
  | .via l1 c l2 b1 bc b2 =>
    let d := b1.foldl (fun d b => d.add false false (l1, b)) d
    let d := bc.foldl (fun d b => d.add true false (c, b)) d
    b2.foldl (fun d b => d.add false false (l2, b)) d
  | .patch l b => d.add false false (l, b)

def DbNet.addFigs (d : DbNet) (fs : List DbFig) : DbNet := fs.foldl DbNet.addFig d

/-- fixed shape found in the region: object, layer, whether that is a cut layer, box -/
structure FixedShape where
  obj : DbObj
  isCut : Bool
  layer : Nat
  box : Box
deriving DecidableEq, Repr

/-- a net of the worker (one of possibly several parts of a net of the design) — src/db/drObj/drNet.h. -/
structure PartNet where
  net : Nat
  ext : List DbFig
  route : List DbFig
deriving DecidableEq, Repr

/-- `initDesign` with a worker — src/gc/FlexGC_init.cpp:143-179. -/
def initFixed (F : List FixedShape) : ShapeDb :=
  F.foldl (fun db s => ShapeDb.set db s.obj.owner ((db s.obj.owner).add s.isCut true (s.layer, s.box))) (fun _ => ⟨[], [], [], []⟩)

/-- one net in `initDRWorker` and in `updateGCWorker` — src/gc/FlexGC_init.cpp:320-334, 850-858. -/
def addPart (db : ShapeDb) (p : PartNet) : ShapeDb := ShapeDb.set db (.net p.net) (((db (.net p.net)).addFigs p.ext).addFigs p.route)

/-- `init` — src/gc/FlexGC_init.cpp:749-782. -/
def initDb (F : List FixedShape) (nets : List PartNet) : ShapeDb := nets.foldl addPart (initFixed F)

/-- a patch: index of the worker's net, layer, box -/
structure DbPatch where
  part : Nat
  layer : Nat
  box : Box
deriving DecidableEq, Repr

/-- the checker during routing -/
structure CheckerSt where
  nets : List PartNet
  db : ShapeDb
  /-- `modifiedDRNets`, by net of the design -/
  pending : List Nat
  /-- `pwires` -/
  pw : List DbPatch

def CheckerSt.netOf (s : CheckerSt) (p : DbPatch) : Option Nat := (s.nets[p.part]?).map (·.net)

/-- one net of `updateGCWorker` — src/gc/FlexGC_init.cpp:843-863. -/
def refresh (nets : List PartNet) (db : ShapeDb) (n : Nat) : ShapeDb :=
  (nets.filter (fun p => p.net == n)).foldl addPart (ShapeDb.set db (.net n) (db (.net n)).clear)

/-- `updateGCWorker` — src/gc/FlexGC_init.cpp:822-881: the modified and the patched nets anew, then the patches. -/
def CheckerSt.update (s : CheckerSt) : CheckerSt :=
  let fnets := s.pending ++ s.pw.filterMap s.netOf
  let db := fnets.foldl (refresh s.nets) s.db
  let db := s.pw.foldl (fun db p => match s.netOf p with
    | some n => ShapeDb.set db (.net n) ((db (.net n)).addFig (.patch p.layer p.box))
    | none => db) db
  { s with db := db, pending := [] }

/-- the beginning of `main` — src/gc/FlexGC_main.cpp:3702-3709. `node`: the one process node that gets patches;
`patches`: those found by `patchMetalShape`. -/
def CheckerSt.main (node surgical : Bool) (patches : List DbPatch) (s : CheckerSt) : CheckerSt :=
  let s := if surgical && node then { s with pw := patches } else s
  if s.pending ≠ [] ∨ s.pw ≠ [] then s.update else s

/-- the patches become routes of their nets — src/dr/FlexDR_maze.cpp:2066-2088, 2197-2214. -/
def CheckerSt.writePatches (s : CheckerSt) : CheckerSt :=
  { s with nets := s.pw.foldl (fun ns p => ns.modify p.part (fun w => { w with route := w.route ++ [.patch p.layer p.box] })) s.nets }

/-- an entry of the queue: a net is rerouted, or some object is only checked — src/dr/FlexDR_maze.cpp:2104-2256. -/
inductive QueueOp where
  | reroute (part : Nat) (figs : List DbFig) (patches : List DbPatch)
  | check
deriving Repr

def CheckerSt.step (node : Bool) (s : CheckerSt) : QueueOp → CheckerSt
  | .reroute i figs patches =>
    match s.nets[i]? with
    | none => s
    | some w => ({ s with nets := s.nets.set i { w with route := figs }, pending := s.pending ++ [w.net] }.main node true patches).writePatches
  | .check => s.main node false []

/-- `route_queue` — src/dr/FlexDR_maze.cpp:2029-2101; the last state is the one the final check sees. -/
def routeQueue (node recheck : Bool) (F : List FixedShape) (nets : List PartNet) (first : List DbPatch) (ops : List QueueOp) (last : List DbPatch) : CheckerSt :=
  let s : CheckerSt := ⟨nets, initDb F nets, [], []⟩
  let s := if recheck then s.main node true first else s
  let s := ops.foldl (CheckerSt.step node) s
  (s.main node true last).writePatches

end TR
