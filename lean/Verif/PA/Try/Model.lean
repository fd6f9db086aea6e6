import Verif.GcDb.Model
import Verif.GC.Rects.Model
import Verif.GC.Model
/-! # Model: what the check of a wire or via tried by pin access compares

Models `initDesign_skipObj`, `initDesign`, `addPAObj` and `initPA0` (src/gc/FlexGC_init.cpp:114-246, 785-820) and their use in
`prepPoint_pin_checkPoint_planar`, `prepPoint_pin_checkPoint_via_helper` and `genPatterns_gc` (src/pa/FlexPA_prep.cpp:622-667, 783-826, 1933-1974).

Simplifications:
* `F` and `R` are the fixed and the routed shapes that the window queries of `initDesign` return.
* Candidates are given with their boxes in place.
* `ptLayer` builds the data of one routing layer (model of the C57 check) from the shapes; the edges of the outlines are arbitrary. -/
namespace TR

/-- the instance of a pin and of an obstruction -/
structure PtCells where
  termInst : Nat → Nat
  blkInst : Nat → Nat

/-- `targetObj` -/
inductive PtTarget where
  | inst (i : Nat)
  | term (t : Nat)
deriving DecidableEq

/-- `initDesign_skipObj` — src/gc/FlexGC_init.cpp:114-140. -/
def ptSkip (C : PtCells) : Option PtTarget → DbObj → Bool
  | none, _ => false
  | some (.inst i), .instTerm id _ _ => C.termInst id != i
  | some (.inst i), .instBlockage id => C.blkInst id != i
  | some (.inst _), _ => true
  | some (.term t), .term id _ _ => id != t
  | some (.term _), _ => true

/-- `initDesign` without a worker — src/gc/FlexGC_init.cpp:143-195, and `initPA0` — 785-815. -/
def ptInit (C : PtCells) (ignoreDB : Bool) (target : Option PtTarget) (F R : List FixedShape) : ShapeDb :=
  if ignoreDB then fun _ => ⟨[], [], [], []⟩
  else
    let db := F.foldl (fun db s => if ptSkip C target s.obj then db
      else ShapeDb.set db s.obj.owner ((db s.obj.owner).add s.isCut true (s.layer, s.box))) (fun _ => ⟨[], [], [], []⟩)
    R.foldl (fun db s => if ptSkip C target s.obj then db
      else ShapeDb.set db s.obj.owner ((db s.obj.owner).add s.isCut false (s.layer, s.box))) db

/-- `addPAObj` — src/gc/FlexGC_init.cpp:199-244. -/
def ptAdd (db : ShapeDb) (f : DbFig) (o : DbOwner) : ShapeDb := ShapeDb.set db o ((db o).addFig f)

/-- the pin at which something is tried: a pin of an instance (`instTerm` is set), or a pin of the block -/
inductive PtPin where
  | cell (id : Nat) (net : Option Nat)
  | block (id : Nat) (net : Option Nat)
deriving DecidableEq

/-- `setTargetObj` — src/pa/FlexPA_prep.cpp:648-652, 802-806. -/
def PtPin.target (C : PtCells) : PtPin → PtTarget
  | .cell id _ => .inst (C.termInst id)
  | .block id _ => .term id

/-- the owner given to a wire — src/pa/FlexPA_prep.cpp:654-666. -/
def PtPin.wireOwner : PtPin → DbOwner
  | .cell _ (some n) => .net n
  | .cell id none => .instTerm id
  | .block _ (some n) => .net n
  | .block id none => .term id

/-- the owner given to a via — src/pa/FlexPA_prep.cpp:809-819. -/
def PtPin.viaOwner : PtPin → DbOwner
  | .cell _ (some n) => .net n
  | .cell id none => .instTerm id
  | .block id _ => .term id

/-- the shapes compared when a wire is tried — src/pa/FlexPA_prep.cpp:642-667. -/
def ptWire (C : PtCells) (F R : List FixedShape) (p : PtPin) (f : DbFig) : ShapeDb := ptAdd (ptInit C false (some (p.target C)) F R) f p.wireOwner

/-- the shapes compared when a via is tried — src/pa/FlexPA_prep.cpp:796-820. -/
def ptVia (C : PtCells) (F R : List FixedShape) (p : PtPin) (f : DbFig) : ShapeDb := ptAdd (ptInit C false (some (p.target C)) F R) f p.viaOwner

/-- the shapes compared when vias of several pins are tried together — src/pa/FlexPA_prep.cpp:1962-1970. -/
def ptGroup (C : PtCells) (target : Option PtTarget) (F R : List FixedShape) (objs : List (DbFig × DbOwner)) : ShapeDb :=
  objs.foldl (fun db x => ptAdd db x.1 x.2) (ptInit C true target F R)

/-- boxes on a layer -/
def ptOn (layer : Nat) (xs : List LBox) : List Box := (xs.filter (fun x => decide (x.1 = layer))).map (·.2)

/-- the net is an obstruction — src/gc/FlexGC_main.cpp:195-205. -/
def ptObs : DbOwner → Bool
  | .blockage _ => true
  | .instBlockage _ => true
  | _ => false

/-- `initNets` for one routing layer — src/gc/FlexGC_init.cpp:341-352, 671-742: the maximal rectangles of each net in `os`, the nets of the checker.
`addr`: the addresses of the owners. -/
def ptLayer (L : GLayer) (useMinObs : Bool) (addr : DbOwner → Nat) (pg : DbOwner → Bool) (edges : List GEdge) (os : List DbOwner) (layer : Nat) (db : ShapeDb) : GDb where
  layer := L
  useMinObs := useMinObs
  net := fun i => match os[i]? with
    | some o => ⟨addr o, ptObs o, pg o⟩
    | none => ⟨0, false, false⟩
  fixedPolys := fun i => match os[i]? with
    | some o => ptOn layer (db o).fixedPoly
    | none => []
  routePolys := fun i => match os[i]? with
    | some o => ptOn layer (db o).routePoly
    | none => []
  fixedMax := fun i => match os[i]? with
    | some o => maxRects (ptOn layer (db o).fixedPoly)
    | none => []
  rects := ((os.zipIdx.flatMap (fun p => (flaggedRects (ptOn layer (db p.1).routePoly) (ptOn layer (db p.1).fixedPoly)).map (fun q => (p.2, q)))).zipIdx).map
    (fun x => ⟨x.2, x.1.2.1, x.1.1, x.1.2.2⟩)
  edges := edges

end TR
