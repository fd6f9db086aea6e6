import Verif.WB.Model
import Verif.Conn.Model
import Verif.Region.Spec
/-! # Model: the nets of a worker's region

Models `initNets_searchRepair` and its helpers — src/dr/FlexDR_init.cpp:436-864 — and `initNet_boundary` (1499-1598) for one net: pins are looked up at the
ends of wires and vias, objects and pins that share a node are put into one subnet, and each subnet gets the points where its wires cross the border.

Simplifications: as in the models of loading (`Verif/WB/Model.lean`) and of the connectivity check (`Verif/Conn/Model.lean`), whose node map is used here.
The priority queue is a list from which an arbitrary element is taken. -/
namespace TR

/-- `initNetObjs_pathSeg`, `_via`, `_patchWire` — src/dr/FlexDR_init.cpp:40-294: (objects of the region, objects outside it). -/
def loadParts (init : Bool) (R : Box) (width : Int → Nat) : DObj → List DObj × List DObj
  | .seg s => ((loadSeg init R (width s.layer) s).1.map .seg, (loadSeg init R (width s.layer) s).2.map .seg)
  | .via v => if originIn init R v.o then ([.via v], []) else ([], [.via v])
  | .patch p => if originIn init R p.o then ([.patch p], []) else ([], [.patch p])

/-- `initNetObjs` for the objects of a net — src/dr/FlexDR_init.cpp:296-332; `ext` is the box in which objects are looked up. -/
def loadNet (init : Bool) (R ext : Box) (width : Int → Nat) (objs : List DObj) : List DObj × List DObj :=
  let q := objs.filter (fun o => ext.overlaps o.bbox)
  (q.flatMap (fun o => (loadParts init R width o).1), q.flatMap (fun o => (loadParts init R width o).2))

/-- the nodes at which an object ends — src/dr/FlexDR_init.cpp:550-593. The two metal layers of a via are the neighbours of its cut layer. -/
def DObj.ends : DObj → List Node
  | .seg s => [⟨s.b, s.layer⟩, ⟨s.e, s.layer⟩]
  | .via v => [⟨v.o, v.cut - 1⟩, ⟨v.o, v.cut + 1⟩]
  | .patch p => [⟨p.o, p.layer⟩]

/-- the object as the node map of the connectivity check sees it. Patches are never looked up in the maps of wires. -/
def DObj.toC : DObj → CObj
  | .seg s => .wire ⟨s.layer, s.b, s.e, decide (s.st.beginKind = .truncate), decide (s.st.endKind = .truncate)⟩
  | .via v => .via ⟨v.o, v.cut - 1, v.cut + 1⟩
  | .patch p => .via ⟨p.o, p.layer, p.layer⟩

/-- the nodes at which pins are looked up: truncated ends of wires and vias, within the region — src/dr/FlexDR_init.cpp:478-547. -/
def pinLookups (R : Box) (objs : List DObj) : List Node :=
  objs.flatMap (fun
    | .seg s => (if s.st.beginKind = .truncate ∧ R.containsPt s.b then [⟨s.b, s.layer⟩] else []) ++
        (if s.st.endKind = .truncate ∧ R.containsPt s.e then [⟨s.e, s.layer⟩] else [])
    | .via v => if R.containsPt v.o then [⟨v.o, v.cut - 1⟩, ⟨v.o, v.cut + 1⟩] else []
    | .patch _ => [])

/-- `pin2epMap`: the pins found, with their nodes — src/dr/FlexDR_init.cpp:436-547. `pinAt k n`: pin `k` of the net has a shape at `n` -/
def regionPins (R : Box) (objs : List DObj) (pinAt : Nat → Node → Bool) (nPins : Nat) : List (Nat × List Node) :=
  ((List.range nPins).map (fun k => (k, (pinLookups R objs).filter (pinAt k)))).filter (fun p => !p.2.isEmpty)

/-- all insertions into the node map — src/dr/FlexDR_init.cpp:550-727: ends, wires passing under the end of a wire or via, pins. -/
def regionInserts (objs : List DObj) (pins : List (List Node)) : List (Node × Nat) :=
  objs.zipIdx.flatMap (fun (o, i) => o.ends.map (fun n => (n, i))) ++
  (objs.filter (fun o => !o.isPatch)).flatMap (fun o => o.toC.splits (objs.map DObj.toC)) ++
  pins.zipIdx.flatMap (fun (ns, k) => ns.map (fun n => (n, objs.length + k)))

/-- `initNets_searchRepair_nodeMap` — src/dr/FlexDR_init.cpp:716-727. -/
def regionNodes (objs : List DObj) (pins : List (List Node)) : NodeMap :=
  (regionInserts objs pins).foldl (fun m x => NodeMap.ins x.1 x.2 m) []

/-- `adjVisited` and `compIdx` -/
structure CompSt where
  vis : Nat → Bool
  comp : Nat → Nat

/-- the inner loop of `initNets_searchRepair_connComp` — src/dr/FlexDR_init.cpp:771-790. First argument of the recursion: fuel -/
def flood (adj : Nat → List Nat) (pick : List Nat → Nat) (id : Nat) : Nat → List Nat → CompSt → Option CompSt
  | _, [], s => some s
  | 0, _ :: _, _ => none
  | f + 1, a :: r, s =>
    let q := a :: r
    let i := pick q % q.length
    let c := q.getD i 0
    if s.vis c then flood adj pick id f (q.eraseIdx i) s
    else
      let vis := upd s.vis c true
      flood adj pick id f (q.eraseIdx i ++ (adj c).filter (fun j => !vis j)) ⟨vis, upd s.comp c id⟩

/-- the outer loop: rounds left, number of the next subnet — src/dr/FlexDR_init.cpp:763-800. -/
def compLoop (adj : Nat → List Nat) (pick : List Nat → Nat) (n fuel : Nat) : Nat → Nat → CompSt → Option (CompSt × Nat)
  | 0, id, s => if (List.range n).all s.vis then some (s, id) else none
  | r + 1, id, s =>
    match (List.range n).find? (fun i => !s.vis i) with
    | none => some (s, id)
    | some i =>
      match flood adj pick id fuel [i] s with
      | none => none
      | some s' => compLoop adj pick n fuel r (id + 1) s'

/-- the sum of the lengths of the adjacency lists, plus one -/
def floodFuel (adj : Nat → List Nat) (n : Nat) : Nat := ((List.range n).map (fun i => (adj i).length)).sum + 1

/-- `initNets_searchRepair_connComp` — src/dr/FlexDR_init.cpp:729-803: the number of the subnet of each element, and the number of subnets. -/
def connComp (adj : Nat → List Nat) (pick : List Nat → Nat) (n : Nat) : Option ((Nat → Nat) × Nat) :=
  (compLoop adj pick n (floodFuel adj n) n 0 ⟨fun _ => false, fun _ => 0⟩).map (fun r => (r.1.comp, r.2))

/-- an object the worker may rip up: a via, a patch, or a wire with both ends in the region — src/dr/FlexDR_init.cpp:839-853. -/
def DObj.isInner (R : Box) : DObj → Bool
  | .seg s => R.containsPt s.b && R.containsPt s.e
  | _ => true

structure Subnet where
  routes : List DObj
  exts : List DObj
  pins : List Nat

/-- the elements of a list whose number (counted from `b`) satisfies a test -/
def pickIdx {α : Type} (p : Nat → Bool) (b : Nat) (l : List α) : List α := ((l.zipIdx b).filter (fun x => p x.2)).map Prod.fst

/-- the division into subnets — src/dr/FlexDR_init.cpp:820-861. `pure`: objects outside the region, all put into the first subnet;
`pins`: the pins found. There is always at least one subnet. -/
def mkSubnets (R : Box) (objs pure : List DObj) (pins : List Nat) (comp : Nat → Nat) (num : Nat) : List Subnet :=
  (List.range (max num 1)).map (fun k =>
    { routes := (pickIdx (fun i => comp i == k) 0 objs).filter (DObj.isInner R)
      exts := (if k = 0 then pure else []) ++ (pickIdx (fun i => comp i == k) 0 objs).filter (fun o => !o.isInner R)
      pins := pickIdx (fun i => comp i == k) objs.length pins })

/-- `initNets_searchRepair` for one net — src/dr/FlexDR_init.cpp:805-864. -/
def regionSubnets (R : Box) (objs pure : List DObj) (pinAt : Nat → Node → Bool) (nPins : Nat) (pick : List Nat → Nat) : Option (List Subnet) :=
  let pins := regionPins R objs pinAt nPins
  let nodes := regionNodes objs (pins.map Prod.snd)
  (connComp (adjOf nodes) pick (objs.length + pins.length)).map (fun r => mkSubnets R objs pure (pins.map Prod.fst) r.1 r.2)

/-- the points at which the outside wires of a subnet meet the border — `initNet_boundary`, src/dr/FlexDR_init.cpp:1499-1573 (not the first pass). -/
def borderPoints (R : Box) (exts : List DObj) : List Node :=
  exts.flatMap (fun
    | .seg s =>
      if s.b.x = s.e.x ∧ R.left ≤ s.b.x ∧ s.e.x ≤ R.right then
        (if s.b.y = R.top then [⟨s.b, s.layer⟩] else []) ++ (if s.e.y = R.bottom then [⟨s.e, s.layer⟩] else [])
      else if s.b.y = s.e.y ∧ R.bottom ≤ s.b.y ∧ s.e.y ≤ R.top then
        (if s.b.x = R.right then [⟨s.b, s.layer⟩] else []) ++ (if s.e.x = R.left then [⟨s.e, s.layer⟩] else [])
      else []
    | _ => [])

end TR
