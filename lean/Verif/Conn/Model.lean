import Verif.Conn.MergeModel
import Verif.Conn.SearchModel
/-! # Model: connectivity check of a routed net

Models `checkConnectivity_pin2epMap`, `_initDRObjs`, `_nodeMap*`, `_astar`, `_final` and the per-net
part of `checkConnectivity` — src/dr/FlexDR_conn.cpp:37-793, 1026-1164.

Simplifications:
* `map` and `set` are sorted lists. `nodeMap` is built from the list of its insertions, in program order.
* The region query for pins is a parameter: `pinAt k n` says whether pin `k` of the net has metal at
  node `n`. Other nets' pins are filtered out by the code (lines 49, 59) and never appear.
* Markers, region-query updates and messages are dropped.
* Patch wires are given by origin and layer. -/
namespace TR

/-- `pair<frPoint, frLayerNum>` -/
structure Node where
  pt : Point
  layer : Int
deriving DecidableEq, Repr

/-- `operator<` of `pair<frPoint, frLayerNum>` -/
def Node.lt (a b : Node) : Bool := a.pt.lt b.pt || (!b.pt.lt a.pt && decide (a.layer < b.layer))

/-- what this pass reads of `frVia`: origin and the two routing layers -/
structure CVia where
  o : Point
  l1 : Int
  l2 : Int
deriving DecidableEq, Repr

/-- an element of `netDRObjs` — src/dr/FlexDR_conn.cpp:138-180. -/
inductive CObj where
  | wire (w : CWire)
  | via (v : CVia)
deriving DecidableEq, Repr

/-- `checkConnectivity_initDRObjs` — src/dr/FlexDR_conn.cpp:138-180: wires, then vias. -/
def initObjs (ws : List CWire) (vs : List CVia) : List CObj := ws.map .wire ++ vs.map .via

/-- `nodeMap_routeObjEnd` for one object — src/dr/FlexDR_conn.cpp:188-214. -/
def CObj.ends : CObj → List Node
  | .wire w => [⟨w.b, w.layer⟩, ⟨w.e, w.layer⟩]
  | .via v => [⟨v.o, v.l1⟩, ⟨v.o, v.l2⟩]

/-! ### pins (`pin2epMap`) -/

/-- `extEndPoints` — src/dr/FlexDR_conn.cpp:83, 98-114. -/
def extEnds (objs : List CObj) : List Node :=
  objs.flatMap (fun
    | .wire w => (if w.truncB then [] else [⟨w.b, w.layer⟩]) ++ (if w.truncE then [] else [⟨w.e, w.layer⟩])
    | .via _ => [])

/-- the nodes at which pins are looked up — src/dr/FlexDR_conn.cpp:84-134. -/
def pinQueries (objs : List CObj) : List Node :=
  objs.flatMap (fun
    | .wire w => (if w.truncB then [⟨w.b, w.layer⟩] else []) ++ (if w.truncE then [⟨w.e, w.layer⟩] else [])
    | .via _ => []) ++
  objs.flatMap (fun
    | .wire _ => []
    | .via v => [⟨v.o, v.l1⟩, ⟨v.o, v.l2⟩].filter (fun n => !(extEnds objs).contains n))

/-- `pin2epMap`: a pin is present when some lookup hit it — src/dr/FlexDR_conn.cpp:38-73. -/
def foundPins (objs : List CObj) (pinAt : Nat → Node → Bool) (nPins : Nat) : List (Nat × List Node) :=
  ((List.range nPins).map (fun k => (k, (pinQueries objs).filter (pinAt k)))).filter (fun p => !p.2.isEmpty)

/-! ### node map -/

abbrev NodeMap := List (Node × List Nat)

/-- `set<int>::insert` -/
def setIns (i : Nat) : List Nat → List Nat
  | [] => [i]
  | j :: r => if i < j then i :: j :: r else if i = j then j :: r else j :: setIns i r

/-- `nodeMap[n].insert(i)` -/
def NodeMap.ins (n : Node) (i : Nat) : NodeMap → NodeMap
  | [] => [(n, [i])]
  | (m, S) :: r =>
    if n.lt m then (n, [i]) :: (m, S) :: r
    else if n = m then (m, setIns i S) :: r
    else (m, S) :: NodeMap.ins n i r

/-- track of a wire as `routeObjSplit` sees it — src/dr/FlexDR_conn.cpp:249-255. -/
def CWire.splitKey (w : CWire) : TrackKey :=
  if w.b.x = w.e.x then (w.layer, false, w.b.x) else (w.layer, true, w.b.y)

/-- `map<ep, pair<bp, objIdx>>::operator[]=` -/
def epPut (ep bp : Int) (i : Nat) : List (Int × Int × Nat) → List (Int × Int × Nat)
  | [] => [(ep, bp, i)]
  | x :: r => if ep < x.1 then (ep, bp, i) :: x :: r else if ep = x.1 then (ep, bp, i) :: r else x :: epPut ep bp i r

/-- `horzMergeHelper[l][track]`, `vertMergeHelper[l][track]` — src/dr/FlexDR_conn.cpp:240-257. -/
def epMap (objs : List CObj) (k : TrackKey) : List (Int × Int × Nat) :=
  objs.zipIdx.foldl (fun m (oi : CObj × Nat) => match oi.1 with
    | .wire w => if w.splitKey = k then epPut (w.span k.2.1).2 (w.span k.2.1).1 oi.2 m else m
    | .via _ => m) []

/-- `nodeMap_routeObjSplit_helper` — src/dr/FlexDR_conn.cpp:217-233. -/
def splitHit (objs : List CObj) (n : Node) (horz : Bool) : List (Node × Nat) :=
  let track := if horz then n.pt.y else n.pt.x
  let split := if horz then n.pt.x else n.pt.y
  match (epMap objs (n.layer, horz, track)).find? (fun x => decide (split ≤ x.1)) with
  | some (ep, bp, i) => if split < ep ∧ bp < split then [(n, i)] else []
  | none => []

/-- `nodeMap_routeObjSplit` for one object — src/dr/FlexDR_conn.cpp:258-314. -/
def CObj.splits (objs : List CObj) : CObj → List (Node × Nat)
  | .wire w =>
    let horz := decide (w.b.x = w.e.x)  -- a vertical wire looks for horizontal tracks
    splitHit objs ⟨w.b, w.layer⟩ horz ++ splitHit objs ⟨w.e, w.layer⟩ horz
  | .via v =>
    splitHit objs ⟨v.o, v.l1⟩ true ++ splitHit objs ⟨v.o, v.l1⟩ false ++
    splitHit objs ⟨v.o, v.l2⟩ true ++ splitHit objs ⟨v.o, v.l2⟩ false

/-- all insertions into the node map: object ends (182-215), wires passing under an end (235-315),
pins (318-336) — src/dr/FlexDR_conn.cpp. -/
def nodeInserts (objs : List CObj) (pins : List (List Node)) : List (Node × Nat) :=
  objs.zipIdx.flatMap (fun (o, i) => o.ends.map (fun n => (n, i))) ++
  objs.flatMap (CObj.splits objs) ++
  pins.zipIdx.flatMap (fun (ns, k) => ns.map (fun n => (n, objs.length + k)))

/-- `checkConnectivity_nodeMap` — src/dr/FlexDR_conn.cpp:338-386. -/
def nodeMap (objs : List CObj) (pins : List (List Node)) : NodeMap :=
  (nodeInserts objs pins).foldl (fun m x => NodeMap.ins x.1 x.2 m) []

/-- `adjVec[i]` — src/dr/FlexDR_conn.cpp:396-416: all other members of every set that contains `i`. -/
def adjOf (nm : NodeMap) (i : Nat) : List Nat :=
  nm.flatMap (fun x => if i ∈ x.2 then x.2.filter (fun j => j ≠ i) else [])

/-- the check of one net — src/dr/FlexDR_conn.cpp:1111-1128: objects `objs`, pins given by their
nodes. The feed-through penalty is 5 (line 446). -/
def checkGraph (objs : List CObj) (pins : List (List Node)) (pick : Nat → Nat → Nat) (fuel : Nat) :
    Option NetFound :=
  netSearch (adjOf (nodeMap objs pins)) objs.length (objs.length + pins.length) 5 pick fuel

/-! ### clean-up (`checkConnectivity_final`) -/

/-- `nodeMap` after dropping unused objects — src/dr/FlexDR_conn.cpp:533-590. -/
def dropUnused (kept : Nat → Bool) (nm : NodeMap) : NodeMap := nm.map (fun x => (x.1, x.2.filter kept))

/-- `reverseNodeMap[i]`, skipping nodes with a single object — src/dr/FlexDR_conn.cpp:592-601. -/
def revNodes (nm : NodeMap) (i : Nat) : List Node :=
  (nm.filter (fun x => decide (x.2.length ≠ 1 ∧ i ∈ x.2))).map Prod.fst

/-- first object of the set that ends at the node (`hasPinEP`), with the last wire seen before it
(`psIdx`) — src/dr/FlexDR_conn.cpp:617-641. Returns `none` when an end is found. -/
def passingWire (objs : List CObj) (n : Node) : List Nat → Option Nat → Option Nat
  | [], acc => acc
  | i :: r, acc =>
    if objs.length ≤ i then passingWire objs n r acc
    else match objs[i]? with
      | some (.wire w) => if w.b = n.pt ∨ w.e = n.pt then none else passingWire objs n r (some i)
      | some (.via _) => none
      | none => passingWire objs n r acc

/-- `psSplits` in map order — src/dr/FlexDR_conn.cpp:603-652. -/
def psSplits (objs : List CObj) (nm : NodeMap) : List (Node × Nat) :=
  nm.filterMap (fun x =>
    if x.2.any (fun i => decide (objs.length ≤ i)) then (passingWire objs x.1 x.2 none).map (fun i => (x.1, i))
    else none)

/-- a wire of the net during clean-up: its object index or, for an added wire, `nCnt + k`; the
wire; its entry of `reverseNodeMap`. -/
structure Piece where
  idx : Nat
  w : CWire
  rev : List Node
deriving DecidableEq, Repr

/-- coordinate compared when distributing nodes over the two halves — src/dr/FlexDR_conn.cpp:662-690. -/
def CWire.axis (w : CWire) (p : Point) : Int := if w.b.y = w.e.y then p.x else p.y

/-- one iteration of the split loop — src/dr/FlexDR_conn.cpp:654-722: wire `idx1` keeps the part up
to the split point, a new wire takes the rest. Updates of `nodeMap` in this loop are never read
again and dropped. -/
def splitPiece (newIdx : Nat) (s : Node) (p : Piece) : Piece × Piece :=
  (⟨p.idx, { p.w with e := s.pt, truncE := true }, p.rev.filter (fun n => decide (p.w.axis n.pt ≤ p.w.axis s.pt))⟩,
   ⟨newIdx, { p.w with b := s.pt, truncB := true }, p.rev.filter (fun n => decide (p.w.axis s.pt ≤ p.w.axis n.pt))⟩)

/-- the split loop; `sp` is `psSplits` from right to left — src/dr/FlexDR_conn.cpp:654-722. -/
def splitLoop : Nat → List (Node × Nat) → List Piece → List Piece
  | _, [], ps => ps
  | newIdx, (s, i) :: r, ps =>
    match ps.find? (fun p => p.idx == i) with
    | none => splitLoop newIdx r ps
    | some p =>
      let lr := splitPiece newIdx s p
      splitLoop (newIdx + 1) r (ps.map (fun q => if q.idx = i then lr.1 else q) ++ [lr.2])

def minPt : List Node → Option Node
  | [] => none
  | n :: r => match minPt r with | none => some n | some m => if m.lt n then some m else some n

def maxPt : List Node → Option Node
  | [] => none
  | n :: r => match maxPt r with | none => some n | some m => if n.lt m then some m else some n

/-- shrinking a wire to its outermost used nodes — src/dr/FlexDR_conn.cpp:724-762. -/
def shrinkPiece (p : Piece) : CWire :=
  match minPt p.rev, maxPt p.rev with
  | some mn, some mx =>
    if p.w.b.lt mn.pt || mx.pt.lt p.w.e then { p.w with b := mn.pt, e := mx.pt } else p.w
  | _, _ => p.w

/-- result of the clean-up: wires, vias, patches -/
structure Cleaned where
  wires : List CWire
  vias : List CVia
  patches : List Node
deriving DecidableEq, Repr

/-- the kept wires with their `reverseNodeMap` entries — src/dr/FlexDR_conn.cpp:541-601. -/
def keptPieces (objs : List CObj) (kept : Nat → Bool) (nm : NodeMap) : List Piece :=
  objs.zipIdx.filterMap (fun (o, i) => match o with
    | .wire w => if kept i then some ⟨i, w, revNodes nm i⟩ else none
    | .via _ => none)

def keptVias (objs : List CObj) (kept : Nat → Bool) : List CVia :=
  objs.zipIdx.filterMap (fun (o, i) => match o with
    | .wire _ => none
    | .via v => if kept i then some v else none)

/-- `checkConnectivity_final` — src/dr/FlexDR_conn.cpp:525-793. `patches` are the patch wires of the
net by origin and layer; those not at an end of a remaining shape are deleted (764-792). -/
def finalClean (objs : List CObj) (nPins : Nat) (kept : Nat → Bool) (nm0 : NodeMap) (patches : List Node) : Cleaned :=
  let nm := dropUnused kept nm0
  let ps := splitLoop (objs.length + nPins) (psSplits objs nm).reverse (keptPieces objs kept nm)
  let ws := ps.map shrinkPiece
  let vs := keptVias objs kept
  let valid := ws.flatMap (fun w => [⟨w.b, w.layer⟩, ⟨w.e, w.layer⟩]) ++
    vs.flatMap (fun v => [(⟨v.o, v.l1⟩ : Node), ⟨v.o, v.l2⟩])
  ⟨ws, vs, patches.filter (fun n => valid.contains n)⟩

/-- outcome of `checkConnectivity` for one net -/
inductive CheckResult where
  | broken  -- "Error: checkConnectivity break"; the program then exits
  | clean (c : Cleaned)
deriving DecidableEq, Repr

/-- `checkConnectivity` for one net — src/dr/FlexDR_conn.cpp:1080-1158. -/
def checkNet (wires : List CWire) (vias : List CVia) (patches : List Node) (pinAt : Nat → Node → Bool)
    (nPins : Nat) (pick : Nat → Nat → Nat) (fuel : Nat) : Option CheckResult :=
  let objs := initObjs (mergedWires wires) vias
  let pins := (foundPins objs pinAt nPins).map Prod.snd
  match checkGraph objs pins pick fuel with
  | none => none
  | some r =>
    if r.ok then some (.clean (finalClean objs pins.length r.kept (nodeMap objs pins) patches)) else some .broken

end TR
