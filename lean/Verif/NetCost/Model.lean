import Verif.Cost.Model
/-!
# The costs in the routing grid of a worker

Models what `FlexDRWorker` writes into its routing grid before and while its nets are routed:
`initMazeCost` (src/dr/FlexDR_init.cpp:4011-4016: `initMazeCost_fixedObj` 3535-3668,
`initMazeCost_ap` 2314-2373, `initMazeCost_connFig` 3831-3850, `initMazeCost_planarTerm` 3796-3829),
the reservation of vias in `route_queue_init_queue` (3188-3223) and, for each net taken from the
queue, `route_queue_main` (src/dr/FlexDR_maze.cpp:2118-2191) with `mazeNetInit` and `mazeNetEnd`
(1752-1780). The costs of one shape are those of `Verif.Cost.Model`.

Simplifications:
* only the search-and-repair queue (`fixMode` 9, the only one the flow uses) is modelled, so
  `mazeNetInit` does not touch reserved vias; the labels of guides, a vector of
  its own, are in `Verif.Hist.Model`.
* the marker counters, which have their own bits, are left out.
* the shapes that the search finds and the patches the checker adds are arbitrary lists.
* shapes are given with their layer index in the grid (`getMazeZIdx`).
-/
namespace TR

/-! ### fixed shapes -/

/-- what the region query finds in the box of a worker: an obstruction (of the design or a
component), a rectangle of a component pin, a wire or via of a special net; on a routing layer (layer
index `z`) or on the cut layer above it — src/dr/FlexDR_init.cpp:3555-3653. Rectangles of design pins
add nothing here. -/
inductive FixShape where
  | obs (box : Box) (z : Int)
  | obsCut (box : Box) (z : Int)
  | pin (box : Box) (z : Int)
  | pinCut (box : Box) (z : Int)
  | wire (box : Box) (z : Int)
  | viaMetal (box : Box) (z : Int)
  | viaCut (box : Box) (z : Int)

/-- no special via is known yet when fixed objects are charged: `isSVia` is set by `initMazeCost_ap`, which runs later
— src/dr/FlexDR_init.cpp:4011-4016, 2361-2362. -/
def noSv : MIdx → Option MzVia := fun _ => none

/-- `modMinSpacingCostVia` for vias up and down -/
def bothVia (T : CTech) (g : Grid) (sv : MIdx → Option MzVia) (box : Box) (z : Int) (currPs blk : Bool) : List CTgt :=
  minSpcVia T g sv box z true currPs blk ++ minSpcVia T g sv box z false currPs blk

/-- `modInterLayerCutSpacingCost` for both neighbours -/
def bothInter (T : CTech) (g : Grid) (box : Box) (z : Int) : List CTgt := interCutCost T g box z true ++ interCutCost T g box z false

/-- `modMinimumcutCostVia` for vias up and down -/
def bothMinCut (T : CTech) (g : Grid) (sv : MIdx → Option MzVia) (box : Box) (z : Int) : List CTgt :=
  minCutCost T g sv box z true ++ minCutCost T g sv box z false

/-- the counters charged for a fixed object — src/dr/FlexDR_init.cpp:3558-3652; `VIA_ACCESS_LAYERNUM / 2 - 1` is 0
(src/global.cpp: 2). -/
def fixTargets (T : CTech) (g : Grid) : FixShape → List CTgt
  | .obs box z => minSpcPlanar T g box z true ++ bothVia T g noSv box z false true ++ eolSpc T g noSv box z false
  | .obsCut box z => cutSpcCost T g box z true ++ bothInter T g box z
  | .pin box z => if z ≤ 0 then minSpcPlanar T g box z true ++ eolSpc T g noSv box z false else []
  | .pinCut box z => cutSpcCost T g box z true ++ bothInter T g box z
  | .wire box z => minSpcPlanar T g box z false ++ bothVia T g noSv box z true false ++ eolSpc T g noSv box z false
  | .viaMetal box z => minSpcPlanar T g box z false ++ bothVia T g noSv box z false false ++ eolSpc T g noSv box z false
  | .viaCut box z => cutSpcCost T g box z false ++ bothInter T g box z

/-! ### terminals -/

/-- a rectangle of a terminal on a routing layer, in place; is it of a macro (BLOCK, PAD, PAD POWER or RING)? -/
structure TermRect where
  box : Box
  z : Int
  ofMacro : Bool

/-- the counters changed for a rectangle by `initMazeCost_terms` — src/dr/FlexDR_init.cpp:3705-3719, 3760-3781. -/
def termTargets (T : CTech) (g : Grid) (sv : MIdx → Option MzVia) (skipVia : Bool) (s : TermRect) : List CTgt :=
  minSpcPlanar T g s.box s.z false ++ (if skipVia then [] else bothVia T g sv s.box s.z false false) ++
    eolSpc T g sv s.box s.z false ++ (if s.ofMacro then bothMinCut T g sv s.box s.z else [])

/-! ### access points -/

/-- an access point: node, place, validity of the directions, via up (if any), cost, is it on a track of the horizontal
(`isOnTrack(true)`) or vertical layers — src/db/drObj/drAccessPattern.h. -/
structure NetAp where
  at' : MIdx
  pt : Point
  valid : Dir → Bool
  via : Option MzVia
  cost : Nat
  onH : Bool
  onV : Bool

/-- a pin: without terminal, of a standard cell, of a macro, of the design -/
inductive WPinKind where
  | none | cell | block | design
deriving DecidableEq

structure NetPin where
  kind : WPinKind
  aps : List NetAp

/-- the loop over access points of `initMazeCost_via_helper` — src/dr/FlexDR_init.cpp:3873-3886. -/
def cheapest : List NetAp → Option NetAp → Option NetAp
  | [], best => best
  | a :: as, best =>
    if a.via.isSome then
      let b := best.getD a
      if a.cost < b.cost then (if a.cost = 0 then some a else cheapest as (some a))
      else cheapest as (some b)
    else cheapest as best

/-- the via reserved for a pin — src/dr/FlexDR_init.cpp:3855-3900. -/
def reservedVia (p : NetPin) : List CFig :=
  match p.kind with
  | .none => []
  | .block => []
  | _ =>
    match cheapest p.aps none with
    | none => []
    | some a => match a.via with
      | none => []
      | some v => [.via v a.pt a.at'.z (a.at'.z + 1)]

/-- a net of a worker: which design net it belongs to, its shapes outside the region (`extConnFigs`), the shapes it comes
with, its pins. -/
structure WNet where
  owner : Nat
  ext : List CFig
  route : List CFig
  pins : List NetPin

def WNet.aps (n : WNet) : List NetAp := n.pins.flatMap (·.aps)

/-- `initMazeCost_via_helper` -/
def WNet.reserved (n : WNet) : List CFig := n.pins.flatMap reservedVia

/-- everything a worker's grid is filled from: the rules, the fixed objects, the terminals of each design net, its nets,
the rectangles of design pins, whether all nets are to be routed again (`ripupMode` 1). -/
structure WEnv where
  T : CTech
  fixed : List FixShape
  terms : List (List TermRect)
  nets : List WNet
  pins : List (Box × Int)
  fresh : Bool

/-- `apSVia` after `initMazeCost_ap`: the last access point with a via at a node — src/dr/FlexDR_init.cpp:2360-2362. -/
def svOf (aps : List NetAp) (m : MIdx) : Option MzVia :=
  ((aps.filter fun a => a.via.isSome && decide (a.at' = m)).getLast?).bind (·.via)

def WEnv.sv (E : WEnv) : MIdx → Option MzVia := svOf (E.nets.flatMap (·.aps))

/-- `net->getFrNetTerms()` — src/dr/FlexDR_init.cpp:3656-3666. -/
def WEnv.termsOf (E : WEnv) (n : WNet) : List TermRect := (E.terms[n.owner]?).getD []

/-! ### filling the grid -/

/-- the calls for a list of charged counters -/
def costOps (ty : CostMod) (l : List CTgt) : List GOp := l.map (costOp ty)

/-- `initMazeCost_terms` — src/dr/FlexDR_init.cpp:3670-3794. -/
def termOps (T : CTech) (g : Grid) (sv : MIdx → Option MzVia) (add skipVia : Bool) (ss : List TermRect) : List GOp :=
  ss.flatMap fun s => costOps (if add then .addShape else .subShape) (termTargets T g sv skipVia s)

/-- `addPathCost` / `subPathCost` of some shapes -/
def figOps (T : CTech) (g : Grid) (sv : MIdx → Option MzVia) (add : Bool) (fs : List CFig) : List GOp :=
  fs.flatMap fun f => costOps (if add then .addDRC else .subDRC) (pathTargets T g sv f)

/-- `initMazeCost_ap` — src/dr/FlexDR_init.cpp:2314-2373. -/
def apOps (a : NetAp) : List GOp :=
  ([Dir.E, .W, .N, .S, .U, .D].map fun d => if a.valid d then GOp.resetBlocked a.at' d else .setBlocked a.at' d) ++
    (if a.via.isSome then [.setSVia a.at'] else [])

/-- `initMazeCost_planarTerm` for one rectangle — src/dr/FlexDR_init.cpp:3806-3826. -/
def pinOps (g : Grid) (p : Box × Int) : List GOp :=
  (nodesIn g p.1).flatMap fun n => (if p.1.right - p.1.left > p.1.top - p.1.bottom then [Dir.U, .D, .N, .S] else [Dir.U, .D, .W, .E]).map fun d =>
    GOp.setBlocked ⟨n.i, n.j, p.2⟩ d

/-- counters charged at the start: `initMazeCost_fixedObj` without the blocked edges (for those see `Verif.Cost.Blocked`) -/
def WEnv.fixOps (E : WEnv) (g : Grid) : List GOp :=
  (E.fixed.flatMap fun f => costOps .addShape (fixTargets E.T g f)) ++ E.terms.flatMap (termOps E.T g noSv true false)

/-- `initMazeCost` and, if all nets are to be routed, the reservation of vias — src/dr/FlexDR_init.cpp:4011-4016,
3203-3219. -/
def WEnv.initOps (E : WEnv) (g : Grid) : List GOp :=
  E.fixOps g ++ (E.nets.flatMap (·.aps)).flatMap apOps ++ (E.nets.flatMap fun n => figOps E.T g E.sv true (n.ext ++ n.route)) ++
    E.pins.flatMap (pinOps g) ++ (if E.fresh then E.nets.flatMap fun n => figOps E.T g E.sv true n.reserved else [])

/-! ### grid costs beside access points -/

/-- `xCoords[i]` / `yCoords[i]`; `none`: not in the list (undefined in the code) -/
def coordIf (cs : List Int) (i : Int) : Option Int := if i < 0 then none else cs[i.toNat]?

/-- `getEdgeLength` along a line, forwards or backwards — src/dr/FlexGridGraph.h:291-310 (there is no check of the index). -/
def aheadLen (cs : List Int) (fwd : Bool) (i : Int) : Option Int :=
  let k := if fwd then i else i - 1
  match coordIf cs (k + 1), coordIf cs k with
  | some b, some a => some (b - a)
  | _, _ => none

/-- the positions `initMazeCost_ap_planarGrid_helper` visits — src/dr/FlexDR_init.cpp:2122-2165; `none`: a coordinate outside
the list is read. -/
def stretch (cs : List Int) (fwd : Bool) (bloat : Int) : Nat → Int → Int → Option (List Int)
  | 0, _, _ => none
  | fuel + 1, i, len =>
    if len > bloat then some []
    else
      let j := if fwd then i + 1 else i - 1
      match aheadLen cs fwd j with
      | none => none
      | some d => if d = 0 then some [i] else (stretch cs fwd bloat fuel j (len + d)).map (i :: ·)

/-- the flags it sets or resets: the direction walked and both via directions -/
def stretchOps (g : Grid) (set : Bool) (m : MIdx) (d : Dir) (bloat : Int) : Option (List GOp) :=
  let horz := decide (d = .E ∨ d = .W)
  (stretch (if horz then g.xs else g.ys) (decide (d = .E ∨ d = .N)) bloat (g.xs.length + g.ys.length + 2)
    (if horz then m.x else m.y) 0).map fun l =>
    l.flatMap fun k => [d, .D, .U].map fun e =>
      let n : MIdx := if horz then ⟨k, m.y, m.z⟩ else ⟨m.x, k, m.z⟩
      if set then GOp.setGridCost n e else GOp.resetGridCost n e

/-- is some access point of a standard cell pin on a track of the layer above? — src/dr/FlexDR_init.cpp:2243-2257. -/
def upperTrack (T : CTech) (g : Grid) (p : NetPin) : Bool :=
  decide (p.kind = .cell) && p.aps.any fun a => a.valid .U && (if T.horz (g.lay a.at'.z + 2) then a.onH else a.onV)

/-- the lines along which an access point makes off-grid wires cheap while its net is routed, with their length —
src/dr/FlexDR_init.cpp:2259-2309. -/
def apLines (T : CTech) (g : Grid) (p : NetPin) (a : NetAp) : List (MIdx × Dir × Int) :=
  let l := g.lay a.at'.z
  let up : MIdx := ⟨a.at'.x, a.at'.y, a.at'.z + 1⟩
  (if a.valid .U && decide (l + 2 ≤ T.top) && !upperTrack T g p then
    (if T.horz (l + 2) && !a.onH then [(up, Dir.W, 10 * T.width (l + 2)), (up, Dir.E, 10 * T.width (l + 2))] else []) ++
    (if !T.horz (l + 2) && !a.onV then [(up, Dir.N, 10 * T.width (l + 2)), (up, Dir.S, 10 * T.width (l + 2))] else [])
   else []) ++
  (if p.kind = .cell then [] else [Dir.W, .E, .S, .N].filterMap fun d => if a.valid d then some (a.at', d, 10 * T.width l) else none)

/-- the access points `initMazeCost_ap_helper` looks at -/
def WNet.pinAps (n : WNet) : List (NetPin × NetAp) :=
  n.pins.flatMap fun p => if p.kind = .none then [] else p.aps.map fun a => (p, a)

/-- the lines of a net -/
def WNet.lines (T : CTech) (g : Grid) (n : WNet) : List (MIdx × Dir × Int) := n.pinAps.flatMap fun x => apLines T g x.1 x.2

/-- `initMazeCost_ap_helper`: flags of the lines (`none`: undefined), then whether fixed shapes are ignored at the via of an
access point — src/dr/FlexDR_init.cpp:2212-2312. The code does both point by point; the two touch different bits. -/
def netFlags (T : CTech) (g : Grid) (add : Bool) (n : WNet) : Option (List GOp) :=
  match (n.lines T g).mapM fun x => stretchOps g add x.1 x.2.1 x.2.2 with
  | none => none
  | some ls => some (ls.flatten ++
      (n.pinAps.filter fun x => x.2.valid .U).map fun x => if add then GOp.resetOverride x.2.at' else .setOverride x.2.at')

/-- `initMazeCost_minCut_helper` — src/dr/FlexDR_init.cpp:3918-3945. -/
def minCutTargets (T : CTech) (g : Grid) (sv : MIdx → Option MzVia) : CFig → List CTgt
  | .via v o z1 z2 => bothMinCut T g sv (v.l1.at o) z1 ++ bothMinCut T g sv (v.l2.at o) z2
  | _ => []

/-! ### routing a net -/

/-- `mazeNetInit` (`add` = false) and `mazeNetEnd` (`add` = true) — src/dr/FlexDR_maze.cpp:1752-1780. -/
def WEnv.netOps (E : WEnv) (g : Grid) (add : Bool) (n : WNet) : Option (List GOp) :=
  match netFlags E.T g add n with
  | none => none
  | some aps => some (termOps E.T g E.sv add true (E.termsOf n) ++
      (n.ext.flatMap fun f => costOps (if add then .subDRC else .addDRC) (minCutTargets E.T g E.sv f)) ++
      aps ++ figOps E.T g E.sv add n.ext)

/-- the grid, the shapes of each net, how often each was routed -/
structure WState where
  grid : Grid
  figs : List (List CFig)
  tries : List Nat

def WEnv.start (E : WEnv) (g : Grid) : WState := ⟨g.run (E.initOps g), E.nets.map (·.route), E.nets.map fun _ => 0⟩

/-- net `k` is taken from the queue, up to the search — src/dr/FlexDR_maze.cpp:2128-2144. -/
def WEnv.begin (E : WEnv) (s : WState) (k : Nat) : Option WState :=
  match E.nets[k]?, s.figs[k]?, s.tries[k]? with
  | some n, some fs, some t =>
    match E.netOps s.grid false n with
    | none => none
    | some ops => some { s with
        grid := s.grid.run (figOps E.T s.grid E.sv false fs ++
          (if decide (t = 0) && E.fresh then figOps E.T s.grid E.sv false n.reserved else []) ++ ops)
        figs := s.figs.set k [] }
  | _, _, _ => none

/-- the search found the shapes `new` (`routeNet_postRouteAddPathCost`, src/dr/FlexDR_maze.cpp:2918-2925); `mazeNetEnd`; then the
checker adds `patches` to the nets, without `addPathCost` — src/dr/FlexDR_maze.cpp:2162-2163, 2198-2216. -/
def WEnv.finish (E : WEnv) (s : WState) (k : Nat) (new : List CFig) (patches : List (Nat × CFig)) : Option WState :=
  match E.nets[k]?, s.tries[k]? with
  | some n, some t =>
    match E.netOps s.grid true n with
    | none => none
    | some ops => some {
        grid := s.grid.run (figOps E.T s.grid E.sv true new ++ ops)
        figs := patches.foldl (fun fs p => fs.modify p.1 (· ++ [p.2])) (s.figs.set k new)
        tries := s.tries.set k (t + 1) }
  | _, _ => none

end TR
