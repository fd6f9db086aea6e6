import Verif.Maze.GridSpec
import Verif.Track.Model
import Verif.Tech.Model
import Verif.GC.Eol.Model
import Verif.GC.Cut.Model
/-!
# Costs that shapes put on the maze grid

The functions of src/dr/FlexDR_maze.cpp:36-1508 that add or subtract costs at the grid nodes near a
shape.  Each function walks over the nodes of a window and calls one of eight counter functions; which
of the four kinds is called (`type`) does not change the nodes.  So each function is modelled by the
list of the counters it touches (a node, and whether the planar or the via counter), in the order of
the code, and `costOp` turns such a target into the call.

Simplified: coordinates and squares are unbounded integers (the code uses `int`); `QUICKDRCTEST`
output is left out; tables that contain no entry (`none`) cause no cost.
-/
namespace TR

/-- a via definition: metal rectangles on both layers (bounding boxes) and the cuts — src/db/tech/frViaDef.h -/
structure MzVia where
  l1 : Box
  l2 : Box
  cuts : List Box
deriving DecidableEq, Repr

/-- `frVia::getCutBBox` at the origin — src/db/obj/frVia.h:79-108. -/
def MzVia.cutBox (v : MzVia) : Box :=
  match v.cuts with
  | [] => ⟨⟨0, 0⟩, ⟨0, 0⟩⟩
  | b :: bs =>
    let r := bs.foldl (fun (a : Box) c => ⟨⟨min a.left c.left, min a.bottom c.bottom⟩, ⟨max a.right c.right, max a.top c.top⟩⟩) b
    Box.mk4 r.left r.bottom r.right r.top

/-- `frMinimumcutConstraint` — src/db/tech/frConstraint.h:292-360; `conn`: `some true` is FROMABOVE, `some false` FROMBELOW. -/
structure MCutRule where
  width : Int
  length : Option (Int × Int)
  conn : Option Bool

/-- what the cost functions read of the technology. Layer numbers as in the code; `via l` is the default via of cut layer `l`. -/
structure CTech where
  bottom : Int
  top : Int
  grid : Int
  useMinObs : Bool
  width : Int → Int
  pitch : Int → Int
  horz : Int → Bool
  minArea : Int → Int
  spc : Int → Option SpcRule
  eol : Int → List EolRule
  via : Int → Option MzVia
  cut : Int → List CutSpRule
  inter : Int → Int → Option CutSpRule
  mincut : Int → List MCutRule
  through : Int → Bool → Bool → Bool

/-- a counter: the node and whether it is the via counter -/
abbrev CTgt := MIdx × Bool

/-- `int type` of the cost functions -/
inductive CostMod where
  | subDRC | addDRC | subShape | addShape
deriving DecidableEq, Repr

/-- the call made for a target — e.g. src/dr/FlexDR_maze.cpp:239-253. -/
def costOp : CostMod → CTgt → GOp
  | .subDRC, (n, false) => .subDRCPlanar n
  | .subDRC, (n, true) => .subDRCVia n
  | .addDRC, (n, false) => .addDRCPlanar n
  | .addDRC, (n, true) => .addDRCVia n
  | .subShape, (n, false) => .subShapePlanar n
  | .subShape, (n, true) => .subShapeVia n
  | .addShape, (n, false) => .addShapePlanar n
  | .addShape, (n, true) => .addShapeVia n

/-- `pt2boxDistSquare` — src/dr/FlexDR_maze.cpp:40-44. -/
def ptBoxDist2 (p : Point) (b : Box) : Int :=
  let dx := max (max (b.left - p.x) (p.x - b.right)) 0
  let dy := max (max (b.bottom - p.y) (p.y - b.top)) 0
  dx * dx + dy * dy

/-- `dx`, `dy` of `box2boxDistSquareNew` — src/dr/FlexDR_maze.cpp:54-56. -/
def cgapX (a b : Box) : Int := max a.left b.left - min a.right b.right
def cgapY (a b : Box) : Int := max a.bottom b.bottom - min a.top b.top

/-- `box2boxDistSquareNew` — src/dr/FlexDR_maze.cpp:54-58. -/
def cdist2 (a b : Box) : Int :=
  max (cgapX a b) 0 * max (cgapX a b) 0 + max (cgapY a b) 0 * max (cgapY a b) 0

/-- `getLayerNum(z)` — src/dr/FlexGridGraph.h:142-144. -/
def Grid.lay (g : Grid) (z : Int) : Int := g.zs.getD z.toNat 0

/-- a node of the window: indices and coordinates -/
structure CNode where
  i : Int
  j : Int
  p : Point

/-- the two loops over the index box of `bx` with `getPoint` — e.g. src/dr/FlexDR_maze.cpp:221, 232-234. -/
def nodesIn (g : Grid) (bx : Box) : List CNode :=
  let w := g.idxBox bx
  (Grid.rangeIncl w.1.1 w.2.1).flatMap fun i =>
    (Grid.rangeIncl w.1.2 w.2.2).map fun j => ⟨i, j, ⟨g.xs.getD i.toNat 0, g.ys.getD j.toNat 0⟩⟩

/-- `findMin` of the layer's rule; a plain spacing has one value — src/dr/FlexDR_maze.cpp:200-207. -/
def SpcRule.least : SpcRule → Int
  | .fixed s => s
  | .prl t => t.findMin
  | .tw t => (t.vals.headD []).headD 0

/-! ### minimum spacing -/

/-- required distance in `modMinSpacingCostPlaner` — src/dr/FlexDR_maze.cpp:188-215. -/
def planarReq (T : CTech) (l : Int) (box : Box) (blk : Bool) : Option Int :=
  (T.spc l).bind fun r =>
    if blk && T.useMinObs then some r.least else r.req box.width (T.width l) box.length

/-- the test at a node: the least distance of the four corners — src/dr/FlexDR_maze.cpp:234-243. -/
def cornerDist2 (box : Box) (p : Point) (h : Int) : Int :=
  let d1 := min (ptBoxDist2 ⟨p.x + h, p.y - h⟩ box) (ptBoxDist2 ⟨p.x + h, p.y + h⟩ box)
  let d2 := min (ptBoxDist2 ⟨p.x - h, p.y - h⟩ box) d1
  min (ptBoxDist2 ⟨p.x - h, p.y + h⟩ box) d2

/-- `modMinSpacingCostPlaner` — src/dr/FlexDR_maze.cpp:188-270. -/
def minSpcPlanar (T : CTech) (g : Grid) (box : Box) (z : Int) (blk : Bool) : List CTgt :=
  match planarReq T (g.lay z) box blk with
  | none => []
  | some d =>
    let h := (T.width (g.lay z)).tdiv 2
    let bx := Box.mk4 (box.left - d - h + 1) (box.bottom - d - h + 1) (box.right + d + h - 1) (box.top + d + h - 1)
    (nodesIn g bx).flatMap fun n => if cornerDist2 box n.p h < d * d then [(⟨n.i, n.j, z⟩, false)] else []

/-- the default via whose metal is on layer `l`: of the cut layer above or below — src/dr/FlexDR_maze.cpp:729-741. -/
def CTech.viaOf (T : CTech) (l : Int) (upper : Bool) : Option MzVia :=
  if upper then (if l < T.top then T.via (l + 1) else none) else (if l > T.bottom then T.via (l - 1) else none)

/-- its metal on that layer — src/dr/FlexDR_maze.cpp:743-748. -/
def MzVia.metal (v : MzVia) (upper : Bool) : Box := if upper then v.l1 else v.l2

/-- the node that carries the cost of such a via — e.g. src/dr/FlexDR_maze.cpp:878-912. -/
def viaZ (z : Int) (upper : Bool) : Int := if upper then z else z - 1

/-- `isFatVia` — src/dr/FlexDR_maze.cpp:753-757. -/
def fatVia (T : CTech) (l : Int) (vb : Box) : Bool :=
  if T.horz l then decide (vb.top - vb.bottom > T.width l) else decide (vb.right - vb.left > T.width l)

/-- `patchLength` — src/dr/FlexDR_maze.cpp:759-767 (the quotient of `double`s is taken exactly). -/
def patchLen (T : CTech) (l : Int) (vb : Box) : Int :=
  if fatVia T l vb then 0 else (-(-(T.minArea l) / (T.width l * T.grid))) * T.grid

/-- the spacing for a run length `p` — src/dr/FlexDR_maze.cpp:770-795, 868-876. -/
def viaSpc (T : CTech) (l : Int) (box vb : Box) (blk : Bool) (p : Int) : Option Int :=
  (T.spc l).bind fun r =>
    if blk && T.useMinObs && !fatVia T l vb then some r.least else r.req box.width vb.width p

/-- `length2_mar` — src/dr/FlexDR_maze.cpp:758-767. -/
def viaLenMar (T : CTech) (l : Int) (vb : Box) : Int := if fatVia T l vb then vb.length else max vb.length (patchLen T l vb)

/-- `bloatDist` — src/dr/FlexDR_maze.cpp:769-795. -/
def viaBloat (T : CTech) (l : Int) (box vb : Box) (currPs blk : Bool) : Option Int :=
  viaSpc T l box vb blk (if currPs then viaLenMar T l vb else min box.length (viaLenMar T l vb))

/-- `bloatDistEolX`, `bloatDistEolY` — src/dr/FlexDR_maze.cpp:798-812. -/
def eolBloatX (rules : List EolRule) (vb : Box) : Int :=
  rules.foldl (fun a r => if vb.top - vb.bottom < r.width then max a r.space else a) 0
def eolBloatY (rules : List EolRule) (vb : Box) : Int :=
  rules.foldl (fun a r => if vb.right - vb.left < r.width then max a r.space else a) 0

/-- the run length used at a node — src/dr/FlexDR_maze.cpp:849-867. -/
def viaPrl (T : CTech) (l : Int) (box vb tmp : Box) (currPs : Bool) : Int :=
  let dx := cgapX box tmp
  let dy := cgapY box tmp
  let prl := max (-dx) (-dy)
  if currPs then
    if -dy ≥ 0 ∧ prl = -dy then
      let q := vb.top - vb.bottom
      if !T.horz l && !fatVia T l vb then max q (patchLen T l vb) else q
    else if -dx ≥ 0 ∧ prl = -dx then
      let q := vb.right - vb.left
      if T.horz l && !fatVia T l vb then max q (patchLen T l vb) else q
    else prl
  else prl

/-- the four test boxes around metal `m` — src/dr/FlexDR_maze.cpp:552-580, 1057-1095. -/
def eolBoxes (rules : List EolRule) (m : Box) : List Box :=
  rules.flatMap fun r =>
    (if m.right - m.left < r.width then
      [Box.mk4 (m.left - r.within) m.top (m.right + r.within) (m.top + r.space),
       Box.mk4 (m.left - r.within) (m.bottom - r.space) (m.right + r.within) m.bottom] else []) ++
    (if m.top - m.bottom < r.width then
      [Box.mk4 m.right (m.bottom - r.within) (m.right + r.space) (m.top + r.within),
       Box.mk4 (m.left - r.space) (m.bottom - r.within) m.left (m.top + r.within)] else [])

/-- `modMinSpacingCostVia_eol` with its helper — src/dr/FlexDR_maze.cpp:507-580. -/
def viaEol (T : CTech) (l : Int) (box tmp : Box) (t : CTgt) : List CTgt :=
  (eolBoxes (T.eol l) tmp).flatMap fun tb => if tb.overlaps box false then [t] else []

/-- metal of the via that would be placed at a node: the special access via if the node has one (`sv`: `isSVia` and `apSVia`) —
src/dr/FlexDR_maze.cpp:834-845. -/
def viaHere (sv : MIdx → Option MzVia) (v : MzVia) (upper : Bool) (m : MIdx) : Box :=
  match sv m with
  | some s => s.metal upper
  | none => v.metal upper

/-- `modMinSpacingCostVia` — src/dr/FlexDR_maze.cpp:724-925. -/
def minSpcVia (T : CTech) (g : Grid) (sv : MIdx → Option MzVia) (box : Box) (z : Int) (upper currPs blk : Bool) : List CTgt :=
  let l := g.lay z
  match T.viaOf l upper with
  | none => []
  | some v =>
    let vb := v.metal upper
    match viaBloat T l box vb currPs blk with
    | none => []
    | some d =>
      let ex := max d (eolBloatX (T.eol l) vb)
      let ey := max d (eolBloatY (T.eol l) vb)
      let bx := Box.mk4 (box.left - ex - vb.right + 1) (box.bottom - ey - vb.top + 1)
        (box.right + ex - vb.left - 1) (box.top + ey - vb.bottom - 1)
      (nodesIn g bx).flatMap fun n =>
        let t : CTgt := (⟨n.i, n.j, viaZ z upper⟩, true)
        let tmp := (viaHere sv v upper t.1).at n.p
        (match viaSpc T l box vb blk (viaPrl T l box vb tmp currPs) with
          | some q => if cdist2 box tmp < q * q then [t] else []
          | none => []) ++ viaEol T l box tmp t

/-! ### end of line -/

/-- `modEolSpacingCost_helper` for wires (`eolType` 0) — src/dr/FlexDR_maze.cpp:930-940, 978-999. -/
def eolPlanar (T : CTech) (g : Grid) (tb : Box) (z : Int) : List CTgt :=
  let h := (T.width (g.lay z)).tdiv 2
  (nodesIn g (Box.mk4 (tb.left - h + 1) (tb.bottom - h + 1) (tb.right + h - 1) (tb.top + h - 1))).map fun n => (⟨n.i, n.j, z⟩, false)

/-- `modEolSpacingCost_helper` for vias (`eolType` 1: down, 2: up) — src/dr/FlexDR_maze.cpp:941-976, 1000-1055. -/
def eolViaCost (T : CTech) (g : Grid) (sv : MIdx → Option MzVia) (tb : Box) (z : Int) (upper : Bool) : List CTgt :=
  match T.viaOf (g.lay z) upper with
  | none => []
  | some v =>
    let vb := v.metal upper
    let bx := Box.mk4 (tb.left - vb.right + 1) (tb.bottom - vb.top + 1) (tb.right - vb.left - 1) (tb.top - vb.bottom - 1)
    (nodesIn g bx).flatMap fun n =>
      let t : CTgt := (⟨n.i, n.j, viaZ z upper⟩, true)
      match sv t.1 with
      | some s => if ((s.metal upper).at n.p).overlaps tb false then [t] else []
      | none => [t]

/-- `modEolSpacingCost` — src/dr/FlexDR_maze.cpp:1057-1103. -/
def eolSpc (T : CTech) (g : Grid) (sv : MIdx → Option MzVia) (box : Box) (z : Int) (skipVia : Bool) : List CTgt :=
  (eolBoxes (T.eol (g.lay z)) box).flatMap fun tb =>
    eolPlanar T g tb z ++ (if skipVia then [] else eolViaCost T g sv tb z false ++ eolViaCost T g sv tb z true)

/-! ### cuts -/

/-- `bloatDist` of `modCutSpacingCost` — src/dr/FlexDR_maze.cpp:1201-1208. -/
def cutBloat (rules : List CutSpRule) (blk : Bool) : Int :=
  rules.foldl (fun a r =>
    let a := max a r.spacing
    if r.adj.isSome && blk then max a r.within else a) 0

/-- squared distance used by a rule — src/dr/FlexDR_maze.cpp:1239-1247. -/
def cutRuleDist2 (r : CutSpRule) (box tmp : Box) : Int :=
  if r.c2c then ptDist2 (boxCentre box) (boxCentre tmp) else cdist2 box tmp

/-- does the rule forbid cut `tmp` next to `box`? — src/dr/FlexDR_maze.cpp:1243-1276; `isLayer`, `isAdjacentCuts`,
`isParallelOverlap`, `isArea` — src/db/tech/frConstraint.h:1163-1199; `getCutArea` returns a `bool`, i.e. 0 or 1
(src/db/tech/frConstraint.h:1199-1201), which an area rule has as 1. -/
def cutRuleHit (r : CutSpRule) (box tmp : Box) (blk : Bool) : Bool :=
  let cur := cutRuleDist2 r box tmp
  if r.sameNet then false
  else if r.second.isSome then false
  else if r.adj.isSome then decide (cur < (if blk then r.within * r.within else r.spacing * r.spacing))
  else if r.parOverlap then decide (max (-(cgapX box tmp)) (-(cgapY box tmp)) > 0) && decide (cur < r.spacing * r.spacing)
  else if r.area ≠ -1 then
    decide (max (box.length * box.width) (tmp.length * tmp.width) ≥ (if r.area = 0 then 0 else 1)) && decide (cur < r.spacing * r.spacing)
  else decide (cur < r.spacing * r.spacing)

/-- the window around a box for a via whose cuts have bounding box `cb` — src/dr/FlexDR_maze.cpp:1213-1217. -/
def cutWindow (box cb : Box) (d : Int) : Box :=
  Box.mk4 (box.left - d - cb.right + 1) (box.bottom - d - cb.top + 1) (box.right + d - cb.left - 1) (box.top + d - cb.bottom - 1)

/-- `modCutSpacingCost` — src/dr/FlexDR_maze.cpp:1188-1302: one cost for each cut figure of the default via that some rule
forbids (`break` after the first rule). A missing default via is a null pointer in the code; here it gives no cost. -/
def cutSpcCost (T : CTech) (g : Grid) (box : Box) (z : Int) (blk : Bool) : List CTgt :=
  let l := g.lay z + 1
  match T.via l with
  | none => []
  | some v =>
    if (T.cut l).isEmpty then []
    else
      (nodesIn g (cutWindow box v.cutBox (cutBloat (T.cut l) blk))).flatMap fun n =>
        v.cuts.flatMap fun c => if (T.cut l).any (fun r => cutRuleHit r box (c.at n.p) blk) then [(⟨n.i, n.j, z⟩, true)] else []

/-- the other cut layer — src/dr/FlexDR_maze.cpp:1306. -/
def otherCut (l : Int) (upper : Bool) : Int := if upper then l + 2 else l - 2

/-- its default via — src/dr/FlexDR_maze.cpp:1309-1321. -/
def CTech.otherVia (T : CTech) (l : Int) (upper : Bool) : Option MzVia :=
  if upper then (if otherCut l upper ≤ T.top then T.via (otherCut l upper) else none)
  else (if otherCut l upper ≥ T.bottom then T.via (otherCut l upper) else none)

/-- the inter-layer rule, given on either layer — src/dr/FlexDR_maze.cpp:1322-1328. -/
def CTech.interRule (T : CTech) (l1 l2 : Int) : Option CutSpRule :=
  match T.inter l1 l2 with
  | some r => some r
  | none => T.inter l2 l1

/-- `modInterLayerCutSpacingCost` — src/dr/FlexDR_maze.cpp:1304-1398: at most one cost per node (`break`). -/
def interCutCost (T : CTech) (g : Grid) (box : Box) (z : Int) (upper : Bool) : List CTgt :=
  let l1 := g.lay z + 1
  match T.otherVia l1 upper, T.interRule l1 (otherCut l1 upper) with
  | some v, some r =>
    (nodesIn g (cutWindow box v.cutBox r.spacing)).flatMap fun n =>
      if v.cuts.any (fun c => decide (cutRuleDist2 r box (c.at n.p) < r.spacing * r.spacing)) then
        [(⟨n.i, n.j, if upper then z + 1 else z - 1⟩, true)] else []
  | _, _ => []

/-- is the rule applied to vias on this shape from this side? — src/dr/FlexDR_maze.cpp:619-635. -/
def mcutApplies (r : MCutRule) (box : Box) (upper : Bool) : Bool :=
  (match r.length with | none => true | some (len, _) => decide (box.length > len)) && decide (box.width > r.width) &&
  (match r.conn with | none => true | some above => above == upper)

/-- `dist` — src/dr/FlexDR_maze.cpp:637-643. -/
def mcutDist (T : CTech) (l : Int) (r : MCutRule) : Int :=
  match r.length with | none => 0 | some (_, dist) => dist + T.pitch l

/-- the test at a node — src/dr/FlexDR_maze.cpp:666-680. -/
def mcutHit (r : MCutRule) (dist : Int) (box tmp : Box) : Bool :=
  match r.length with
  | none => decide (cgapX box tmp ≤ 0) && decide (cgapY box tmp ≤ 0)
  | some _ => decide (cgapX box tmp > 0) && decide (cgapY box tmp > 0) && decide (cgapX box tmp + cgapY box tmp < dist)

/-- cuts of the via placed at a node — src/dr/FlexDR_maze.cpp:653-665. -/
def cutHere (sv : MIdx → Option MzVia) (v : MzVia) (m : MIdx) : Box :=
  match sv m with
  | some s => s.cutBox
  | none => v.cutBox

/-- `modMinimumcutCostVia` — src/dr/FlexDR_maze.cpp:582-722. -/
def minCutCost (T : CTech) (g : Grid) (sv : MIdx → Option MzVia) (box : Box) (z : Int) (upper : Bool) : List CTgt :=
  let l := g.lay z
  match T.viaOf l upper with
  | none => []
  | some v =>
    (T.mincut l).flatMap fun r =>
      if mcutApplies r box upper then
        (nodesIn g (cutWindow box v.cutBox (mcutDist T l r))).flatMap fun n =>
          let t : CTgt := (⟨n.i, n.j, viaZ z upper⟩, true)
          if mcutHit r (mcutDist T l r) box ((cutHere sv v t.1).at n.p) then [t] else []
      else []

/-! ### whole shapes -/

/-- `modViaForbiddenThrough` — src/dr/FlexDR_maze.cpp:60-144. -/
def viaThrough (T : CTech) (bi ei : MIdx) : List CTgt :=
  let h := decide (bi.y = ei.y)
  let nodes := if bi.y = ei.y then (Grid.rangeIncl bi.x (ei.x - 1)).map (fun x => (x, bi.y))
    else (Grid.rangeIncl bi.y (ei.y - 1)).map (fun y => (bi.x, y))
  nodes.flatMap fun n =>
    (if T.through bi.z true h then [(⟨n.1, n.2, bi.z - 1⟩, true)] else []) ++
    (if T.through bi.z false h then [(⟨n.1, n.2, bi.z⟩, true)] else [])

/-- routed shapes: a wire (box and node indices), a patch (box and layer index), a via (origin, definition, lower index). -/
inductive CFig where
  | wire (box : Box) (bi ei : MIdx)
  | patch (box : Box) (z : Int)
  | via (v : MzVia) (o : Point) (z1 z2 : Int)

/-- the metal of a via — src/dr/FlexDR_maze.cpp:1480-1493. -/
def viaMetalCost (T : CTech) (g : Grid) (sv : MIdx → Option MzVia) (box : Box) (z : Int) : List CTgt :=
  minSpcPlanar T g box z false ++ minSpcVia T g sv box z true false false ++ minSpcVia T g sv box z false false false ++
    eolSpc T g sv box z false

/-- `modPathCost` — src/dr/FlexDR_maze.cpp:1408-1508. -/
def pathTargets (T : CTech) (g : Grid) (sv : MIdx → Option MzVia) : CFig → List CTgt
  | .wire box bi ei =>
    minSpcPlanar T g box bi.z false ++ minSpcVia T g sv box bi.z true true false ++ minSpcVia T g sv box bi.z false true false ++
      viaThrough T bi ei ++ (if T.horz (g.lay bi.z) = decide (bi.y = ei.y) then eolSpc T g sv box bi.z false else [])
  | .patch box z =>
    minSpcPlanar T g box z false ++ minSpcVia T g sv box z true true false ++ minSpcVia T g sv box z false true false ++
      eolSpc T g sv box z false
  | .via v o z1 z2 =>
    viaMetalCost T g sv (v.l1.at o) z1 ++ viaMetalCost T g sv (v.l2.at o) z2 ++
      v.cuts.flatMap fun c => cutSpcCost T g (c.at o) z1 false ++ interCutCost T g (c.at o) z1 true ++ interCutCost T g (c.at o) z1 false

/-- `modPathCost(connFig, type)` as calls — src/dr/FlexDR_maze.cpp:1408-1508. -/
def modPathCost (T : CTech) (sv : MIdx → Option MzVia) (ty : CostMod) (f : CFig) (g : Grid) : Grid :=
  g.run ((pathTargets T g sv f).map (costOp ty))

/-- `addPathCost`, `subPathCost` — src/dr/FlexDR_maze.cpp:1400-1406. -/
def addPathCost (T : CTech) (sv : MIdx → Option MzVia) (f : CFig) (g : Grid) : Grid := modPathCost T sv .addDRC f g
def subPathCost (T : CTech) (sv : MIdx → Option MzVia) (f : CFig) (g : Grid) : Grid := modPathCost T sv .subDRC f g

/-! ### blocked edges -/

/-- `modBlockedPlanar` — src/dr/FlexDR_maze.cpp:146-166. -/
def modBlockedPlanar (box : Box) (z : Int) (set : Bool) (g : Grid) : Grid :=
  g.run ((nodesIn g box).flatMap fun n => [Dir.E, .N, .W, .S].map fun d =>
    if set then GOp.setBlocked ⟨n.i, n.j, z⟩ d else GOp.resetBlocked ⟨n.i, n.j, z⟩ d)

/-- `modBlockedVia` — src/dr/FlexDR_maze.cpp:168-186. -/
def modBlockedVia (box : Box) (z : Int) (set : Bool) (g : Grid) : Grid :=
  g.run ((nodesIn g box).flatMap fun n => [Dir.U, .D].map fun d =>
    if set then GOp.setBlocked ⟨n.i, n.j, z⟩ d else GOp.resetBlocked ⟨n.i, n.j, z⟩ d)

/-- the box blocked around a power or ground cut — src/dr/FlexDR_maze.cpp:1161-1168. -/
def adjBlockBox (r : CutSpRule) (cutWidth : Int) (cut : Box) : Box :=
  if r.c2c then
    let c := boxCentre cut
    Box.mk4 (c.x - r.spacing) (c.y - r.spacing) (c.x + r.spacing) (c.y + r.spacing)
  else
    let d := r.spacing + cutWidth.tdiv 2
    ⟨⟨cut.left - d, cut.bottom - d⟩, ⟨cut.right + d, cut.top + d⟩⟩

/-- `hasFixedViol`: another power or ground cut that the query around the via returns is too close — src/dr/FlexDR_maze.cpp:1127-1156.
The region query is modelled by its contract: the power and ground cuts of the layer that touch the query box. -/
def adjFixedViol (r : CutSpRule) (cut viaBox : Box) (pgCuts : List Box) : Bool :=
  let q : Box := ⟨⟨viaBox.left - r.within, viaBox.bottom - r.within⟩, ⟨viaBox.right + r.within, viaBox.top + r.within⟩⟩
  pgCuts.any fun b => b.overlaps q && decide (b ≠ cut) && decide (cutRuleDist2 r cut b < r.spacing * r.spacing)

/-- `modAdjCutSpacingCost_fixedObj` for a via of a power or ground net — src/dr/FlexDR_maze.cpp:1104-1185. -/
def adjCutBlock (rules : List CutSpRule) (cutWidth : Int) (cut viaBox : Box) (pgCuts : List Box) (z : Int) (g : Grid) : Grid :=
  g.run (rules.flatMap fun r =>
    if r.adj.isSome && adjFixedViol r cut viaBox pgCuts then
      (nodesIn g (adjBlockBox r cutWidth cut)).map fun n => GOp.setBlocked ⟨n.i, n.j, z⟩ .U
    else [])

end TR
