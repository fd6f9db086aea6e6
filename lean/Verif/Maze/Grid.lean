import Verif.Maze.Basic
/-!
# Maze grid storage

Models the node storage of `FlexGridGraph` (src/dr/FlexGridGraph.h): one 64-bit word per
node, the source/destination/guide/predecessor labels and all functions that read or write
them.

Simplifications: vectors are functions from the (signed) position; positions outside
`[0, X*Y*Z)` do not exist in the code (access there is undefined behaviour) — theorem C07
shows in-range nodes stay inside, `c09_guarded_ops_stay_inside` that guarded operations
never write outside whatever their arguments. `astarCosts` is not modelled (never read by
the search, src/dr/FlexGridGraph_maze.cpp).
-/
namespace TR

abbrev Word := BitVec 64

/-- GRIDGRAPHDRCCOSTSIZE — src/dr/FlexGridGraph.h:32. -/
def DRCBITS : Nat := 8

/-- `getBit` — src/dr/FlexGridGraph.h:818-820. -/
def getBit (w : Word) (pos : Nat) : Bool := ((w >>> pos) &&& 1#64) != 0#64

/-- `((1ull << length) - 1)` — src/dr/FlexGridGraph.h:822, 848-849. -/
def maskLen (len : Nat) : Word := (1#64 <<< len) - 1#64

/-- `getBits` — src/dr/FlexGridGraph.h:821-824 (result cast to `unsigned int`; no loss for
the 8-bit fields used). -/
def getBits (w : Word) (pos len : Nat) : Nat := ((w &&& (maskLen len <<< pos)) >>> pos).toNat

/-- `setBit` — src/dr/FlexGridGraph.h:830-832 (`1 << pos` is an `int`; all positions used
are below 31). -/
def setBit (w : Word) (pos : Nat) : Word := w ||| (1#64 <<< pos)

/-- `resetBit` — src/dr/FlexGridGraph.h:833-835. -/
def resetBit (w : Word) (pos : Nat) : Word := w &&& ~~~(1#64 <<< pos)

/-- `setBits` — src/dr/FlexGridGraph.h:846-850. -/
def setBits (w : Word) (pos len val : Nat) : Word :=
  (w &&& ~~~(maskLen len <<< pos)) ||| ((BitVec.ofNat 64 val &&& maskLen len) <<< pos)

/-- `addToBits` — src/dr/FlexGridGraph.h:836-840: saturates at `1 << length`, which does not
fit in `length` bits. -/
def addToBits (w : Word) (pos len val : Nat) : Word :=
  let tmp := getBits w pos len + val
  let tmp := if tmp > 2 ^ len then 2 ^ len else tmp
  setBits w pos len tmp

/-- `subToBits` — src/dr/FlexGridGraph.h:841-845. -/
def subToBits (w : Word) (pos len val : Nat) : Word :=
  let tmp : Int := (getBits w pos len : Int) - (val : Int)
  let tmp := if tmp < 0 then 0 else tmp
  setBits w pos len tmp.toNat

/-- The stored state — src/dr/FlexGridGraph.h:785-800. `zDir z = true` means horizontal. -/
structure Grid where
  xs : List Int
  ys : List Int
  zs : List Int
  zDir : Int → Bool
  bits : Int → Word
  srcs : Int → Bool
  dsts : Int → Bool
  guides : Int → Bool
  prevs : Int → Bool

namespace Grid

def X (g : Grid) : Int := g.xs.length
def Y (g : Grid) : Int := g.ys.length
def Z (g : Grid) : Int := g.zs.length

/-- `getIdx` — src/dr/FlexGridGraph.h:825-828. -/
def idx (g : Grid) (n : MIdx) : Int :=
  if g.zDir n.z then n.x + n.y * g.X + n.z * g.X * g.Y
  else n.y + n.x * g.Y + n.z * g.X * g.Y

/-- `isValid(x,y,z)` — src/dr/FlexGridGraph.h:916-923. -/
def isValid (g : Grid) (n : MIdx) : Bool :=
  !(decide (n.x < 0) || decide (n.y < 0) || decide (n.z < 0) ||
    decide (n.x ≥ g.X) || decide (n.y ≥ g.Y) || decide (n.z ≥ g.Z))

/-- `isValid(x,y,z,dir)` — src/dr/FlexGridGraph.h:924-928. -/
def isValidD (g : Grid) (n : MIdx) (d : Dir) : Bool :=
  g.isValid n && g.isValid (reverse n d).1

/-- read / write the word of a position -/
def upd (g : Grid) (i : Int) (f : Word → Word) : Grid :=
  { g with bits := fun j => if j = i then f (g.bits i) else g.bits j }

/-! ### edges and flags -/

/-- `hasEdge` — src/dr/FlexGridGraph.h:193-210. -/
def hasEdge (g : Grid) (n : MIdx) (d : Dir) : Bool :=
  let (n, d) := correct n d
  if g.isValid n then
    match d with
    | .E => getBit (g.bits (g.idx n)) 0
    | .N => getBit (g.bits (g.idx n)) 1
    | .U => getBit (g.bits (g.idx n)) 2
    | _ => false
  else false

/-- `getPoint` — src/dr/FlexGridGraph.h:138-141 (`none` = index out of range). -/
def point (g : Grid) (n : MIdx) : Option Point :=
  match g.xs[n.x.toNat]?, g.ys[n.y.toNat]? with
  | some a, some b => some ⟨a, b⟩
  | _, _ => none

/-- `isEdgeInBox` — src/dr/FlexGridGraph.h:311-338. -/
def isEdgeInBox (g : Grid) (n : MIdx) (d : Dir) (box : Box) (initDR : Bool) : Bool :=
  let (n, d) := correct n d
  if g.isValidD n d then
    match g.point n, g.point (reverse n d).1 with
    | some pt, some pt1 =>
      if box.containsPt pt && box.containsPt pt1 then
        !(initDR && ((decide (box.right = pt.x) && decide (box.right = pt1.x)) ||
                     (decide (box.top = pt.y) && decide (box.top = pt1.y))))
      else false
    | _, _ => false
  else false

/-- `addEdge` — src/dr/FlexGridGraph.h:340-371. -/
def addEdge (g : Grid) (n : MIdx) (d : Dir) (box : Box) (initDR : Bool) : Grid × Bool :=
  if !g.isEdgeInBox n d box initDR then (g, false)
  else
    let (n, d) := correct n d
    if g.isValidD n d then
      match d with
      | .E => (g.upd (g.idx n) (setBit · 0), true)
      | .N => (g.upd (g.idx n) (setBit · 1), true)
      | .U => (g.upd (g.idx n) (setBit · 2), true)
      | _ => (g, false)
    else (g, false)

/-- `removeEdge` — src/dr/FlexGridGraph.h:372-395. -/
def removeEdge (g : Grid) (n : MIdx) (d : Dir) : Grid × Bool :=
  let (n, d) := correct n d
  if g.isValidD n d then
    match d with
    | .E => (g.upd (g.idx n) (resetBit · 0), true)
    | .N => (g.upd (g.idx n) (resetBit · 1), true)
    | .U => (g.upd (g.idx n) (resetBit · 2), true)
    | _ => (g, false)
  else (g, false)

/-- `isBlocked` — src/dr/FlexGridGraph.h:93-110. -/
def isBlocked (g : Grid) (n : MIdx) (d : Dir) : Bool :=
  let (n, d) := correct n d
  if g.isValid n then
    match d with
    | .E => getBit (g.bits (g.idx n)) 3
    | .N => getBit (g.bits (g.idx n)) 4
    | .U => getBit (g.bits (g.idx n)) 5
    | _ => false
  else false

/-- `setBlocked` — src/dr/FlexGridGraph.h:396-411. -/
def setBlocked (g : Grid) (n : MIdx) (d : Dir) : Grid :=
  let (n, d) := correct n d
  if g.isValid n then
    match d with
    | .E => g.upd (g.idx n) (setBit · 3)
    | .N => g.upd (g.idx n) (setBit · 4)
    | .U => g.upd (g.idx n) (setBit · 5)
    | _ => g
  else g

/-- `resetBlocked` — src/dr/FlexGridGraph.h:412-427. -/
def resetBlocked (g : Grid) (n : MIdx) (d : Dir) : Grid :=
  let (n, d) := correct n d
  if g.isValid n then
    match d with
    | .E => g.upd (g.idx n) (resetBit · 3)
    | .N => g.upd (g.idx n) (resetBit · 4)
    | .U => g.upd (g.idx n) (resetBit · 5)
    | _ => g
  else g

/-- `hasGridCost` — src/dr/FlexGridGraph.h:116-128, 211-225 (no validity check). -/
def hasGridCost (g : Grid) (n : MIdx) (d : Dir) : Bool :=
  let (n, d) := correct n d
  match d with
  | .E => getBit (g.bits (g.idx n)) 12
  | .N => getBit (g.bits (g.idx n)) 13
  | _ => getBit (g.bits (g.idx n)) 14

/-- `setGridCost` — src/dr/FlexGridGraph.h:600-615. -/
def setGridCost (g : Grid) (n : MIdx) (d : Dir) : Grid :=
  let (n, d) := correct n d
  if g.isValid n then
    match d with
    | .E => g.upd (g.idx n) (setBit · 12)
    | .N => g.upd (g.idx n) (setBit · 13)
    | .U => g.upd (g.idx n) (setBit · 14)
    | _ => g
  else g

/-- `resetGridCost` — src/dr/FlexGridGraph.h:639-654. -/
def resetGridCost (g : Grid) (n : MIdx) (d : Dir) : Grid :=
  let (n, d) := correct n d
  if g.isValid n then
    match d with
    | .E => g.upd (g.idx n) (resetBit · 12)
    | .N => g.upd (g.idx n) (resetBit · 13)
    | .U => g.upd (g.idx n) (resetBit · 14)
    | _ => g
  else g

/-- `setGridCostE/N/U` — src/dr/FlexGridGraph.h:616-624. -/
def setGridCostE (g : Grid) (n : MIdx) : Grid := g.upd (g.idx n) (setBit · 12)
def setGridCostN (g : Grid) (n : MIdx) : Grid := g.upd (g.idx n) (setBit · 13)
def setGridCostU (g : Grid) (n : MIdx) : Grid := g.upd (g.idx n) (setBit · 14)

/-- `isSVia`/`setSVia` — src/dr/FlexGridGraph.h:112-114, 588-590. -/
def isSVia (g : Grid) (n : MIdx) : Bool := getBit (g.bits (g.idx n)) 9
def setSVia (g : Grid) (n : MIdx) : Grid := g.upd (g.idx n) (setBit · 9)

/-- `isOverrideShapeCost` — src/dr/FlexGridGraph.h:239-247. -/
def isOverrideShapeCost (g : Grid) (n : MIdx) (d : Dir) : Bool :=
  match d with
  | .D | .U => getBit (g.bits (g.idx (correctU n d).1)) 11
  | _ => false

/-- `setOverrideShapeCostVia` / `resetOverrideShapeCostVia` — src/dr/FlexGridGraph.h:591-596. -/
def setOverride (g : Grid) (n : MIdx) : Grid := g.upd (g.idx n) (setBit · 11)
def resetOverride (g : Grid) (n : MIdx) : Grid := g.upd (g.idx n) (resetBit · 11)

/-! ### cost counters -/

/-- `hasDRCCost` — src/dr/FlexGridGraph.h:248-260. -/
def hasDRCCost (g : Grid) (n : MIdx) (d : Dir) : Bool :=
  match d with
  | .D | .U => getBits (g.bits (g.idx (correctU n d).1)) 24 DRCBITS != 0
  | d => getBits (g.bits (g.idx (reverse n d).1)) 16 DRCBITS != 0

/-- `hasMarkerCost` — src/dr/FlexGridGraph.h:261-289. -/
def hasMarkerCost (g : Grid) (n : MIdx) (d : Dir) : Bool :=
  match d with
  | .D | .U => getBits (g.bits (g.idx (correctU n d).1)) 40 DRCBITS != 0
  | d => getBits (g.bits (g.idx (reverse n d).1)) 32 DRCBITS != 0

/-- `hasShapeCost` — src/dr/FlexGridGraph.h:226-238 (after `correctU` the direction is U). -/
def hasShapeCost (g : Grid) (n : MIdx) (d : Dir) : Bool :=
  match d with
  | .D | .U =>
    let (n, d) := correctU n d
    if g.isOverrideShapeCost n d then false else getBits (g.bits (g.idx n)) 48 DRCBITS != 0
  | d => getBits (g.bits (g.idx (reverse n d).1)) 56 DRCBITS != 0

/-- DRC cost counters — src/dr/FlexGridGraph.h:428-451. -/
def addDRCPlanar (g : Grid) (n : MIdx) : Grid := g.upd (g.idx n) (addToBits · 16 DRCBITS 1)
def addDRCVia (g : Grid) (n : MIdx) : Grid := g.upd (g.idx n) (addToBits · 24 DRCBITS 1)
def subDRCPlanar (g : Grid) (n : MIdx) : Grid := g.upd (g.idx n) (subToBits · 16 DRCBITS 1)
def subDRCVia (g : Grid) (n : MIdx) : Grid := g.upd (g.idx n) (subToBits · 24 DRCBITS 1)
def resetDRCPlanar (g : Grid) (n : MIdx) : Grid := g.upd (g.idx n) (setBits · 16 DRCBITS 0)
def resetDRCVia (g : Grid) (n : MIdx) : Grid := g.upd (g.idx n) (setBits · 24 DRCBITS 0)

/-- marker cost counters — src/dr/FlexGridGraph.h:452-459. -/
def addMarkerPlanar (g : Grid) (n : MIdx) : Grid := g.upd (g.idx n) (addToBits · 32 DRCBITS 10)
def addMarkerVia (g : Grid) (n : MIdx) : Grid := g.upd (g.idx n) (addToBits · 40 DRCBITS 10)

/-- `addMarkerCost(dir)` — src/dr/FlexGridGraph.h:460-478. -/
def addMarker (g : Grid) (n : MIdx) (d : Dir) : Grid :=
  let (n, d) := correct n d
  if g.isValid n then
    match d with
    | .E => g.upd (g.idx n) (addToBits · 32 DRCBITS 10)
    | .N => g.upd (g.idx n) (addToBits · 32 DRCBITS 10)
    | .U => g.upd (g.idx n) (addToBits · 40 DRCBITS 10)
    | _ => g
  else g

/-- `decayMarkerCostPlanar/Via(float d)` — src/dr/FlexGridGraph.h:479-494. Simplification:
the truncated float product is an arbitrary function `f` of the old value. -/
def decayMarkerPlanarF (g : Grid) (n : MIdx) (f : Nat → Int) : Grid × Bool :=
  let c := max 0 (f (getBits (g.bits (g.idx n)) 32 DRCBITS))
  (g.upd (g.idx n) (setBits · 32 DRCBITS c.toNat), decide (c = 0))
def decayMarkerViaF (g : Grid) (n : MIdx) (f : Nat → Int) : Grid × Bool :=
  let c := max 0 (f (getBits (g.bits (g.idx n)) 40 DRCBITS))
  (g.upd (g.idx n) (setBits · 40 DRCBITS c.toNat), decide (c = 0))

/-- `decayMarkerCostPlanar/Via()` — src/dr/FlexGridGraph.h:495-510: decrement, not below 0. -/
def decayMarkerPlanar (g : Grid) (n : MIdx) : Grid × Bool :=
  decayMarkerPlanarF g n (fun c => (c : Int) - 1)
def decayMarkerVia (g : Grid) (n : MIdx) : Grid × Bool :=
  decayMarkerViaF g n (fun c => (c : Int) - 1)

/-- `decayMarkerCost(dir, d)` — src/dr/FlexGridGraph.h:511-537: the `switch` has no `break`,
so E and N fall through to U. -/
def decayMarkerF (g : Grid) (n : MIdx) (d : Dir) (f : Nat → Int) : Grid × Bool :=
  let (n, d) := correct n d
  if g.isValid n then
    match d with
    | .E =>
      let g1 := (g.decayMarkerPlanarF n f).1
      let g2 := (g1.decayMarkerPlanarF n f).1
      g2.decayMarkerViaF n f
    | .N =>
      let g1 := (g.decayMarkerPlanarF n f).1
      g1.decayMarkerViaF n f
    | .U => g.decayMarkerViaF n f
    | _ => (g, true)
  else (g, true)

/-- shape cost counters — src/dr/FlexGridGraph.h:538-561. -/
def addShapePlanar (g : Grid) (n : MIdx) : Grid :=
  if g.isValid n then g.upd (g.idx n) (addToBits · 56 DRCBITS 1) else g
def addShapeVia (g : Grid) (n : MIdx) : Grid :=
  if g.isValid n then g.upd (g.idx n) (addToBits · 48 DRCBITS 1) else g
def subShapePlanar (g : Grid) (n : MIdx) : Grid :=
  if g.isValid n then g.upd (g.idx n) (subToBits · 56 DRCBITS 1) else g
def subShapeVia (g : Grid) (n : MIdx) : Grid :=
  if g.isValid n then g.upd (g.idx n) (subToBits · 48 DRCBITS 1) else g

/-! ### labels -/

/-- write one flag of a label vector -/
def setFlag (f : Int → Bool) (i : Int) (b : Bool) : Int → Bool := fun j => if j = i then b else f j

/-- `isSrc/setSrc/resetSrc`, `isDst/setDst/resetDst` — src/dr/FlexGridGraph.h:85-91, 573-587, 625-638. -/
def isSrc (g : Grid) (n : MIdx) : Bool := g.srcs (g.idx n)
def isDst (g : Grid) (n : MIdx) : Bool := g.dsts (g.idx n)
def setSrc (g : Grid) (n : MIdx) : Grid := { g with srcs := setFlag g.srcs (g.idx n) true }
def resetSrc (g : Grid) (n : MIdx) : Grid := { g with srcs := setFlag g.srcs (g.idx n) false }
def setDst (g : Grid) (n : MIdx) : Grid := { g with dsts := setFlag g.dsts (g.idx n) true }
def resetDst (g : Grid) (n : MIdx) : Grid := { g with dsts := setFlag g.dsts (g.idx n) false }

/-- `setPrevAstarNodeDir` — src/dr/FlexGridGraph.h:567-572: three bits per node, most
significant first. -/
def setPrevDir (g : Grid) (n : MIdx) (d : Dir) : Grid :=
  let base := 3 * g.idx n
  let p := setFlag g.prevs base (d.code >>> 2 &&& 1 == 1)
  let p := setFlag p (base + 1) (d.code >>> 1 &&& 1 == 1)
  let p := setFlag p (base + 2) (d.code &&& 1 == 1)
  { g with prevs := p }

/-- `getPrevAstarNodeDir` — src/dr/FlexGridGraph.h:78-83. -/
def getPrevDir (g : Grid) (n : MIdx) : Dir :=
  let base := 3 * g.idx n
  Dir.ofCode (((g.prevs base).toNat <<< 2) + ((g.prevs (base + 1)).toNat <<< 1) +
    ((g.prevs (base + 2)).toNat <<< 0))

/-- `resetStatus` and the vector-wide resets — src/dr/FlexGridGraph.cpp:402-423. -/
def resetAllSrc (g : Grid) : Grid := { g with srcs := fun _ => false }
def resetAllDst (g : Grid) : Grid := { g with dsts := fun _ => false }
def resetAllPrev (g : Grid) : Grid := { g with prevs := fun _ => false }
def resetStatus (g : Grid) : Grid := ((g.resetAllSrc).resetAllDst).resetAllPrev

/-- `hasGuide` — src/dr/FlexGridGraph.h:656-660: looks at the neighbour in direction `d`. -/
def hasGuide (g : Grid) (n : MIdx) (d : Dir) : Bool := g.guides (g.idx (reverse n d).1)

/-- `std::fill(guides.begin()+i1, guides.begin()+i2+1, v)` — src/dr/FlexGridGraph.h:672, 683. -/
def fillGuide (g : Grid) (i1 i2 : Int) (v : Bool) : Grid :=
  { g with guides := fun j => if i1 ≤ j ∧ j < i2 + 1 then v else g.guides j }

/-- integers `a, a+1, ..., b` — the `for (int i = a; i <= b; i++)` headers. -/
def rangeIncl (a b : Int) : List Int := (List.range (b + 1 - a).toNat).map (fun k : Nat => a + (k : Int))

/-- `setGuide` / `resetGuide` — src/dr/FlexGridGraph.h:661-716. -/
def fillGuideRect (g : Grid) (x1 y1 x2 y2 z : Int) (v : Bool) : Grid :=
  if x2 < x1 ∨ y2 < y1 then g
  else if g.zDir z then
    (rangeIncl y1 y2).foldl (fun g i => g.fillGuide (g.idx ⟨x1, i, z⟩) (g.idx ⟨x2, i, z⟩) v) g
  else
    (rangeIncl x1 x2).foldl (fun g i => g.fillGuide (g.idx ⟨i, y1, z⟩) (g.idx ⟨i, y2, z⟩) v) g
def setGuide (g : Grid) (x1 y1 x2 y2 z : Int) : Grid := g.fillGuideRect x1 y1 x2 y2 z true
def resetGuide (g : Grid) (x1 y1 x2 y2 z : Int) : Grid := g.fillGuideRect x1 y1 x2 y2 z false

end Grid

/-- One call of a word-writing member function. -/
inductive GOp where
  | addEdge (n : MIdx) (d : Dir) (box : Box) (initDR : Bool)
  | removeEdge (n : MIdx) (d : Dir)
  | setBlocked (n : MIdx) (d : Dir)
  | resetBlocked (n : MIdx) (d : Dir)
  | setGridCost (n : MIdx) (d : Dir)
  | resetGridCost (n : MIdx) (d : Dir)
  | setGridCostE (n : MIdx) | setGridCostN (n : MIdx) | setGridCostU (n : MIdx)
  | setSVia (n : MIdx) | setOverride (n : MIdx) | resetOverride (n : MIdx)
  | addDRCPlanar (n : MIdx) | addDRCVia (n : MIdx)
  | subDRCPlanar (n : MIdx) | subDRCVia (n : MIdx)
  | resetDRCPlanar (n : MIdx) | resetDRCVia (n : MIdx)
  | addMarkerPlanar (n : MIdx) | addMarkerVia (n : MIdx) | addMarker (n : MIdx) (d : Dir)
  | decayMarkerPlanar (n : MIdx) | decayMarkerVia (n : MIdx)
  | decayMarkerPlanarF (n : MIdx) (f : Nat → Int) | decayMarkerViaF (n : MIdx) (f : Nat → Int)
  | addShapePlanar (n : MIdx) | addShapeVia (n : MIdx)
  | subShapePlanar (n : MIdx) | subShapeVia (n : MIdx)

/-- Effect of one call. -/
def Grid.step (g : Grid) : GOp → Grid
  | .addEdge n d b i => (g.addEdge n d b i).1
  | .removeEdge n d => (g.removeEdge n d).1
  | .setBlocked n d => g.setBlocked n d
  | .resetBlocked n d => g.resetBlocked n d
  | .setGridCost n d => g.setGridCost n d
  | .resetGridCost n d => g.resetGridCost n d
  | .setGridCostE n => g.setGridCostE n
  | .setGridCostN n => g.setGridCostN n
  | .setGridCostU n => g.setGridCostU n
  | .setSVia n => g.setSVia n
  | .setOverride n => g.setOverride n
  | .resetOverride n => g.resetOverride n
  | .addDRCPlanar n => g.addDRCPlanar n
  | .addDRCVia n => g.addDRCVia n
  | .subDRCPlanar n => g.subDRCPlanar n
  | .subDRCVia n => g.subDRCVia n
  | .resetDRCPlanar n => g.resetDRCPlanar n
  | .resetDRCVia n => g.resetDRCVia n
  | .addMarkerPlanar n => g.addMarkerPlanar n
  | .addMarkerVia n => g.addMarkerVia n
  | .addMarker n d => g.addMarker n d
  | .decayMarkerPlanar n => (g.decayMarkerPlanar n).1
  | .decayMarkerVia n => (g.decayMarkerVia n).1
  | .decayMarkerPlanarF n f => (g.decayMarkerPlanarF n f).1
  | .decayMarkerViaF n f => (g.decayMarkerViaF n f).1
  | .addShapePlanar n => g.addShapePlanar n
  | .addShapeVia n => g.addShapeVia n
  | .subShapePlanar n => g.subShapePlanar n
  | .subShapeVia n => g.subShapeVia n

/-- A history of calls. -/
def Grid.run (g : Grid) (ops : List GOp) : Grid := ops.foldl Grid.step g

end TR
