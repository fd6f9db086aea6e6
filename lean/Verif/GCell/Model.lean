import Verif.Geom.Model
/-!
# GCell grid and checkerboard partition of detailed-routing work

Models `frBlock::getGCellBox/getGCellCenter/getGCellIdx` (src/db/obj/frBlock.h:164-244),
the worker generation loops of `FlexDR::initDR` and `FlexDR::searchRepair`
(src/dr/FlexDR.cpp:1359-1403, 1562-1620), `FlexDR::getBatchInfo` (1474-1477) and the panel
loop of `FlexTA::initTA_helper` (src/ta/FlexTA.cpp:127-243).

Simplifications: 32-bit coordinates are `Int`; a worker is reduced to its position in the
loop and its three boxes; the design-dependent part of a worker is not modelled here.
-/
namespace TR

/-- `frGCellPattern` (start coordinate, spacing, count) — src/db/obj/frGCellPattern.h. -/
structure GCellPat where
  start : Int
  spacing : Int
  count : Int
deriving DecidableEq, Repr

/-- One axis of `getGCellBox` — src/db/obj/frBlock.h:164-200: clamp the index, then compute
the span, replacing the outermost edges by the die edges `dl`, `dh`. -/
def gcellSpan (p : GCellPat) (dl dh idx1 : Int) : Int × Int :=
  let idx := if idx1 ≤ 0 then 0 else idx1
  let idx := if idx ≥ p.count - 1 then p.count - 1 else idx
  let l := p.spacing * idx + p.start
  let h := p.spacing * (idx + 1) + p.start
  let l := if idx ≤ 0 then dl else l
  let h := if idx ≥ p.count - 1 then dh else h
  (l, h)

/-- The block data the GCell functions read: die box and the two GCell patterns. -/
structure GGrid where
  die : Box
  xp : GCellPat
  yp : GCellPat
deriving Repr

/-- `frBlock::getGCellBox` — src/db/obj/frBlock.h:164-200. -/
def GGrid.box (g : GGrid) (idx : Point) : Box :=
  let x := gcellSpan g.xp g.die.left g.die.right idx.x
  let y := gcellSpan g.yp g.die.bottom g.die.top idx.y
  Box.mk4 x.1 y.1 x.2 y.2

/-- One axis of `getGCellCenter` — src/db/obj/frBlock.h:201-224 (no clamping; `/ 2`
truncates toward zero). -/
def gcellMid (p : GCellPat) (dl dh idx : Int) : Int :=
  let l := p.spacing * idx + p.start
  let h := p.spacing * (idx + 1) + p.start
  let l := if idx = 0 then dl else l
  let h := if idx = p.count - 1 then dh else h
  (l + h).tdiv 2

/-- `frBlock::getGCellCenter` — src/db/obj/frBlock.h:201-224. -/
def GGrid.center (g : GGrid) (idx : Point) : Point :=
  ⟨gcellMid g.xp g.die.left g.die.right idx.x, gcellMid g.yp g.die.bottom g.die.top idx.y⟩

/-- One axis of `getGCellIdx` — src/db/obj/frBlock.h:225-244; division by a zero spacing is
undefined behaviour (`none`). -/
def gcellIdx1 (p : GCellPat) (c : Int) : Option Int :=
  if p.spacing = 0 then none
  else
    let i := (c - p.start).tdiv p.spacing
    let i := if i < 0 then 0 else i
    let i := if i ≥ p.count then p.count - 1 else i
    some i

/-- `frBlock::getGCellIdx` — src/db/obj/frBlock.h:225-244. -/
def GGrid.idx (g : GGrid) (pt : Point) : Option Point :=
  match gcellIdx1 g.xp pt.x, gcellIdx1 g.yp pt.y with
  | some x, some y => some ⟨x, y⟩
  | _, _ => none

/-- The loop header `for (int i = offset; i < count; i += clip)` —
src/dr/FlexDR.cpp:1362, 1569; src/ta/FlexTA.cpp:135. (A non-positive clip would loop
forever in the code; the model then yields nothing.) -/
def loopGo (count clip : Int) : Nat → Int → List Int
  | 0, _ => []
  | f + 1, i => if i < count ∧ 0 < clip then i :: loopGo count clip f (i + clip) else []

/-- `loopGo` with enough fuel: `count - i` iterations always suffice for a positive clip
(`loopFrom_getElem?` shows that no iteration is lost). -/
def loopFrom (count clip : Int) (i : Int) : List Int := loopGo count clip (count - i).toNat i

/-- A detailed-routing worker as created by the loops: loop indices, running indices
`xIdx`/`yIdx`, and its boxes. -/
structure Worker where
  i : Int
  j : Int
  xIdx : Nat
  yIdx : Nat
  routeBox : Box
  extBox : Box
  drcBox : Box
deriving DecidableEq, Repr

/-- MTSAFEDIST, DRCSAFEDIST — src/global.cpp:53-54. -/
def MTSAFEDIST : Int := 2000
def DRCSAFEDIST : Int := 500

/-- Worker construction — src/dr/FlexDR.cpp:1364-1377 and 1571-1590. The y index of the
second corner is clamped to `count`, not `count-1`; `getGCellBox` clamps again. -/
def mkWorker (g : GGrid) (clip : Int) (i j : Int) (xIdx yIdx : Nat) : Worker :=
  let b1 := g.box ⟨i, j⟩
  let b2 := g.box ⟨min (g.xp.count - 1) (i + clip - 1), min g.yp.count (j + clip - 1)⟩
  let rb := Box.mk4 b1.left b1.bottom b2.right b2.top
  { i := i, j := j, xIdx := xIdx, yIdx := yIdx,
    routeBox := rb, extBox := rb.bloat MTSAFEDIST, drcBox := rb.bloat DRCSAFEDIST }

/-- The double loop in order of generation — src/dr/FlexDR.cpp:1361-1403, 1568-1620
(`initDR` is the case `offset = 0`). -/
def genWorkers (g : GGrid) (clip offset : Int) : List Worker :=
  ((loopFrom g.xp.count clip offset).zipIdx).flatMap fun (i, xi) =>
    ((loopFrom g.yp.count clip offset).zipIdx).map fun (j, yj) =>
      mkWorker g clip i j xi yj

/-- `getBatchInfo` — src/dr/FlexDR.cpp:1474-1477. -/
def batchStepX : Nat := 2
def batchStepY : Nat := 2

/-- `batchIdx` — src/dr/FlexDR.cpp:1387, 1609. -/
def Worker.batchIdx (w : Worker) : Nat :=
  (w.xIdx % batchStepX) * batchStepY + w.yIdx % batchStepY

/-- Appending to the batches of one colour — src/dr/FlexDR.cpp:1389-1392, 1610-1613: open a
new batch when there is none or the last one is full. -/
def pushBatch {α : Type} (batchSize : Nat) : List (List α) → α → List (List α)
  | [], w => [[w]]
  | [b], w => if b.length ≥ batchSize then [b, [w]] else [b ++ [w]]
  | b :: b' :: bs, w => b :: pushBatch batchSize (b' :: bs) w

/-- One loop body's effect on `workers` (a vector of `batchStepX*batchStepY` colours). -/
def addWorker (batchSize : Nat) (ws : List (List (List Worker))) (w : Worker) :
    List (List (List Worker)) :=
  ws.modify w.batchIdx (fun bs => pushBatch batchSize bs w)

/-- The complete `workers` structure built by `initDR` / `searchRepair`. -/
def batches (batchSize : Nat) (g : GGrid) (clip offset : Int) : List (List (List Worker)) :=
  (genWorkers g clip offset).foldl (addWorker batchSize)
    (List.replicate (batchStepX * batchStepY) [])

/-- Panels of track assignment — src/ta/FlexTA.cpp:134-157 (horizontal panels; the vertical
case is the transpose): route box and extended box. -/
def taPanelsH (g : GGrid) (size offset : Int) : List (Int × Box × Box) :=
  (loopFrom g.yp.count size offset).map fun i =>
    let b1 := g.box ⟨0, i⟩
    let b2 := g.box ⟨g.xp.count - 1, min (i + size - 1) (g.yp.count - 1)⟩
    let rb := Box.mk4 b1.left b1.bottom b2.right b2.top
    (i, rb, rb.bloat (g.yp.spacing.tdiv 2))

/-- Vertical panels — src/ta/FlexTA.cpp:158-179. -/
def taPanelsV (g : GGrid) (size offset : Int) : List (Int × Box × Box) :=
  (loopFrom g.xp.count size offset).map fun i =>
    let b1 := g.box ⟨i, 0⟩
    let b2 := g.box ⟨min (i + size - 1) (g.xp.count - 1), g.yp.count - 1⟩
    let rb := Box.mk4 b1.left b1.bottom b2.right b2.top
    (i, rb, rb.bloat (g.xp.spacing.tdiv 2))

end TR
