import Verif.Patch.Choice
import Verif.Seek.Examples
/-! Concrete instances for C95–C98, and witnesses. -/
namespace TR

def marGrid : Grid := bareGrid [0, 100, 200, 300, 400] [0, 100, 200] [2, 4, 6, 8] true

/-- minimum area 30000 on every level, width 60, vias of 80 by 76 -/
def marTech : PatchTech :=
  ⟨fun _ => some 30000, fun _ => 60, fun z => z % 2 == 0, fun _ => (3040, 3040), 5⟩

/-- up by a stacked via, along level 2, down again -/
def marPath : List MIdx := [⟨1, 1, 0⟩, ⟨1, 1, 2⟩, ⟨3, 1, 2⟩, ⟨3, 1, 1⟩]

def marMap : MIdx → Option Int := areaMap [(⟨1, 1, 0⟩, 28000), (⟨1, 1, 0⟩, 2000)]

/-- three runs are too small: the lone point of the stacked via, the wire on level 2, the end point;
the first run has the area of its access point and half a via, which is enough -/
example : patchReqs marGrid marTech marMap marPath =
    [⟨⟨1, 1, 1⟩, ⟨1, 1, 1⟩, 26960, true, false⟩, ⟨⟨1, 1, 2⟩, ⟨3, 1, 2⟩, 14960, true, false⟩,
     ⟨⟨3, 1, 1⟩, ⟨3, 1, 1⟩, 30000, true, false⟩] := by decide +kernel

/-- hypotheses of C95 -/
example : Consecutive (fun p q : MIdx => p.z ≠ q.z → p.x = q.x ∧ p.y = q.y) marPath ∧
    (∀ z, 0 ≤ marTech.width z) ∧ (∀ z, 0 ≤ (marTech.halfEnc z).1 ∧ 0 ≤ (marTech.halfEnc z).2) ∧
    (∀ n v, marMap n = some v → 0 ≤ v) := by
  refine ⟨by simp [marPath, Consecutive], fun _ => by simp [marTech], fun _ => by simp [marTech], ?_⟩
  intro n v h
  have := ((c98_area_map [(⟨1, 1, 0⟩, 28000), (⟨1, 1, 0⟩, 2000)] n).2 v h).1
  simp at this
  omega

/-- the run on level 2 of that path -/
def marRun : PathRun := ⟨some 1, [⟨1, 1, 2⟩, ⟨3, 1, 2⟩], some 1⟩

theorem marRun_mem : marRun ∈ pathRuns (patchPoints marPath) := by decide +kernel

/-- hypotheses of C96 -/
theorem marRun_metal : RunMetal marGrid marTech marRun 40 38 40 38 where
  xInc := by decide +kernel
  yInc := by decide +kernel
  ne := by decide
  on := by intro p hp; simp [marRun] at hp; rcases hp with rfl | rfl <;> decide +kernel
  lvl := by decide +kernel
  straight := .up (by decide +kernel) (by decide +kernel)
  before := by decide
  after := by decide
  wpos := by decide
  even := by decide
  mfg := by decide
  nonneg := by decide
  half1 := by decide
  half2 := by decide

example : ∃ q, marRun.need marGrid marTech marMap = some q ∧ q.gap = 14960 := ⟨_, rfl, by decide +kernel⟩

def marSeek : SeekTech := ⟨[0, 0, 0, 0], 8, 32, false, fun _ => 2, [], []⟩

/-- C96 for it: wire 200 by 60, two vias and a patch of 250 by 60 cover at least 30000 -/
example (E : PatchEnv) (net : Nat) (q : PatchReq) (hq : marRun.need marGrid marTech marMap = some q) :
    CoversAtLeast ((patchMetal marGrid marSeek marTech E net q).metal :: marRun.metal marGrid marTech 40 38 40 38) 30000 :=
  c96_minimum_area_reached marGrid marSeek marTech E net marMap marRun 40 38 40 38 marRun_metal q hq

/-- with a small minimum area the same run needs no patch -/
example : marRun.need marGrid { marTech with minArea := fun _ => some 18000 } marMap = none := by decide +kernel

theorem marGrid_sorted : marGrid.Sorted := by
  unfold Grid.Sorted StrictInc
  decide +kernel

/-- C97: to the left of the run a node carries a mark, so the patch goes to the right end -/
example : (let g := marGrid.run [.addDRCPlanar ⟨1, 1, 2⟩]
    let E : PatchEnv := ⟨⟨⟨-500, 0⟩, ⟨900, 200⟩⟩, 8, 32⟩
    patchCost g marSeek E ⟨1, 1, 2⟩ true true 250 = some 800 ∧ patchCost g marSeek E ⟨3, 1, 2⟩ true false 250 = some 0 ∧
    g.Marked ⟨1, 1, 2⟩ ∧ g.On ⟨1, 1, 2⟩ ∧
    (patchMetal g marSeek marTech E 0 ⟨⟨1, 1, 2⟩, ⟨3, 1, 2⟩, 14960, true, false⟩).metal = ⟨⟨300, 70⟩, ⟨550, 130⟩⟩) := by
  refine ⟨by decide +kernel, by decide +kernel, Or.inl (by decide +kernel), by decide +kernel, by decide +kernel⟩

/-- C97: if neither end has room in the route box, the patch is placed all the same and leaves it. -/
theorem c97_may_leave_box :
    (let E : PatchEnv := ⟨⟨⟨50, 0⟩, ⟨350, 200⟩⟩, 8, 32⟩
     let p := patchMetal marGrid marSeek marTech E 0 ⟨⟨1, 1, 2⟩, ⟨3, 1, 2⟩, 14960, true, false⟩
     patchCost marGrid marSeek E ⟨1, 1, 2⟩ true true 250 = none ∧ patchCost marGrid marSeek E ⟨3, 1, 2⟩ true false 250 = none ∧
     p.metal = ⟨⟨-150, 70⟩, ⟨100, 130⟩⟩) := by decide +kernel

/-- C96: the width of a patch is rounded down to an even number, so with an odd width the patch has
less than the missing area: 3000 are missing, 50 by 59 are added only as 50 by 58. -/
theorem c96_odd_width_short :
    (let T : PatchTech := { marTech with width := fun _ => 59, mfg := 1 }
     let p := patchMetal marGrid marSeek T ⟨⟨⟨-500, 0⟩, ⟨900, 200⟩⟩, 8, 32⟩ 0 ⟨⟨1, 1, 2⟩, ⟨3, 1, 2⟩, 3009, true, false⟩
     p.metal.width * p.metal.length < 3009) := by decide +kernel

end TR
