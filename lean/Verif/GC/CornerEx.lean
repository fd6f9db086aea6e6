import Verif.GC.CornerProps
import Verif.GC.Examples
/-! Concrete corners: the hypotheses of C108 are met; and a corner that is never checked. -/
namespace TR

def cornRects : List GRect := [⟨0, Box.mk4 0 0 4 4, 1, false⟩, ⟨1, Box.mk4 6 6 9 9, 2, false⟩]

/-- two squares, diagonally apart -/
def cornDb : GDb where
  layer := ⟨2, 2, 2, none, none⟩
  useMinObs := false
  net := fun n => ⟨10 * n, false, false⟩
  fixedPolys := fun _ => []
  routePolys := fun n => if n = 1 then [Box.mk4 0 0 4 4] else [Box.mk4 6 6 9 9]
  fixedMax := fun _ => []
  rects := cornRects
  edges := cornRects.flatMap (fun r => boxEdges r.net r.box)

/-- 3 for metal wider than 3, otherwise 1 -/
def cornRule : CornRule := ⟨5, .convex, none, [0, 3], [1, 3], [1, 3], true⟩

theorem cornRule_ok : cornRule.Ok := ⟨by decide, by simp [cornRule, StrictInc], rfl, by decide, rfl, rfl, by decide⟩

theorem boxEdges_outline {n : Nat} {b : Box} (h : b.left < b.right ∧ b.bottom < b.top) : Outline n (boxEdges n b) := by
  refine ⟨by simp [boxEdges], by simp [boxEdges], boxEdges_ok h, ?_⟩
  intro i x y hx hy
  have hl : (boxEdges n b).length = 4 := rfl
  rw [hl] at hx hy
  have h0 : i % 4 = 0 ∨ i % 4 = 1 ∨ i % 4 = 2 ∨ i % 4 = 3 := by omega
  have hw : 0 < b.right - b.left := by omega
  have hh : 0 < b.top - b.bottom := by omega
  have hp := Int.mul_pos hw hh
  have hp' := Int.mul_pos hh hw
  have n1 : b.left - b.right = -(b.right - b.left) := by omega
  have n2 : b.bottom - b.top = -(b.top - b.bottom) := by omega
  rcases h0 with h0 | h0 | h0 | h0
  · rw [h0] at hx; rw [show (i + 1) % 4 = 1 by omega] at hy
    simp only [boxEdges, List.getElem?_cons_zero, List.getElem?_cons_succ, Option.some.injEq] at hx hy
    subst hx hy
    simp [crossEdge, n1, n2, Int.neg_mul, Int.mul_neg]; omega
  · rw [h0] at hx; rw [show (i + 1) % 4 = 2 by omega] at hy
    simp only [boxEdges, List.getElem?_cons_zero, List.getElem?_cons_succ, Option.some.injEq] at hx hy
    subst hx hy
    simp [crossEdge, n1, n2, Int.neg_mul, Int.mul_neg]; omega
  · rw [h0] at hx; rw [show (i + 1) % 4 = 3 by omega] at hy
    simp only [boxEdges, List.getElem?_cons_zero, List.getElem?_cons_succ, Option.some.injEq] at hx hy
    subst hx hy
    simp [crossEdge, n1, n2, Int.neg_mul, Int.mul_neg]; omega
  · rw [h0] at hx; rw [show (i + 1) % 4 = 0 by omega] at hy
    simp only [boxEdges, List.getElem?_cons_zero, List.getElem?_cons_succ, Option.some.injEq] at hx hy
    subst hx hy
    simp [crossEdge, n1, n2, Int.neg_mul, Int.mul_neg]; omega

def cornRings : List (Nat × List GEdge) := cornRects.map (fun r => (r.net, boxEdges r.net r.box))

example : cornDb.Ok ∧ (∀ r ∈ cornRings, Outline r.1 r.2) := by
  have hr : ∀ r ∈ cornRects, r.box.left < r.box.right ∧ r.box.bottom < r.box.top := by decide
  refine ⟨⟨hr, by decide, ?_, by simp [cornDb]⟩, ?_⟩
  · intro e he
    obtain ⟨r, h1, h2⟩ := List.mem_flatMap.1 he
    exact boxEdges_ok (hr r h1) e h2
  · intro r h
    obtain ⟨q, h1, rfl⟩ := List.mem_map.1 h
    exact boxEdges_outline (hr q h1)

/-- the upper right corner of the wider square is too close to the other square; the lower left corner of that one is not -/
example : (checkCorners cornDb id [cornRule] cornRings none ⟨[], []⟩).map (fun s => s.markers) =
    some [⟨Box.mk4 4 4 6 6, 2, .other 5, [10, 20]⟩] := by decide +kernel

/-- an end of line: nothing is reported if the rule excepts ends of lines narrower than 5 -/
example : (checkCorners cornDb id [{ cornRule with eol := some 5 }] cornRings none ⟨[], []⟩).map (fun s => s.markers) = some [] := by decide +kernel

/-! ### concave corners -/

def ellRing : List GEdge :=
  [⟨1, .E, ⟨0, 0⟩, ⟨10, 0⟩⟩, ⟨1, .N, ⟨10, 0⟩, ⟨10, 4⟩⟩, ⟨1, .W, ⟨10, 4⟩, ⟨4, 4⟩⟩, ⟨1, .N, ⟨4, 4⟩, ⟨4, 10⟩⟩,
   ⟨1, .W, ⟨4, 10⟩, ⟨0, 10⟩⟩, ⟨1, .S, ⟨0, 10⟩, ⟨0, 0⟩⟩]

/-- an L-shaped wire of net 1 (its two maximal rectangles) and a square of net 2 in its angle -/
def ellDb : GDb where
  layer := ⟨2, 2, 2, none, none⟩
  useMinObs := false
  net := fun n => ⟨10 * n, false, false⟩
  fixedPolys := fun _ => []
  routePolys := fun n => if n = 1 then [Box.mk4 0 0 10 4, Box.mk4 0 0 4 10] else [Box.mk4 5 5 7 7]
  fixedMax := fun _ => []
  rects := [⟨0, Box.mk4 0 0 10 4, 1, false⟩, ⟨1, Box.mk4 0 0 4 10, 1, false⟩, ⟨2, Box.mk4 5 5 7 7, 2, false⟩]
  edges := ellRing ++ boxEdges 2 (Box.mk4 5 5 7 7)

/-- every width requires 3 from a concave corner -/
def ellRule : CornRule := ⟨6, .concave, none, [0], [3], [3], true⟩

/-- C108: a rule for concave corners is not applied to the angle of an L-shaped wire: the corner at (4, 4) turns right, the square of the
other net is at distance 1 in both directions, every entry of the table is 3, and nothing is reported, because no maximal rectangle of
the wire ends in the corner. -/
theorem c108_concave_missed : ellDb.Ok ∧ Outline 1 ellRing ∧ ellRule.Ok ∧
    (∃ b c, ellRing[2]? = some b ∧ ellRing[3]? = some c ∧ RightTurn b c ∧ CloserXY c.lo (Box.mk4 5 5 7 7) 2) ∧
    (∀ w q, CornNeeds ellRule w q → q = 3) ∧
    (checkCorners ellDb id [ellRule] [(1, ellRing), (2, boxEdges 2 (Box.mk4 5 5 7 7))] none ⟨[], []⟩).map (fun s => s.markers) = some [] := by
  refine ⟨⟨by decide, by decide, ?_, by simp [ellDb]⟩, ⟨by decide, by decide, ?_, ?_⟩, ⟨by decide, by simp [ellRule, StrictInc], rfl, by decide, rfl, rfl, by decide⟩,
    ⟨_, _, rfl, rfl, by simp [RightTurn, crossEdge], ⟨⟨5, 5⟩, by simp [Box.Has, Box.mk4, Box.left, Box.right, Box.bottom, Box.top], by simp⟩⟩, ?_, by decide +kernel⟩
  · intro e he
    simp only [ellDb, ellRing, boxEdges, Box.mk4, Box.left, Box.right, Box.bottom, Box.top, List.cons_append, List.nil_append, List.mem_cons, List.not_mem_nil, or_false] at he
    rcases he with rfl | rfl | rfl | rfl | rfl | rfl | rfl | rfl | rfl | rfl <;> simp [GEdge.Ok]
  · intro e he
    simp only [ellRing, List.mem_cons, List.not_mem_nil, or_false] at he
    rcases he with rfl | rfl | rfl | rfl | rfl | rfl <;> simp [GEdge.Ok]
  · intro i x y hx hy
    have hl : ellRing.length = 6 := rfl
    rw [hl] at hx hy
    have h0 : i % 6 = 0 ∨ i % 6 = 1 ∨ i % 6 = 2 ∨ i % 6 = 3 ∨ i % 6 = 4 ∨ i % 6 = 5 := by omega
    rcases h0 with h0 | h0 | h0 | h0 | h0 | h0
    · rw [h0] at hx; rw [show (i + 1) % 6 = 1 by omega] at hy
      simp [ellRing] at hx hy; subst hx hy; simp [crossEdge]
    · rw [h0] at hx; rw [show (i + 1) % 6 = 2 by omega] at hy
      simp [ellRing] at hx hy; subst hx hy; simp [crossEdge]
    · rw [h0] at hx; rw [show (i + 1) % 6 = 3 by omega] at hy
      simp [ellRing] at hx hy; subst hx hy; simp [crossEdge]
    · rw [h0] at hx; rw [show (i + 1) % 6 = 4 by omega] at hy
      simp [ellRing] at hx hy; subst hx hy; simp [crossEdge]
    · rw [h0] at hx; rw [show (i + 1) % 6 = 5 by omega] at hy
      simp [ellRing] at hx hy; subst hx hy; simp [crossEdge]
    · rw [h0] at hx; rw [show (i + 1) % 6 = 0 by omega] at hy
      simp [ellRing] at hx hy; subst hx hy; simp [crossEdge]
  · rintro w q ⟨i, ⟨h1, _⟩, h2⟩
    have : i = 0 := by simp [ellRule] at h1; exact h1
    subst this
    simp [ellRule] at h2
    exact h2.symm

/-- C108: at every corner of an outline there is exactly one diagonal direction away from the metal; at a left turn the metal covers only
the opposite quadrant, at a right turn all but this one -/
theorem c108_quadrant {n : Nat} {ring : List GEdge} (h : Outline n ring) {i : Nat} {a b : GEdge} (ha : ring[i % ring.length]? = some a)
    (hb : ring[(i + 1) % ring.length]? = some b) :
    ∃ sx sy, CornOut a b sx sy ∧ (∀ tx ty, CornOut a b tx ty → tx = sx ∧ ty = sy) ∧
      (LeftTurn a b → ∀ tx ty, (tx = 1 ∨ tx = -1) → (ty = 1 ∨ ty = -1) → (MetalAt a b tx ty ↔ tx = -sx ∧ ty = -sy)) ∧
      (RightTurn a b → ∀ tx ty, (tx = 1 ∨ tx = -1) → (ty = 1 ∨ ty = -1) → (MetalAt a b tx ty ↔ ¬ (tx = sx ∧ ty = sy))) := by
  have oa := h.ok a (List.mem_of_getElem? ha)
  have ob := h.ok b (List.mem_of_getElem? hb)
  have hx := (h.turns i a b ha hb).2
  have hlr : turnSign a.dir b.dir = 1 ∨ turnSign a.dir b.dir = -1 := by
    rw [← leftTurn_iff oa ob, ← rightTurn_iff oa ob]
    unfold LeftTurn RightTurn
    omega
  have hsome : ∃ sx sy, dirVec (cornDir a.dir b.dir) = some (sx, sy) := by
    revert hlr
    cases a.dir <;> cases b.dir <;> simp [turnSign, cornDir, dirVec]
  obtain ⟨sx, sy, hv⟩ := hsome
  refine ⟨sx, sy, (outward_iff oa ob sx sy).2 hv, ?_, ?_, ?_⟩
  · intro tx ty ht
    have := (outward_iff oa ob tx ty).1 ht
    rw [hv] at this
    simp only [Option.some.injEq, Prod.mk.injEq] at this
    omega
  · intro hl tx ty h1 h2
    rw [leftTurn_iff oa ob] at hl
    rw [metalAt_iff oa ob]
    revert hv hl
    cases a.dir <;> cases b.dir <;> simp [turnSign, cornDir, dirVec] <;> rintro rfl rfl <;> omega
  · intro hl tx ty h1 h2
    rw [rightTurn_iff oa ob] at hl
    rw [metalAt_iff oa ob]
    revert hv hl
    cases a.dir <;> cases b.dir <;> simp [turnSign, cornDir, dirVec] <;> rintro rfl rfl <;> omega

end TR
