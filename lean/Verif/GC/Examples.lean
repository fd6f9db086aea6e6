import Verif.GC.Layer
/-! Concrete layers: the hypotheses of the theorems on the spacing check are met; and what the window misses. -/
namespace TR

/-- the four edges of a rectangle of metal -/
def boxEdges (n : Nat) (b : Box) : List GEdge :=
  [⟨n, .E, ⟨b.left, b.bottom⟩, ⟨b.right, b.bottom⟩⟩, ⟨n, .N, ⟨b.right, b.bottom⟩, ⟨b.right, b.top⟩⟩,
   ⟨n, .W, ⟨b.right, b.top⟩, ⟨b.left, b.top⟩⟩, ⟨n, .S, ⟨b.left, b.top⟩, ⟨b.left, b.bottom⟩⟩]

def exTbl : Tbl2 := ⟨[0, 4], [-1, 5], [[1, 2], [3, 4]]⟩

/-- nets 1 and 2 run alongside at distance 1, net 3 overlaps net 2, net 3 has a second shape -/
def exRects : List GRect :=
  [⟨0, Box.mk4 0 0 10 2, 1, false⟩, ⟨1, Box.mk4 0 3 10 5, 2, false⟩, ⟨2, Box.mk4 8 4 12 6, 3, true⟩, ⟨3, Box.mk4 30 30 34 34, 3, true⟩]

def exDb : GDb where
  layer := ⟨2, 2, 2, some (.prl exTbl), some (3, false)⟩
  useMinObs := false
  net := fun n => ⟨10 * n, false, false⟩
  fixedPolys := fun n => if n = 3 then [Box.mk4 8 4 12 6, Box.mk4 30 30 34 34] else []
  routePolys := fun n => if n = 1 then [Box.mk4 0 0 10 2] else if n = 2 then [Box.mk4 0 3 10 5] else []
  fixedMax := fun n => if n = 3 then [Box.mk4 8 4 12 6, Box.mk4 30 30 34 34] else []
  rects := exRects
  edges := exRects.flatMap (fun r => boxEdges r.net r.box)

theorem exTbl_ok : exTbl.Ok ∧ exTbl.Mono := by
  refine ⟨⟨by simp [exTbl, StrictInc], by simp [exTbl, StrictInc], by simp [exTbl], by simp [exTbl], rfl, by simp [exTbl]⟩, ?_⟩
  intro i i' j j' l l' x x' hi hj h1 h2 h3 h4
  match i, i', hi with
  | 0, 0, _ =>
    simp [exTbl] at h1 h3; subst h1 h3
    match j, j', hj with
    | 0, 0, _ => simp at h2 h4; omega
    | 0, 1, _ => simp at h2 h4; omega
    | 1, 1, _ => simp at h2 h4; omega
    | 0, (k + 2), _ => simp at h4
    | 1, (k + 2), _ => simp at h4
    | (k + 2), _, _ => simp at h2
  | 0, 1, _ =>
    simp [exTbl] at h1 h3; subst h1 h3
    match j, j', hj with
    | 0, 0, _ => simp at h2 h4; omega
    | 0, 1, _ => simp at h2 h4; omega
    | 1, 1, _ => simp at h2 h4; omega
    | 0, (k + 2), _ => simp at h4
    | 1, (k + 2), _ => simp at h4
    | (k + 2), _, _ => simp at h2
  | 1, 1, _ =>
    simp [exTbl] at h1 h3; subst h1 h3
    match j, j', hj with
    | 0, 0, _ => simp at h2 h4; omega
    | 0, 1, _ => simp at h2 h4; omega
    | 1, 1, _ => simp at h2 h4; omega
    | 0, (k + 2), _ => simp at h4
    | 1, (k + 2), _ => simp at h4
    | (k + 2), _, _ => simp at h2
  | 0, (k + 2), _ => simp [exTbl] at h3
  | 1, (k + 2), _ => simp [exTbl] at h3
  | (k + 2), _, _ => simp [exTbl] at h1

theorem boxEdges_ok {n : Nat} {b : Box} (h : b.left < b.right ∧ b.bottom < b.top) : ∀ e ∈ boxEdges n b, e.Ok := by
  intro e he
  simp only [boxEdges, List.mem_cons, List.not_mem_nil, or_false] at he
  rcases he with rfl | rfl | rfl | rfl <;> simp only [GEdge.Ok, true_and] <;> omega

theorem exDb_ok : exDb.Ok := by
  have hr : ∀ r ∈ exRects, r.box.left < r.box.right ∧ r.box.bottom < r.box.top := by decide
  refine ⟨hr, by decide, ?_, ?_⟩
  · intro e he
    obtain ⟨r, h1, h2⟩ := List.mem_flatMap.1 he
    exact boxEdges_ok (hr r h1) e h2
  · rintro t ht
    simp only [exDb, Option.some.injEq, SpcRule.prl.injEq] at ht
    subst ht
    exact exTbl_ok.1

example : exDb.Ok ∧ exDb.RulesOk := by
  refine ⟨exDb_ok, ?_, ?_, ?_, by decide⟩
  · rintro t ht
    simp only [exDb, Option.some.injEq, SpcRule.prl.injEq] at ht
    subst ht
    exact ⟨exTbl_ok.2, by decide, by decide⟩
  · intro x hx
    simp [exDb] at hx
  · intro t x pg ht hx
    simp only [exDb, Option.some.injEq, SpcRule.prl.injEq, Prod.mk.injEq] at ht hx
    subst ht
    obtain ⟨rfl, _⟩ := hx
    decide

set_option maxRecDepth 100000 in
/-- a spacing violation between nets 1 and 2 and a short between nets 2 and 3, each found once -/
example : (checkLayer exDb id none ⟨[], []⟩).map (fun s => s.markers) =
    some [⟨Box.mk4 0 2 10 3, 2, .spacing, [10, 20]⟩, ⟨Box.mk4 8 4 10 5, 2, .short, [20, 30]⟩] := by decide

/-! ### a same-net spacing above the largest table entry is not searched far enough -/

def missRects : List GRect := [⟨0, Box.mk4 0 0 2 2, 1, false⟩, ⟨1, Box.mk4 7 0 9 2, 1, false⟩]

/-- largest table entry 4, same-net spacing 6, two shapes of a net at distance 5 -/
def missDb : GDb where
  layer := ⟨2, 2, 2, some (.prl exTbl), some (6, false)⟩
  useMinObs := false
  net := fun n => ⟨10 * n, false, false⟩
  fixedPolys := fun _ => []
  routePolys := fun _ => [Box.mk4 0 0 2 2, Box.mk4 7 0 9 2]
  fixedMax := fun _ => []
  rects := missRects
  edges := missRects.flatMap (fun r => boxEdges r.net r.box)

/-- C41: without the assumption on the same-net spacing, violations are missed: the two rectangles violate the same-net spacing, and
the check of the layer reports nothing. -/
theorem c41_same_net_missed : missDb.Ok ∧ (∃ r ∈ missDb.rects, ∃ s ∈ missDb.rects, ∃ q m, r.id ≠ s.id ∧ Required missDb r s q ∧ SpacingViolation missDb r s q m) ∧
    (checkLayer missDb id none ⟨[], []⟩).map (fun s => s.markers) = some [] := by
  have hok : missDb.Ok := by
    have hr : ∀ r ∈ missRects, r.box.left < r.box.right ∧ r.box.bottom < r.box.top := by decide
    refine ⟨hr, by decide, ?_, ?_⟩
    · intro e he
      obtain ⟨r, h1, h2⟩ := List.mem_flatMap.1 he
      exact boxEdges_ok (hr r h1) e h2
    · rintro t ht
      simp only [missDb, Option.some.injEq, SpcRule.prl.injEq] at ht
      subst ht
      exact exTbl_ok.1
  refine ⟨hok, ⟨⟨0, Box.mk4 0 0 2 2, 1, false⟩, by simp [missDb, missRects], ⟨1, Box.mk4 7 0 9 2, 1, false⟩, by simp [missDb, missRects], 6,
    ⟨Box.mk4 2 0 7 2, 2, .spacing, [10]⟩, ?_⟩, by decide⟩
  have hq : Required missDb ⟨0, Box.mk4 0 0 2 2, 1, false⟩ ⟨1, Box.mk4 7 0 9 2, 1, false⟩ 6 := by
    refine .inl ⟨6, ⟨false, rfl, rfl, rfl, by simp⟩, by decide⟩
  have := (c40_reported_iff hok (by simp [missDb, missRects]) (by simp [missDb, missRects]) hq (by unfold FitsSpc; decide)
    ⟨Box.mk4 2 0 7 2, 2, .spacing, [10]⟩).1 ⟨by decide, rfl⟩
  exact ⟨this.1, hq, this.2⟩

/-- C40: with distances above 46340 the check of a window of that size overflows: the squares are computed in 32 bits -/
theorem c40_overflow_example : ∃ (D : GDb) (r s : GRect), r ∈ D.rects ∧ s ∈ D.rects ∧ D.Ok ∧ s ∈ spcWindow D r ∧ checkPair D r s = .ub := by
  let t : Tbl2 := ⟨[0], [-1], [[50000]]⟩
  let rs : List GRect := [⟨0, Box.mk4 0 0 200 200, 1, false⟩, ⟨1, Box.mk4 47200 0 47400 200, 2, false⟩]
  let D : GDb := ⟨⟨2, 200, 100, some (.prl t), none⟩, false, fun n => ⟨n, false, false⟩, fun _ => [], fun _ => [], fun _ => [], rs, []⟩
  refine ⟨D, ⟨0, Box.mk4 0 0 200 200, 1, false⟩, ⟨1, Box.mk4 47200 0 47400 200, 2, false⟩, by simp [D, rs], by simp [D, rs], ⟨by decide, by decide, ?_, ?_⟩, by decide, by decide⟩
  · intro e he
    simp [D] at he
  · rintro t' ht
    simp only [D, Option.some.injEq, SpcRule.prl.injEq] at ht
    subst ht
    exact ⟨by simp [t, StrictInc], by simp [t, StrictInc], by simp [t], by simp [t], rfl, by simp [t]⟩

end TR
