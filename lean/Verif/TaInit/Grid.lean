import Verif.TaInit.Pass
/-! # The panels and rows of a grid of GCells -/
namespace TR

theorem axis_fits {G : GGrid} (hf : G.Fits) (h : Bool) : AxisFits (G.axis h).1 (G.axis h).2.1 (G.axis h).2.2 := by
  cases h
  · exact hf.1
  · exact hf.2

theorem mid_strict {p : GCellPat} {dl dh i : Int} (h0 : 0 ≤ i) (h1 : i < p.count)
    (hw : (gcellSpan p dl dh i).1 + 2 ≤ (gcellSpan p dl dh i).2) :
    (gcellSpan p dl dh i).1 < gcellMid p dl dh i ∧ gcellMid p dl dh i < (gcellSpan p dl dh i).2 := by
  rw [gcellSpan_in p dl dh i h0 h1] at hw ⊢
  unfold gcellMid
  dsimp only at hw ⊢
  generalize (if i = 0 then dl else p.spacing * i + p.start) = l at hw ⊢
  generalize (if i = p.count - 1 then dh else p.spacing * (i + 1) + p.start) = r at hw ⊢
  obtain ⟨t1, t2⟩ := tdiv2_bounds (l + r)
  omega

theorem idx_mid {p : GCellPat} {dl dh i : Int} (hf : AxisFits p dl dh) (h0 : 0 ≤ i) (h1 : i < p.count)
    (hw : (gcellSpan p dl dh i).1 + 2 ≤ (gcellSpan p dl dh i).2) : gcellIdx1 p (gcellMid p dl dh i) = some i := by
  obtain ⟨m1, m2⟩ := mid_strict h0 h1 hw
  obtain ⟨d1, d2⟩ := span_in_die hf h0 h1
  obtain ⟨j, hj, j0, j1, hs⟩ := gcellIdx1_spec hf (gcellMid p dl dh i)
  obtain ⟨s1, s2⟩ := hs (by omega) (by omega)
  rw [hj]
  rcases Int.lt_trichotomy i j with hlt | rfl | hgt
  · have := (span_sep hf h0 hlt j1).2.2; omega
  · rfl
  · have := (span_sep hf j0 hgt h1).2.2; omega

theorem grid_rows {G : GGrid} (hf : G.Fits) (hw : G.Wide) (h : Bool) : TaRows (G.Centre h) (G.row h) := by
  have hfx := axis_fits hf h
  constructor
  · rintro c ⟨i, h0, h1, rfl⟩
    unfold GGrid.row
    rw [idx_mid hfx h0 h1 (hw h i h0 h1)]
    have := mid_strict h0 h1 (hw h i h0 h1)
    simp only [Option.getD_some]
    omega
  · rintro c c' ⟨i, h0, h1, rfl⟩ ⟨j, k0, k1, rfl⟩ hlt
    unfold GGrid.row
    rw [idx_mid hfx h0 h1 (hw h i h0 h1), idx_mid hfx k0 k1 (hw h j k0 k1)]
    simp only [Option.getD_some]
    have a := mid_strict h0 h1 (hw h i h0 h1)
    have b := mid_strict k0 k1 (hw h j k0 k1)
    rcases Int.lt_trichotomy i j with hij | rfl | hij
    · exact (span_sep hfx h0 hij k1).2.2
    · omega
    · have := (span_sep hfx k0 hij h1).2.2; omega

theorem panelBox {G : GGrid} (hf : G.Fits) {h : Bool} {size i : Int} (hs : 0 < size) (h0 : 0 ≤ i) (h1 : i < (G.axis h).1.count) :
    ∃ rb eb, (i ∈ loopFrom (G.axis h).1.count size 0 → (i, rb, eb) ∈ taPanels G h size) ∧ (∃ d, 0 ≤ d ∧ eb = rb.bloat d) ∧
      (if h then rb.bottom else rb.left) = (gcellSpan (G.axis h).1 (G.axis h).2.1 (G.axis h).2.2 i).1 ∧
      (if h then rb.top else rb.right) = (gcellSpan (G.axis h).1 (G.axis h).2.1 (G.axis h).2.2 (min ((G.axis h).1.count - 1) (i + size - 1))).2 ∧
      (if h then rb.left else rb.bottom) = (G.axis (!h)).2.1 ∧ (if h then rb.right else rb.top) = (G.axis (!h)).2.2 := by
  have hnx := hf.1.2.1
  have hny := hf.2.2.1
  have hsx := hf.1.1
  have hsy := hf.2.1
  cases h
  · simp only [GGrid.axis, Bool.false_eq_true, if_false, Bool.not_false, if_true] at h1 ⊢
    refine ⟨(Box.mk4 (G.box ⟨i, 0⟩).left (G.box ⟨i, 0⟩).bottom (G.box ⟨min (i + size - 1) (G.xp.count - 1), G.yp.count - 1⟩).right
        (G.box ⟨min (i + size - 1) (G.xp.count - 1), G.yp.count - 1⟩).top), _, fun hi => ?_, ⟨G.xp.spacing.tdiv 2, Int.tdiv_nonneg (by omega) (by omega), rfl⟩, ?_⟩
    · unfold taPanels taPanelsV
      simp only [Bool.false_eq_true, if_false, List.mem_map]
      exact ⟨i, hi, rfl⟩
    · have r1 : G.InRange ⟨i, 0⟩ := by simp only [GGrid.InRange]; omega
      have r2 : G.InRange ⟨min (i + size - 1) (G.xp.count - 1), G.yp.count - 1⟩ := by simp only [GGrid.InRange]; omega
      rw [box_eq hf r1, box_eq hf r2]
      have e : min (i + size - 1) (G.xp.count - 1) = min (G.xp.count - 1) (i + size - 1) := by omega
      have hx := span_lt hf.1 (i := i) (j := min (G.xp.count - 1) (i + size - 1)) (by omega) (by omega) (by omega)
      have hy := span_lt hf.2 (i := 0) (j := G.yp.count - 1) (by omega) (by omega) (by omega)
      have b0 : (gcellSpan G.yp G.die.bottom G.die.top 0).1 = G.die.bottom := by
        rw [gcellSpan_in _ _ _ _ (by omega) (by omega)]; rfl
      have b1 : (gcellSpan G.yp G.die.bottom G.die.top (G.yp.count - 1)).2 = G.die.top := by
        rw [gcellSpan_in _ _ _ _ (by omega) (by omega)]; simp
      rw [Box.mk4_eq]
      simp only [Box.left, Box.right, Box.bottom, Box.top, e] at hx hy b0 b1 ⊢
      omega
  · simp only [GGrid.axis, Bool.false_eq_true, if_false, Bool.not_true, if_true] at h1 ⊢
    refine ⟨(Box.mk4 (G.box ⟨0, i⟩).left (G.box ⟨0, i⟩).bottom (G.box ⟨G.xp.count - 1, min (i + size - 1) (G.yp.count - 1)⟩).right
        (G.box ⟨G.xp.count - 1, min (i + size - 1) (G.yp.count - 1)⟩).top), _, fun hi => ?_, ⟨G.yp.spacing.tdiv 2, Int.tdiv_nonneg (by omega) (by omega), rfl⟩, ?_⟩
    · unfold taPanels taPanelsH
      simp only [if_true, List.mem_map]
      exact ⟨i, hi, rfl⟩
    · have r1 : G.InRange ⟨0, i⟩ := by simp only [GGrid.InRange]; omega
      have r2 : G.InRange ⟨G.xp.count - 1, min (i + size - 1) (G.yp.count - 1)⟩ := by simp only [GGrid.InRange]; omega
      rw [box_eq hf r1, box_eq hf r2]
      have e : min (i + size - 1) (G.yp.count - 1) = min (G.yp.count - 1) (i + size - 1) := by omega
      have hy := span_lt hf.2 (i := i) (j := min (G.yp.count - 1) (i + size - 1)) (by omega) (by omega) (by omega)
      have hx := span_lt hf.1 (i := 0) (j := G.xp.count - 1) (by omega) (by omega) (by omega)
      have b0 : (gcellSpan G.xp G.die.left G.die.right 0).1 = G.die.left := by
        rw [gcellSpan_in _ _ _ _ (by omega) (by omega)]; rfl
      have b1 : (gcellSpan G.xp G.die.left G.die.right (G.xp.count - 1)).2 = G.die.right := by
        rw [gcellSpan_in _ _ _ _ (by omega) (by omega)]; simp
      rw [Box.mk4_eq]
      simp only [Box.left, Box.right, Box.bottom, Box.top, e] at hx hy b0 b1 ⊢
      omega

theorem mid_span {p : GCellPat} {dl dh i : Int} (hf : AxisFits p dl dh) (h0 : 0 ≤ i) (h1 : i < p.count) :
    (gcellSpan p dl dh i).1 ≤ gcellMid p dl dh i ∧ gcellMid p dl dh i ≤ (gcellSpan p dl dh i).2 := by
  have hw := span_lt hf h0 (Int.le_refl i) h1
  rw [gcellSpan_in p dl dh i h0 h1] at hw ⊢
  unfold gcellMid
  dsimp only at hw ⊢
  generalize (if i = 0 then dl else p.spacing * i + p.start) = l at hw ⊢
  generalize (if i = p.count - 1 then dh else p.spacing * (i + 1) + p.start) = r at hw ⊢
  obtain ⟨t1, t2⟩ := tdiv2_bounds (l + r)
  omega

theorem grid_panels {G : GGrid} (hf : G.Fits) {E : TaEnv} {gs : List TGuide} (hp : GuidePlan E G.Centre gs) (h : Bool) {size : Int} (hs : 0 < size) :
    PanelsHold E h (taPanels G h size) gs := by
  intro g hg hd
  obtain ⟨st, sa⟩ := hp.straight g hg
  rw [hd] at st sa
  obtain ⟨⟨j, j0, j1, hj⟩, _⟩ := hp.centres g hg h
  obtain ⟨⟨k, k0, k1, hk⟩, ⟨l, l0, l1, hl⟩⟩ := hp.centres g hg (!h)
  rw [point_c_not] at hk hl
  obtain ⟨i, hi, i0, i1, i2⟩ := loop_owner hs j0 j1
  obtain ⟨rb, eb, p1, ⟨d, d0, rfl⟩, p2, p3, p4, p5⟩ := panelBox hf (h := h) hs i0 (show i < (G.axis h).1.count by omega)
  refine ⟨_, p1 hi, ?_⟩
  have a1 := mid_span (axis_fits hf h) j0 j1
  have a2 := span_lo_mono (axis_fits hf h) i0 i1 j1
  have a3 := span_hi_mono (axis_fits hf h) j0 (j := min ((G.axis h).1.count - 1) (i + size - 1)) (by omega) (by omega)
  have b1 := mid_span (axis_fits hf (!h)) k0 k1
  have b2 := span_in_die (axis_fits hf (!h)) k0 k1
  have c1 := mid_span (axis_fits hf (!h)) l0 l1
  have c2 := span_in_die (axis_fits hf (!h)) l0 l1
  rw [← hj] at a1
  rw [← hk] at b1
  rw [← hl] at c1
  have key : rb.left ≤ min g.b.x g.e.x ∧ max g.b.x g.e.x ≤ rb.right ∧ rb.bottom ≤ min g.b.y g.e.y ∧ max g.b.y g.e.y ≤ rb.top := by
    cases h <;> simp only [Point.a, Point.c, Bool.false_eq_true, if_false, if_true] at * <;> omega
  unfold TGuide.box
  rw [Box.mk4_eq]
  clear p2 p3 p4 p5 a1 a2 a3 b1 b2 c1 c2
  simp only [Box.holds, Box.meets, Box.bloat, Box.mk4_eq, Box.left, Box.right, Box.bottom, Box.top, Bool.and_eq_true, decide_eq_true_eq] at key ⊢
  omega

end TR
