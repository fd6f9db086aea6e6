import Verif.GC.Props
/-! C41, C57, C58: search window, shorts, the check of a layer. -/
namespace TR

/-! ### search window -/

theorem maxSpc_nonneg {D : GDb} (hD : D.Ok) (hR : D.RulesOk) : 0 ≤ maxSpc D ∧ maxSpc D ≤ 32767 := by
  unfold maxSpc
  cases hm : D.layer.minSpc with
  | none => simp
  | some rule =>
    cases rule with
    | fixed x => exact hR.fixed x hm
    | tw t => simp
    | prl t =>
      simp only
      obtain ⟨h1, h2, h3⟩ := hR.mono t hm
      obtain ⟨_, _, l, v, _, _, _, _, hv⟩ := c37_find (hD.table t hm) 0 0
      have := c37_find_bounds (hD.table t hm) h1 hv
      omega

/-- C41: the rectangles visited are exactly those whose gap to the checked one is at most the largest tabulated spacing in both
directions. -/
theorem c41_window_iff {D : GDb} (hD : D.Ok) (hR : D.RulesOk) {r s : GRect} (hr : r ∈ D.rects) :
    s ∈ spcWindow D r ↔ s ∈ D.rects ∧ -maxSpc D ≤ sharedX r.box s.box ∧ -maxSpc D ≤ sharedY r.box s.box := by
  unfold spcWindow
  rw [List.mem_filter]
  apply and_congr_right
  intro hs
  have pr := hD.proper hr
  have ps := hD.proper hs
  have h0 := (maxSpc_nonneg hD hR).1
  unfold Box.overlaps gBloat sharedX sharedY
  unfold Box.Proper at pr ps
  simp only [if_true, Box.left, Box.right, Box.bottom, Box.top] at *
  simp
  omega

/-- the required spacing is between zero and the largest tabulated one -/
theorem required_le {D : GDb} (hD : D.Ok) (hR : D.RulesOk) {r s : GRect} {q : Int} (hq : Required D r s q) : 0 ≤ q ∧ q ≤ maxSpc D := by
  have h0 := maxSpc_nonneg hD hR
  unfold Required at hq
  unfold maxSpc at h0 ⊢
  cases hm : D.layer.minSpc with
  | none => simp only [hm] at hq h0 ⊢; omega
  | some rule =>
    cases rule with
    | fixed x => simp only [hm] at hq h0 ⊢; omega
    | tw t => simp only [hm] at hq h0 ⊢; omega
    | prl t =>
      simp only [hm] at hq h0 ⊢
      obtain ⟨h1, h2, h3⟩ := hR.mono t hm
      obtain ⟨_, _, l, v, _, _, _, _, hv⟩ := c37_find (hD.table t hm) 0 0
      have hv' := c37_find_bounds (hD.table t hm) h1 hv
      rcases hq with ⟨x, ⟨pg, hx, _⟩, hq⟩ | ⟨_, hq⟩
      · have := hR.same t x pg hm hx
        omega
      · have := c37_find_bounds (hD.table t hm) h1 hq
        omega

theorem sq_lt_of_lt {g q : Int} (hq : 0 ≤ q) (h : g * g < q * q) : g < q := by
  rcases Int.lt_or_le g q with h1 | h1
  · exact h1
  · have := Int.mul_le_mul h1 h1 hq (by omega)
    omega

/-- C41: every rectangle that touches the checked one, or comes closer to it than the spacing required between the two, is visited. -/
theorem c41_nothing_missed {D : GDb} (hD : D.Ok) (hR : D.RulesOk) {r s : GRect} (hr : r ∈ D.rects) (hs : s ∈ D.rects) {q : Int}
    (hq : Required D r s q) (h : Touches r.box s.box ∨ Closer r.box s.box q) : s ∈ spcWindow D r := by
  have pr := hD.proper hr
  have ps := hD.proper hs
  rw [c41_window_iff hD hR hr]
  have h0 := maxSpc_nonneg hD hR
  have hle := required_le hD hR hq
  refine ⟨hs, ?_⟩
  rcases h with h | h
  · rw [touches_iff_shared pr ps] at h
    omega
  · rw [closer_iff pr ps, dist2_gaps pr ps] at h
    have n1 := sq_nonneg (max 0 (-sharedX r.box s.box))
    have n2 := sq_nonneg (max 0 (-sharedY r.box s.box))
    have g1 := sq_lt_of_lt hle.1 (show max 0 (-sharedX r.box s.box) * max 0 (-sharedX r.box s.box) < q * q by omega)
    have g2 := sq_lt_of_lt hle.1 (show max 0 (-sharedY r.box s.box) * max 0 (-sharedY r.box s.box) < q * q by omega)
    omega

/-- C40, C41: no square overflows for the rectangles that are visited -/
theorem c41_fits {D : GDb} (hD : D.Ok) (hR : D.RulesOk) {r s : GRect} (hr : r ∈ D.rects) (hs : s ∈ spcWindow D r) {q : Int}
    (hq : Required D r s q) : FitsSpc r s q := by
  have h0 := maxSpc_nonneg hD hR
  have hle := required_le hD hR hq
  obtain ⟨_, hx, hy⟩ := (c41_window_iff hD hR hr).1 hs
  have hsq : ∀ g : Int, 0 ≤ g → g ≤ 32767 → g * g ≤ 1073676289 := fun g h1 h2 => by
    have := Int.mul_le_mul h2 h2 h1 (by omega)
    omega
  have a1 := hsq q hle.1 (by omega)
  have a2 := hsq (max 0 (-sharedX r.box s.box)) (by omega) (by omega)
  have a3 := hsq (max 0 (-sharedY r.box s.box)) (by omega) (by omega)
  exact ⟨by omega, by omega⟩

/-! ### shorts -/

theorem tdiv_centre {l r : Int} (h : l ≤ r) : l ≤ Int.tdiv (r + l) 2 ∧ Int.tdiv (r + l) 2 ≤ r := by
  rcases Int.le_total 0 (r + l) with h0 | h0
  · rw [Int.tdiv_eq_ediv_of_nonneg h0]
    omega
  · have : Int.tdiv (r + l) 2 = -((-(r + l)) / 2) := by
      rw [← Int.tdiv_eq_ediv_of_nonneg (by omega : 0 ≤ -(r + l)), Int.neg_tdiv, Int.neg_neg]
    rw [this]
    omega

theorem skipObsPin_iff {D : GDb} {r s : GRect} {m : Box} : skipObsPin D r s m = true ↔ ObsOverPin D r s m := by
  have hc : ∀ b : Box, b.containsBox m = true ↔ b.left ≤ m.left ∧ m.right ≤ b.right ∧ b.bottom ≤ m.bottom ∧ m.top ≤ b.top := by
    intro b
    unfold Box.containsBox
    simp only [if_true, Box.left, Box.right, Box.bottom, Box.top, Bool.and_eq_true, decide_eq_true_eq, ge_iff_le]
    constructor
    · rintro ⟨⟨⟨a, b⟩, c⟩, d⟩; exact ⟨b, a, d, c⟩
    · rintro ⟨b, a, d, c⟩; exact ⟨⟨⟨a, b⟩, c⟩, d⟩
  unfold skipObsPin ObsOverPin
  cases h1 : (D.net r.net).obs <;> cases h2 : (D.net s.net).obs <;> simp [List.any_eq_true, hc]

theorem routedIn_iff {route : List Box} {m : Box} (hm : m.Proper) : coveredArea (bloatFlat m) route ≠ 0 ↔ RoutedIn route m := by
  rw [Ne, covered_zero]
  unfold RoutedIn
  have hc : ∀ c, CellOf (bloatFlat m) c ↔
      (m.left ≤ c.x ∧ c.x < m.right ∨ m.left = m.right ∧ (c.x = m.left ∨ c.x = m.left - 1)) ∧
      (m.bottom ≤ c.y ∧ c.y < m.top ∨ m.bottom = m.top ∧ (c.y = m.bottom ∨ c.y = m.bottom - 1)) := by
    intro c
    unfold CellOf bloatFlat
    unfold Box.Proper at hm
    simp only [Box.left, Box.right, Box.bottom, Box.top] at *
    by_cases h1 : m.ur.x - m.ll.x = 0 <;> by_cases h2 : m.ur.y - m.ll.y = 0 <;> simp only [h1, h2, if_true, if_false] <;> omega
  constructor
  · intro h
    by_cases hex : ∃ c, CellOf (bloatFlat m) c ∧ ∃ s ∈ route, CellOf s c
    · obtain ⟨c, h1, h2⟩ := hex
      exact ⟨c, h2, (hc c).1 h1⟩
    · exact absurd hex h
  · rintro ⟨c, h1, h2⟩ hn
    exact hn ⟨c, (hc c).2 h2, h1⟩

theorem minWidthSq_eq {D : GDb} (h : D.layer.minWidth ≤ 65535) : minWidthSq D = (D.layer.minWidth : Int) * (D.layer.minWidth : Int) := by
  unfold minWidthSq
  have : D.layer.minWidth * D.layer.minWidth ≤ 65535 * 65535 := Nat.mul_le_mul h h
  rw [Nat.mod_eq_of_lt (by omega)]
  simp

theorem thin_iff {D : GDb} {b : Box} : thin D b = true ↔ Thin D b := by
  unfold thin Thin
  simp

theorem joins_iff {D : GDb} (h : D.layer.minWidth ≤ 65535) {a b : Box} (ha : a.Proper) (hb : b.Proper) :
    (a.overlaps b = true ∧ diag2 (boxMeet a b) ≥ minWidthSq D) ↔ JoinsWell D a b := by
  rw [minWidthSq_eq h]
  have ho : a.overlaps b = true ↔ 0 ≤ sharedX a b ∧ 0 ≤ sharedY a b := by
    unfold Box.overlaps sharedX sharedY
    unfold Box.Proper at ha hb
    simp only [if_true, Box.left, Box.right, Box.bottom, Box.top] at *
    simp
    omega
  have hd : diag2 (boxMeet a b) = sharedX a b * sharedX a b + sharedY a b * sharedY a b := rfl
  rw [ho, hd]
  unfold JoinsWell
  constructor
  · rintro ⟨⟨h1, h2⟩, h3⟩; exact ⟨h1, h2, h3⟩
  · rintro ⟨h1, h2, h3⟩; exact ⟨⟨h1, h2⟩, h3⟩

theorem between_extent {a b m : Box} (h : IsBetween a b m) (ht : 0 ≤ sharedX a b ∧ 0 ≤ sharedY a b) :
    m.right - m.left = sharedX a b ∧ m.top - m.bottom = sharedY a b := by
  obtain ⟨h1, h2, h3, h4⟩ := h
  unfold sharedX sharedY at *
  omega

/-- the check of two touching rectangles -/
theorem shortCheck_iff {D : GDb} (hD : D.Ok) (hw : D.layer.minWidth ≤ 65535) {r s : GRect} (hr : r ∈ D.rects) (hs : s ∈ D.rects)
    (ht : Touches r.box s.box) (m : GMk) :
    shortCheck D r s (genIntersect r.box s.box) = .mk m ↔ ShortViolation D r s m ∨ WeakJoint D r s m := by
  have pr := hD.proper hr
  have ps := hD.proper hs
  have hb := genIntersect_between pr ps
  have ht' := (touches_iff_shared pr ps).1 ht
  have hext := between_extent hb ht'
  unfold ShortViolation WeakJoint
  unfold shortCheck
  simp only
  by_cases hfix : (r.fixed && s.fixed) = true
  · rw [if_pos hfix]
    simp only [Bool.and_eq_true] at hfix
    simp [hfix]
  rw [if_neg hfix]
  have hfix' : r.fixed = false ∨ s.fixed = false := by
    cases hrf : r.fixed <;> cases hsf : s.fixed <;> simp [hrf, hsf] at hfix ⊢
  have hskip := skipObsPin_iff (D := D) (r := r) (s := s) (m := genIntersect r.box s.box)
  by_cases hsk : skipObsPin D r s (genIntersect r.box s.box) = true
  · rw [if_pos hsk]
    have ho := hskip.1 hsk
    simp only [reduceCtorEq, false_iff]
    rintro (⟨_, _, _, hbt, hn, _⟩ | ⟨hnet, _, _, hbt, _⟩)
    · rw [hbt.unique hb] at hn
      exact hn ho
    · unfold ObsOverPin at ho
      rw [hnet] at ho
      rcases ho with ⟨h1, h2, _⟩ | ⟨h1, h2, _⟩ <;> rw [h1] at h2 <;> simp at h2
  rw [if_neg hsk]
  have hn : ¬ ObsOverPin D r s (genIntersect r.box s.box) := fun h => hsk (hskip.2 h)
  have hr1 := routedIn_iff (route := D.routePolys r.net) hb.proper
  have hr2 := routedIn_iff (route := D.routePolys s.net) hb.proper
  by_cases hroute : coveredArea (bloatFlat (genIntersect r.box s.box)) (D.routePolys r.net) = 0 ∧
      coveredArea (bloatFlat (genIntersect r.box s.box)) (D.routePolys s.net) = 0
  · rw [if_pos hroute]
    have n1 : ¬ RoutedIn (D.routePolys r.net) (genIntersect r.box s.box) := fun h => hr1.2 h hroute.1
    have n2 : ¬ RoutedIn (D.routePolys s.net) (genIntersect r.box s.box) := fun h => hr2.2 h hroute.2
    simp only [reduceCtorEq, false_iff]
    rintro (⟨_, _, _, hbt, _, h, _⟩ | ⟨hnet, _, _, hbt, h, _⟩)
    · rw [hbt.unique hb] at h
      exact h.elim n1 n2
    · rw [hbt.unique hb] at h
      exact n1 h
  rw [if_neg hroute]
  have hro : RoutedIn (D.routePolys r.net) (genIntersect r.box s.box) ∨ RoutedIn (D.routePolys s.net) (genIntersect r.box s.box) := by
    rw [← hr1, ← hr2]
    omega
  by_cases hnet : r.net = s.net
  · rw [if_pos hnet]
    have hro' : RoutedIn (D.routePolys r.net) (genIntersect r.box s.box) := by
      rw [← hnet] at hro
      exact hro.elim id id
    have hjoin : diag2 (genIntersect r.box s.box) ≥ minWidthSq D ↔ JoinsWell D r.box s.box := by
      rw [minWidthSq_eq hw]
      unfold diag2 JoinsWell
      rw [hext.1, hext.2]
      exact ⟨fun h => ⟨ht'.1, ht'.2, h⟩, fun h => h.2.2⟩
    by_cases hj : diag2 (genIntersect r.box s.box) ≥ minWidthSq D
    · rw [if_pos hj]
      simp only [reduceCtorEq, false_iff]
      rintro (⟨h, _⟩ | ⟨_, _, _, _, _, h, _⟩)
      · exact h hnet
      · exact h (hjoin.1 hj)
    rw [if_neg hj]
    by_cases hthin : (thin D r.box || thin D s.box) = true
    · rw [if_pos hthin]
      rw [Bool.or_eq_true, thin_iff, thin_iff] at hthin
      simp only [reduceCtorEq, false_iff]
      rintro (⟨h, _⟩ | ⟨_, _, _, _, _, _, h1, h2, _⟩)
      · exact h hnet
      · exact hthin.elim h1 h2
    rw [if_neg hthin]
    rw [Bool.or_eq_true, thin_iff, thin_iff] at hthin
    have hbr : D.rects.any (bridges D r s (genIntersect r.box s.box)
        (gBloat ⟨⟨Int.tdiv ((genIntersect r.box s.box).right + (genIntersect r.box s.box).left) 2,
          Int.tdiv ((genIntersect r.box s.box).top + (genIntersect r.box s.box).bottom) 2⟩,
          ⟨Int.tdiv ((genIntersect r.box s.box).right + (genIntersect r.box s.box).left) 2,
          Int.tdiv ((genIntersect r.box s.box).top + (genIntersect r.box s.box).bottom) 2⟩⟩ D.layer.minWidth)) = true ↔
        ∃ t ∈ D.rects, t.id ≠ r.id ∧ t.id ≠ s.id ∧ t.net = r.net ∧ ¬ Thin D t.box ∧ JoinsWell D r.box t.box ∧ JoinsWell D s.box t.box ∧
          t.box.left ≤ (genIntersect r.box s.box).left ∧ (genIntersect r.box s.box).right ≤ t.box.right ∧
          t.box.bottom ≤ (genIntersect r.box s.box).bottom ∧ (genIntersect r.box s.box).top ≤ t.box.top := by
      generalize genIntersect r.box s.box = g at hb ⊢
      have hgp := hb.proper
      have m1 := tdiv_centre hgp.1
      have m2 := tdiv_centre hgp.2
      generalize hcx : Int.tdiv (g.right + g.left) 2 = cx at *
      generalize hcy : Int.tdiv (g.top + g.bottom) 2 = cy at *
      rw [List.any_eq_true]
      unfold bridges
      simp only [Bool.and_eq_true, bne_iff_ne, beq_iff_eq, decide_eq_true_eq, Bool.not_eq_true', ← Bool.not_eq_true, thin_iff]
      constructor
      · rintro ⟨t, htm, h⟩
        have pt := hD.proper htm
        obtain ⟨⟨⟨⟨⟨⟨⟨⟨⟨h1, h2⟩, h3⟩, h4⟩, h5⟩, h6⟩, h7⟩, h8⟩, h9⟩, h10⟩ := h
        unfold Box.containsBox at h5
        simp only [if_true, Bool.and_eq_true, decide_eq_true_eq] at h5
        exact ⟨t, htm, h2, h3, h4, h6, (joins_iff hw pr pt).1 ⟨h7, h9⟩, (joins_iff hw ps pt).1 ⟨h8, h10⟩, h5.1.1.2, h5.1.1.1, h5.2, h5.1.2⟩
      · rintro ⟨t, htm, h2, h3, h4, h6, h7, h8, c1, c2, c3, c4⟩
        have pt := hD.proper htm
        obtain ⟨j1, j2⟩ := (joins_iff hw pr pt).2 h7
        obtain ⟨j3, j4⟩ := (joins_iff hw ps pt).2 h8
        refine ⟨t, htm, ⟨⟨⟨⟨⟨⟨⟨⟨⟨?_, h2⟩, h3⟩, h4⟩, ?_⟩, h6⟩, j1⟩, j3⟩, j2⟩, j4⟩⟩
        · unfold Box.overlaps gBloat
          simp only [if_true, Box.left, Box.right, Box.bottom, Box.top] at *
          simp
          omega
        · unfold Box.containsBox
          simp only [if_true, Bool.and_eq_true, decide_eq_true_eq]
          exact ⟨⟨⟨c2, c1⟩, c4⟩, c3⟩
    by_cases hbrd : D.rects.any (bridges D r s (genIntersect r.box s.box)
        (gBloat ⟨⟨Int.tdiv ((genIntersect r.box s.box).right + (genIntersect r.box s.box).left) 2,
          Int.tdiv ((genIntersect r.box s.box).top + (genIntersect r.box s.box).bottom) 2⟩,
          ⟨Int.tdiv ((genIntersect r.box s.box).right + (genIntersect r.box s.box).left) 2,
          Int.tdiv ((genIntersect r.box s.box).top + (genIntersect r.box s.box).bottom) 2⟩⟩ D.layer.minWidth)) = true
    · rw [if_pos hbrd]
      have hbrd' := hbr.1 hbrd
      simp only [reduceCtorEq, false_iff]
      rintro (⟨h, _⟩ | ⟨_, _, _, hbt, _, _, _, _, h, _⟩)
      · exact h hnet
      · rw [hbt.unique hb] at h
        exact h hbrd'
    · rw [if_neg hbrd]
      have hbrd' := fun h => hbrd (hbr.2 h)
      simp only [GOut.mk.injEq]
      rw [pairMarker_iff hb]
      constructor
      · rintro ⟨h1, h2, h3, h4⟩
        have := hb.unique h1
        rw [this] at hbrd' hro'
        exact .inr ⟨hnet, ht, hfix', h1, hro', fun h => hj (hjoin.2 h), fun h => hthin (.inl h), fun h => hthin (.inr h), hbrd', h2, h3, h4⟩
      · rintro (⟨h, _⟩ | ⟨_, _, _, h1, _, _, _, _, _, h2, h3, h4⟩)
        · exact absurd hnet h
        · exact ⟨h1, h2, h3, h4⟩
  · rw [if_neg hnet]
    simp only [GOut.mk.injEq]
    rw [pairMarker_iff hb]
    constructor
    · rintro ⟨h1, h2, h3, h4⟩
      have := hb.unique h1
      rw [this] at hn hro
      exact .inl ⟨hnet, ht, hfix', h1, hn, hro, h2, h3, h4⟩
    · rintro (⟨_, _, _, h1, _, _, h2, h3, h4⟩ | ⟨h, _⟩)
      · exact ⟨h1, h2, h3, h4⟩
      · exact absurd h hnet

theorem prlCheck_rule {D : GDb} {r s : GRect} {g : Box} {p dx dy : Int} {m : GMk} (h : prlCheck D r s g p dx dy = .mk m) : m.rule = .spacing := by
  unfold prlCheck at h
  have hx : ∀ {g : Box}, pairMarker D r s g .spacing = m → m.rule = .spacing := by
    rintro g rfl
    rfl
  repeat' split at h
  all_goals (try simp at h)
  repeat' split at h
  all_goals (try simp at h)
  all_goals (exact hx h)

/-- C58: two rectangles of different nets are reported as a short exactly when they touch, at least one is not fixed, they are not a
blockage over a pin that it belongs to, and routed metal lies in the common part. -/
theorem c58_short_iff {D : GDb} (hD : D.Ok) (hw : D.layer.minWidth ≤ 65535) {r s : GRect} (hr : r ∈ D.rects) (hs : s ∈ D.rects) (m : GMk) :
    (checkPair D r s = .mk m ∧ m.rule = .short) ↔ r.id ≠ s.id ∧ ShortViolation D r s m := by
  have pr := hD.proper hr
  have ps := hD.proper hs
  by_cases hid : r.id = s.id
  · simp [checkPair, hid]
  by_cases ht : Touches r.box s.box
  · rw [checkPair_touch pr ps hid ht, shortCheck_iff hD hw hr hs ht]
    constructor
    · rintro ⟨h | h, h2⟩
      · exact ⟨hid, h⟩
      · have := h.2.2.2.2.2.2.2.2.2.2.1
        rw [h2] at this
        simp at this
    · rintro ⟨_, h⟩
      exact ⟨.inl h, h.2.2.2.2.2.2.2.1⟩
  · constructor
    · rintro ⟨h1, h2⟩
      rw [checkPair_apart pr ps hid ht] at h1
      rw [prlCheck_rule h1] at h2
      simp at h2
    · rintro ⟨_, h⟩
      exact absurd h.2.1 ht

/-- C58: two rectangles of one net are reported as hanging together too weakly exactly when they touch, at least one is not fixed,
routed metal lies in the common part, both are wide enough, the common part is too small, and no third rectangle that is wide enough
and contains the common part joins both. -/
theorem c58_weak_joint_iff {D : GDb} (hD : D.Ok) (hw : D.layer.minWidth ≤ 65535) {r s : GRect} (hr : r ∈ D.rects) (hs : s ∈ D.rects) (m : GMk) :
    (checkPair D r s = .mk m ∧ m.rule = .nsMetal) ↔ r.id ≠ s.id ∧ WeakJoint D r s m := by
  have pr := hD.proper hr
  have ps := hD.proper hs
  by_cases hid : r.id = s.id
  · simp [checkPair, hid]
  by_cases ht : Touches r.box s.box
  · rw [checkPair_touch pr ps hid ht, shortCheck_iff hD hw hr hs ht]
    constructor
    · rintro ⟨h | h, h2⟩
      · have := h.2.2.2.2.2.2.2.1
        rw [h2] at this
        simp at this
      · exact ⟨hid, h⟩
    · rintro ⟨_, h⟩
      exact ⟨.inr h, h.2.2.2.2.2.2.2.2.2.2.1⟩
  · constructor
    · rintro ⟨h1, h2⟩
      rw [checkPair_apart pr ps hid ht] at h1
      rw [prlCheck_rule h1] at h2
      simp at h2
    · rintro ⟨_, h⟩
      exact absurd h.2.1 ht

/-! ### all pairs of a layer -/

theorem checkPair_iff {D : GDb} (hD : D.Ok) (hw : D.layer.minWidth ≤ 65535) {r s : GRect} (hr : r ∈ D.rects) (hs : s ∈ D.rects) {q : Int} (hq : Required D r s q)
    (hfit : FitsSpc r s q) (m : GMk) : checkPair D r s = .mk m ↔ Violation D r s m := by
  have h1 := c40_reported_iff hD hr hs hq hfit m
  have h2 := c58_short_iff hD hw hr hs m
  have h3 := c58_weak_joint_iff hD hw hr hs m
  obtain ⟨q0, _, hu⟩ := required_unique hD r s
  have hqq : ∀ q', Required D r s q' → q' = q := fun q' h => by rw [hu q' h, hu q hq]
  unfold Violation
  constructor
  · intro h
    have hrule : m.rule = .spacing ∨ m.rule = .short ∨ m.rule = .nsMetal := by
      have pr := hD.proper hr
      have ps := hD.proper hs
      by_cases hid : r.id = s.id
      · simp [checkPair, hid] at h
      by_cases ht : Touches r.box s.box
      · rw [checkPair_touch pr ps hid ht] at h
        exact .inr (shortCheck_rule h)
      · rw [checkPair_apart pr ps hid ht] at h
        exact .inl (prlCheck_rule h)
    rcases hrule with hm | hm | hm
    · obtain ⟨a, b⟩ := h1.1 ⟨h, hm⟩
      exact ⟨a, .inl ⟨q, hq, b⟩⟩
    · obtain ⟨a, b⟩ := h2.1 ⟨h, hm⟩
      exact ⟨a, .inr (.inl b)⟩
    · obtain ⟨a, b⟩ := h3.1 ⟨h, hm⟩
      exact ⟨a, .inr (.inr b)⟩
  · rintro ⟨a, ⟨q', hq', b⟩ | b | b⟩
    · rw [hqq q' hq'] at b
      exact (h1.2 ⟨a, b⟩).1
    · exact (h2.2 ⟨a, b⟩).1
    · exact (h3.2 ⟨a, b⟩).1

theorem checkPair_no_ub {D : GDb} (hD : D.Ok) {r s : GRect} (hr : r ∈ D.rects) (hs : s ∈ D.rects) {q : Int} (hq : Required D r s q)
    (hfit : FitsSpc r s q) : checkPair D r s ≠ .ub := by
  have pr := hD.proper hr
  have ps := hD.proper hs
  by_cases hid : r.id = s.id
  · simp [checkPair, hid]
  by_cases ht : Touches r.box s.box
  · rw [checkPair_touch pr ps hid ht]
    unfold shortCheck
    simp only
    repeat' split
    all_goals simp
  · by_cases hfix : r.fixed = false ∨ s.fixed = false
    · intro h
      exact (c40_overflow hD hr hs hq hid ht hfix).1 h hfit
    · rw [checkPair_apart pr ps hid ht]
      unfold prlCheck
      rw [(reqSpc_iff hD).2 hq]
      simp only
      rw [if_pos (by
        cases hrf : r.fixed <;> cases hsf : s.fixed <;> simp [hrf, hsf] at hfix ⊢)]
      simp

theorem violation_visited {D : GDb} (hD : D.Ok) (hR : D.RulesOk) {r s : GRect} (hr : r ∈ D.rects) (hs : s ∈ D.rects) {m : GMk}
    (h : Violation D r s m) : s ∈ spcWindow D r := by
  obtain ⟨q, hq, _⟩ := required_unique hD r s
  obtain ⟨_, ⟨q', hq', v⟩ | v | v⟩ := h
  · exact c41_nothing_missed hD hR hr hs hq' (.inr v.2.2.1)
  · exact c41_nothing_missed hD hR hr hs hq (.inl v.2.1)
  · exact c41_nothing_missed hD hR hr hs hq (.inl v.2.1)

/-- the violations of a list of outcomes -/
def outMks (l : List GOut) : List GMk := l.filterMap (fun | .mk m => some m | _ => none)

theorem stepOut_fold (l : List GOut) (s : GStore) (h : GOut.ub ∉ l) : l.foldl stepOut (some s) = some (addMarkers s (outMks l)) := by
  induction l generalizing s with
  | nil => rfl
  | cons o t ih =>
    have ht : GOut.ub ∉ t := fun hh => h (List.mem_cons_of_mem _ hh)
    cases o with
    | ub => exact absurd (List.mem_cons_self ..) h
    | ok => exact ih s ht
    | mk m => exact ih _ ht

theorem foldl_flat {α β γ : Type} (f : α → γ → α) (g : β → List γ) (l : List β) (a : α) :
    l.foldl (fun a b => (g b).foldl f a) a = (l.flatMap g).foldl f a := by
  induction l generalizing a with
  | nil => rfl
  | cons b t ih => rw [List.flatMap_cons, List.foldl_append, ← ih]; rfl

/-- the outcomes of checking a layer, in order -/
def layerOuts (D : GDb) (ord : List GRect → List GRect) (target : Option Nat) : List GOut :=
  (D.rects.filter (fun r => match target with | none => true | some n => r.net == n)).flatMap
    (fun r => (ord (spcWindow D r)).map (checkPair D r))

theorem checkLayer_outs (D : GDb) (ord : List GRect → List GRect) (target : Option Nat) (s : GStore) :
    checkLayer D ord target s = (layerOuts D ord target).foldl stepOut (some s) := by
  unfold checkLayer layerOuts
  rw [← foldl_flat]
  congr 1
  funext s r
  unfold checkRect
  rw [List.foldl_map]

theorem violation_names {D : GDb} {r s : GRect} {m : GMk} (h : Violation D r s m) : NamesOwners D r s m.srcs := by
  obtain ⟨_, ⟨_, _, v⟩ | v | v⟩ := h
  · exact v.2.2.2.2.2.2.2.2
  · exact v.2.2.2.2.2.2.2.2
  · exact v.2.2.2.2.2.2.2.2.2.2.2

theorem names_length {D : GDb} {r s : GRect} {l : List Nat} (h : NamesOwners D r s l) : l.length ≤ 2 ∧ 0 < l.length := by
  have := h.unique (srcPair_names D r s)
  rw [this]
  unfold srcPair
  repeat' split
  all_goals simp

theorem same_sorted {a b : GMk} (ha : a.srcs.Pairwise (· < ·)) (hb : b.srcs.Pairwise (· < ·)) (la : a.srcs.length ≤ 2) (lb : b.srcs.length ≤ 2)
    (l0 : 0 < b.srcs.length) (h : a.Same b) : a = b := by
  obtain ⟨ab, al, ar, as⟩ := a
  obtain ⟨bb, bl, br, bs⟩ := b
  obtain ⟨h1, h2, h3, h4⟩ := h
  simp only at *
  subst h1 h2 h3
  congr 1
  match as, bs, la, lb, l0, h4, ha, hb with
  | [], [y], _, _, _, h4, _, _ => simp at h4
  | [], [y, z], _, _, _, h4, _, _ => simp at h4
  | [x], [y], _, _, _, h4, _, _ => simpa using h4
  | [x], [y, z], _, _, _, h4, _, _ => simp at h4
  | [x, w], [y], _, _, _, h4, _, _ => simp at h4
  | [x, w], [y, z], _, _, _, h4, ha, hb =>
    simp at h4 ha hb ⊢
    omega

/-- C57: checking a layer — for any order in which window queries return — never overflows, and the stored violations are exactly the
violations between rectangles of the layer (of the target net and any other, if there is a target net), each stored once. -/
theorem c57_layer {D : GDb} (hD : D.Ok) (hR : D.RulesOk) {ord : List GRect → List GRect} (hord : ∀ l, (ord l).Perm l) (target : Option Nat) (s : GStore) :
    ∃ st, checkLayer D ord target (clearMarkers s) = some st ∧ st.markers.Nodup ∧
      ∀ m, m ∈ st.markers ↔ ∃ r ∈ D.rects, ∃ t ∈ D.rects, (∀ n, target = some n → r.net = n) ∧ Violation D r t m := by
  have hmem : ∀ o, o ∈ layerOuts D ord target ↔ ∃ r ∈ D.rects, (∀ n, target = some n → r.net = n) ∧ ∃ t ∈ spcWindow D r, checkPair D r t = o := by
    intro o
    unfold layerOuts
    simp only [List.mem_flatMap, List.mem_filter, List.mem_map, (hord _).mem_iff]
    constructor
    · rintro ⟨r, ⟨h1, h2⟩, t, h3, h4⟩
      refine ⟨r, h1, fun n hn => ?_, t, h3, h4⟩
      subst hn
      simpa using h2
    · rintro ⟨r, h1, h2, t, h3, h4⟩
      refine ⟨r, ⟨h1, ?_⟩, t, h3, h4⟩
      cases target with
      | none => rfl
      | some n => simpa using h2 n rfl
  have hwin : ∀ r ∈ D.rects, ∀ t ∈ spcWindow D r, ∃ q, Required D r t q ∧ FitsSpc r t q ∧ t ∈ D.rects := by
    intro r hr t ht
    obtain ⟨q, hq, _⟩ := required_unique hD r t
    exact ⟨q, hq, c41_fits hD hR hr ht hq, (List.mem_filter.1 ht).1⟩
  have hub : GOut.ub ∉ layerOuts D ord target := by
    rw [hmem]
    rintro ⟨r, hr, _, t, ht, h⟩
    obtain ⟨q, hq, hf, htr⟩ := hwin r hr t ht
    exact checkPair_no_ub hD hr htr hq hf h
  have houts : ∀ m, m ∈ outMks (layerOuts D ord target) ↔ ∃ r ∈ D.rects, ∃ t ∈ D.rects, (∀ n, target = some n → r.net = n) ∧ Violation D r t m := by
    intro m
    unfold outMks
    rw [List.mem_filterMap]
    constructor
    · rintro ⟨o, ho, hm⟩
      cases o with
      | ub => simp at hm
      | ok => simp at hm
      | mk m' =>
        simp only [Option.some.injEq] at hm
        subst hm
        obtain ⟨r, hr, htar, t, ht, h⟩ := (hmem _).1 ho
        obtain ⟨q, hq, hf, htr⟩ := hwin r hr t ht
        exact ⟨r, hr, t, htr, htar, (checkPair_iff hD hR.minWidth hr htr hq hf _).1 h⟩
    · rintro ⟨r, hr, t, ht, htar, v⟩
      have hv := violation_visited hD hR hr ht v
      obtain ⟨q, hq, hf, _⟩ := hwin r hr t hv
      exact ⟨.mk m, (hmem _).2 ⟨r, hr, htar, t, hv, (checkPair_iff hD hR.minWidth hr ht hq hf m).2 v⟩, rfl⟩
  refine ⟨_, by rw [checkLayer_outs, stepOut_fold _ _ hub], ?_, ?_⟩
  · have := (c29_store s (outMks (layerOuts D ord target))).1
    exact this.imp (fun {a b} h (he : a = b) => h (he ▸ .refl _))
  · intro m
    obtain ⟨_, h2, h3⟩ := c29_store s (outMks (layerOuts D ord target))
    rw [← houts]
    refine ⟨h2 m, fun hm => ?_⟩
    obtain ⟨n, hn, hs⟩ := h3 m hm
    obtain ⟨r1, _, t1, _, _, v1⟩ := (houts n).1 (h2 n hn)
    obtain ⟨r2, _, t2, _, _, v2⟩ := (houts m).1 hm
    have n1 := violation_names v1
    have n2 := violation_names v2
    have := same_sorted n1.1 n2.1 (names_length n1).1 (names_length n2).1 (names_length n2).2 hs
    rw [← this]
    exact hn

/-! ### symmetry -/

theorem Touches.symm {a b : Box} (h : Touches a b) : Touches b a := by
  obtain ⟨p, h1, h2⟩ := h
  exact ⟨p, h2, h1⟩

theorem Closer.symm {a b : Box} {d : Int} (h : Closer a b d) : Closer b a d := by
  obtain ⟨p, q, h1, h2, h3⟩ := h
  refine ⟨q, p, h2, h1, ?_⟩
  have e1 : (q.x - p.x) * (q.x - p.x) = (p.x - q.x) * (p.x - q.x) := by
    rw [← Int.neg_mul_neg]; congr 1 <;> omega
  have e2 : (q.y - p.y) * (q.y - p.y) = (p.y - q.y) * (p.y - q.y) := by
    rw [← Int.neg_mul_neg]; congr 1 <;> omega
  rw [e1, e2]
  exact h3

theorem sharedX_comm (a b : Box) : sharedX a b = sharedX b a := by unfold sharedX; omega
theorem sharedY_comm (a b : Box) : sharedY a b = sharedY b a := by unfold sharedY; omega
theorem runLen_comm (a b : Box) : runLen a b = runLen b a := by unfold runLen; rw [sharedX_comm, sharedY_comm]

theorem SameNetRule.symm {D : GDb} {r s : GRect} {x : Int} (h : SameNetRule D r s x) : SameNetRule D s r x := by
  obtain ⟨pg, h1, h2, h3, h4⟩ := h
  exact ⟨pg, h1, h2.symm, by rwa [← h2], by rwa [← h2]⟩

theorem Required.symm {D : GDb} {r s : GRect} {q : Int} (h : Required D r s q) : Required D s r q := by
  unfold Required at *
  cases hm : D.layer.minSpc with
  | none => simpa [hm] using h
  | some rule =>
    cases rule with
    | fixed x => simpa [hm] using h
    | tw t => simpa [hm] using h
    | prl t =>
      simp only [hm] at h ⊢
      rcases h with ⟨x, h1, h2⟩ | ⟨h1, h2⟩
      · exact .inl ⟨x, h1.symm, h2⟩
      · refine .inr ⟨fun x hx => h1 x hx.symm, ?_⟩
        rw [runLen_comm, Int.max_comm]
        exact h2

theorem Exposed.symm {D : GDb} {n1 n2 : Nat} {a b m : Box} (h : Exposed (EdgesOf D n1 n2) a b m) : Exposed (EdgesOf D n2 n1) b a m := by
  have he : EdgesOf D n1 n2 = EdgesOf D n2 n1 := by
    funext e
    unfold EdgesOf
    rw [Or.comm]
  rw [he] at h
  unfold Exposed at *
  rw [runLen_comm, sharedX_comm, sharedY_comm]
  exact h

/-- C57: which of the two rectangles is checked first makes no difference -/
theorem c57_symmetric {D : GDb} {r s : GRect} {m : GMk} : Violation D r s m ↔ Violation D s r m := by
  have key : ∀ {r s : GRect}, Violation D r s m → Violation D s r m := by
    rintro r s ⟨hid, ⟨q, hq, v⟩ | v | v⟩
    · obtain ⟨v1, v2, v3, v4, v5, v6, v7, v8, v9⟩ := v
      exact ⟨Ne.symm hid, .inl ⟨q, hq.symm, fun h => v1 h.symm, v2.symm, v3.symm, v4.symm, v5.symm, v6.symm, v7, v8, v9.symm⟩⟩
    · obtain ⟨v1, v2, v3, v4, v5, v6, v7, v8, v9⟩ := v
      exact ⟨Ne.symm hid, .inr (.inl ⟨Ne.symm v1, v2.symm, v3.symm, v4.symm, fun h => v5 (h.elim
        (fun h => .inr ⟨h.2.1, h.1, h.2.2⟩) (fun h => .inl ⟨h.2.1, h.1, h.2.2⟩)), v6.symm, v7, v8, v9.symm⟩)⟩
    · obtain ⟨v1, v2, v3, v4, v5, v6, v7, v8, v9, v10, v11, v12⟩ := v
      refine ⟨Ne.symm hid, .inr (.inr ⟨v1.symm, v2.symm, v3.symm, v4.symm, by rwa [← v1], ?_, v8, v7, ?_, v10, v11, v12.symm⟩)⟩
      · unfold JoinsWell at *
        rw [sharedX_comm, sharedY_comm]
        exact v6
      · rintro ⟨t, h1, h2, h3, h4, h5, h6, h7, h8⟩
        exact v9 ⟨t, h1, h3, h2, by rw [h4, v1], h5, h7, h6, h8⟩
  exact ⟨key, key⟩

/-- C57: checking only the rectangles of a net finds every violation of the full check in which the net takes part -/
theorem c57_target_complete {D : GDb} (hD : D.Ok) (hR : D.RulesOk) {ord : List GRect → List GRect} (hord : ∀ l, (ord l).Perm l) (n : Nat) (s s' : GStore)
    {st st' : GStore} (h1 : checkLayer D ord none (clearMarkers s) = some st) (h2 : checkLayer D ord (some n) (clearMarkers s') = some st') (m : GMk) :
    m ∈ st'.markers ↔ m ∈ st.markers ∧ ∃ r ∈ D.rects, ∃ t ∈ D.rects, (r.net = n ∨ t.net = n) ∧ Violation D r t m := by
  obtain ⟨a, ha, _, ha3⟩ := c57_layer hD hR hord none s
  obtain ⟨b, hb, _, hb3⟩ := c57_layer hD hR hord (some n) s'
  rw [h1] at ha
  rw [h2] at hb
  simp only [Option.some.injEq] at ha hb
  subst ha hb
  rw [ha3, hb3]
  constructor
  · rintro ⟨r, hr, t, ht, hn, v⟩
    exact ⟨⟨r, hr, t, ht, by simp, v⟩, r, hr, t, ht, .inl (hn n rfl), v⟩
  · rintro ⟨_, r, hr, t, ht, h | h, v⟩
    · exact ⟨r, hr, t, ht, by rintro _ ⟨⟩; exact h, v⟩
    · exact ⟨t, ht, r, hr, by rintro _ ⟨⟩; exact h, c57_symmetric.1 v⟩

end TR
