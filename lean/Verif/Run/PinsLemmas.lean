import Verif.Run.PinsSpec
import Verif.GCell.Props
import Verif.GC.Lemmas
namespace TR

/-- the index of a coordinate: the last GCell that begins at or before it -/
theorem gcellIdx1_iff {p : GCellPat} {dl dh : Int} (hf : AxisFits p dl dh) {c : Int} (h1 : dl ≤ c) (h2 : c ≤ dh) :
    ∃ i, gcellIdx1 p c = some i ∧ 0 ≤ i ∧ i < p.count ∧ ∀ x, 0 ≤ x → x < p.count → (x ≤ i ↔ (gcellSpan p dl dh x).1 ≤ c) := by
  obtain ⟨i, e, i0, i1, hs⟩ := gcellIdx1_spec hf c
  have hs := hs h1 h2
  refine ⟨i, e, i0, i1, fun x x0 x1 => ⟨fun h => ?_, fun h => ?_⟩⟩
  · have := span_lo_mono hf x0 h i1
    omega
  · apply Decidable.byContradiction
    intro hx
    have hlt : i < x := by omega
    have h3 := (span_sep hf i0 hlt x1)
    -- the quotient would be larger
    have hc : c = (gcellSpan p dl dh i).2 := by omega
    have hx1 : x = i + 1 := by
      apply Decidable.byContradiction
      intro hn
      have h4 := span_sep hf (i := i + 1) (j := x) (by omega) (by omega) x1
      have h5 := span_lt hf (i := i + 1) (j := i + 1) (by omega) (Int.le_refl _) (by omega)
      have h6 := (span_sep hf (i := i) (j := i + 1) (by omega) (by omega) (by omega)).2.2
      omega
    subst hx1
    obtain ⟨hsp, hn, hd, hl, hr⟩ := hf
    rw [h3.1] at hc
    have hne : p.spacing ≠ 0 := by omega
    have hcs : c - p.start = p.spacing * (i + 1) := by omega
    have hdiv : (c - p.start).tdiv p.spacing = i + 1 := by
      rw [hcs]; exact Int.mul_tdiv_cancel_left _ hne
    unfold gcellIdx1 at e
    rw [if_neg hne, hdiv] at e
    simp only [Option.some.injEq] at e
    split at e <;> split at e <;> omega

/-- one axis: the lines at which a wire from `b` to `e` has pins in the GCells from `i` on -/
def AxisPin (p : GCellPat) (dl dh b e : Int) (x c : Int) : Prop :=
  ∃ x1 x2, gcellIdx1 p b = some x1 ∧ gcellIdx1 p e = some x2 ∧ x1 ≤ x ∧ x ≤ x2 ∧
    (c = (gcellSpan p dl dh x).1 ∧ b < c ∨ c = (gcellSpan p dl dh x).2 ∧ c ≤ e)

def AxisLine (p : GCellPat) (dl dh c : Int) : Prop := ∃ k, 0 ≤ k ∧ k < p.count ∧ (c = (gcellSpan p dl dh k).1 ∨ c = (gcellSpan p dl dh k).2)

theorem span_next {p : GCellPat} {dl dh : Int} (hf : AxisFits p dl dh) {i : Int} (h0 : 0 ≤ i) (h1 : i + 1 < p.count) :
    (gcellSpan p dl dh i).2 = (gcellSpan p dl dh (i + 1)).1 := by
  have := span_sep hf h0 (show i < i + 1 by omega) h1
  omega

theorem span_last {p : GCellPat} {dl dh : Int} (hf : AxisFits p dl dh) : (gcellSpan p dl dh (p.count - 1)).2 = dh := by
  have := hf.2.1
  rw [gcellSpan_in p dl dh (p.count - 1) (by omega) (by omega)]
  simp

theorem span_first {p : GCellPat} {dl dh : Int} (hf : AxisFits p dl dh) : (gcellSpan p dl dh 0).1 = dl := by
  have := hf.2.1
  rw [gcellSpan_in p dl dh 0 (by omega) (by omega)]
  simp

theorem span_lo_strict {p : GCellPat} {dl dh : Int} (hf : AxisFits p dl dh) {i j : Int} (h0 : 0 ≤ i) (hij : i < j) (h1 : j < p.count) :
    (gcellSpan p dl dh i).1 < (gcellSpan p dl dh j).1 := by
  have := span_lt hf h0 (Int.le_refl i) (by omega)
  have := (span_sep hf h0 hij h1).2.2
  omega

theorem axis_pins {p : GCellPat} {dl dh : Int} (hf : AxisFits p dl dh) {b e : Int} (h1 : dl ≤ b) (h2 : b < e) (h3 : e ≤ dh) {i clip : Int}
    (hc : 0 < clip) (hi : 0 ≤ i) (hi' : i < p.count) (c : Int) :
    (∃ x, i ≤ x ∧ x < min p.count (i + clip) ∧ AxisPin p dl dh b e x c) ↔
      b < c ∧ c ≤ e ∧ (axisRoute p dl dh clip i).1 ≤ c ∧ c ≤ (axisRoute p dl dh clip i).2 ∧ AxisLine p dl dh c := by
  obtain ⟨x1, ex1, x10, x11, s1⟩ := gcellIdx1_iff hf h1 (by omega)
  obtain ⟨x2, ex2, x20, x21, s2⟩ := gcellIdx1_iff hf (c := e) (by omega) h3
  have m0 : max 0 i = i := by omega
  unfold axisRoute
  rw [m0]
  constructor
  · rintro ⟨x, hx1, hx2, x1', x2', e1, e2, hl, hr, hcase⟩
    rw [ex1] at e1; rw [ex2] at e2
    cases e1; cases e2
    have a1 := span_lo_mono hf (i := i) (j := x) hi hx1 (by omega)
    have a2 := span_hi_mono hf (i := x) (j := min (p.count - 1) (i + clip - 1)) (by omega) (by omega) (by omega)
    have a3 := span_lt hf (i := x) (j := x) (by omega) (Int.le_refl _) (by omega)
    have a4 := (s2 x (by omega) (by omega)).1 hr
    rcases hcase with ⟨rfl, hb⟩ | ⟨rfl, he⟩
    · exact ⟨hb, a4, a1, by omega, x, by omega, by omega, .inl rfl⟩
    · refine ⟨?_, he, by omega, a2, x, by omega, by omega, .inr rfl⟩
      by_cases hlast : x + 1 < p.count
      · rw [span_next hf (by omega) hlast]
        apply Int.lt_of_not_ge
        intro hge
        have := (s1 (x + 1) (by omega) hlast).2 hge
        omega
      · have : x = p.count - 1 := by omega
        rw [this, span_last hf]
        omega
  · rintro ⟨hb, he, hl, hr, k, k0, k1, hk⟩
    -- reduce to the left border of a GCell, or the edge of the die
    have hform : (∃ x, 0 ≤ x ∧ x < p.count ∧ c = (gcellSpan p dl dh x).1) ∨ c = (gcellSpan p dl dh (p.count - 1)).2 := by
      rcases hk with h | h
      · exact .inl ⟨k, k0, k1, h⟩
      · by_cases hlast : k + 1 < p.count
        · exact .inl ⟨k + 1, by omega, hlast, by rw [h, span_next hf k0 hlast]⟩
        · right
          have : k = p.count - 1 := by omega
          rw [← this]; exact h
    rcases hform with ⟨x, x0, xc, hx⟩ | hx
    · have hxi : i ≤ x := by
        apply Int.le_of_not_gt
        intro hlt
        have := span_lo_strict hf x0 hlt hi'
        omega
      have hx1x : x1 < x := by
        apply Int.lt_of_not_ge
        intro hge
        have := (s1 x x0 xc).1 hge
        omega
      have hxx2 : x ≤ x2 := (s2 x x0 xc).2 (by omega)
      by_cases hin : x < i + clip
      · exact ⟨x, hxi, by omega, x1, x2, ex1, ex2, by omega, hxx2, .inl ⟨hx, hb⟩⟩
      · -- the right border of the last GCell of the region
        have hle : x = i + clip := by
          apply Int.le_antisymm
          · apply Int.le_of_not_gt
            intro hlt
            have e1 : min (p.count - 1) (i + clip - 1) = i + clip - 1 := by omega
            rw [e1] at hr
            have := (span_sep hf (i := i + clip - 1) (j := i + clip) (by omega) (by omega) (by omega)).2.2
            have := span_lo_strict hf (i := i + clip) (j := x) (by omega) hlt xc
            have := span_next hf (i := i + clip - 1) (by omega) (by omega)
            have e2 : i + clip - 1 + 1 = i + clip := by omega
            rw [e2] at this
            omega
          · omega
        refine ⟨x - 1, by omega, by omega, x1, x2, ex1, ex2, by omega, by omega, .inr ⟨?_, he⟩⟩
        have := span_next hf (i := x - 1) (by omega) (by omega)
        rw [this]
        have e2 : x - 1 + 1 = x := by omega
        rw [e2]; exact hx
    · rw [span_last hf] at hx
      have hlast : p.count - 1 < i + clip := by
        apply Int.lt_of_not_ge
        intro hge
        have e1 : min (p.count - 1) (i + clip - 1) = i + clip - 1 := by omega
        rw [e1] at hr
        have h6 := span_next hf (i := i + clip - 1) (by omega) (by omega)
        have h7 := span_lt hf (i := i + clip - 1 + 1) (j := p.count - 1) (by omega) (by omega) (by omega)
        rw [span_last hf] at h7
        omega
      refine ⟨p.count - 1, by omega, by omega, x1, x2, ex1, ex2, by omega, ?_, .inr ⟨by rw [span_last hf]; exact hx, he⟩⟩
      apply (s2 (p.count - 1) (by omega) (by omega)).2
      have := span_lt hf (i := p.count - 1) (j := p.count - 1) (by omega) (Int.le_refl _) (by omega)
      rw [span_last hf] at this
      omega

/-- one axis: the GCell of a coordinate is in a region exactly if the region owns the coordinate -/
theorem axis_owns {p : GCellPat} {dl dh : Int} (hf : AxisFits p dl dh) {c : Int} (h1 : dl ≤ c) (h2 : c ≤ dh) {i clip : Int}
    (hc : 0 < clip) (hi : 0 ≤ i) (hi' : i < p.count) :
    (∃ x, gcellIdx1 p c = some x ∧ i ≤ x ∧ x < min p.count (i + clip)) ↔
      (axisRoute p dl dh clip i).1 ≤ c ∧ (c < (axisRoute p dl dh clip i).2 ∨ c = (axisRoute p dl dh clip i).2 ∧ (axisRoute p dl dh clip i).2 = dh) := by
  obtain ⟨x, ex, x0, xc, s⟩ := gcellIdx1_iff hf h1 h2
  have m0 : max 0 i = i := by omega
  unfold axisRoute
  rw [m0, ex]
  simp only [Option.some.injEq, exists_eq_left']
  by_cases hlast : p.count ≤ i + clip
  · have e1 : min (p.count - 1) (i + clip - 1) = p.count - 1 := by omega
    simp only [e1, span_last hf, and_true]
    rw [s i hi hi']
    omega
  · have e1 : min (p.count - 1) (i + clip - 1) = i + clip - 1 := by omega
    have h4 := span_next hf (i := i + clip - 1) (by omega) (by omega)
    have e2 : i + clip - 1 + 1 = i + clip := by omega
    rw [e2] at h4
    have h5 := s (i + clip) (by omega) (by omega)
    have h6 := span_lt hf (i := i + clip) (j := p.count - 1) (by omega) (by omega) (by omega)
    rw [span_last hf] at h6
    simp only [e1, h4]
    rw [s i hi hi']
    omega

theorem mem_cellPins {g : GGrid} {ws : List TWire} {pins : List CellPin} (h : cellPins g ws = some pins) (q : CellPin) :
    q ∈ pins ↔ ∃ w ∈ ws, ∃ l, wirePins g w = some l ∧ (q.cell, q.pt) ∈ l ∧ q.net = w.net ∧ q.layer = w.layer := by
  induction ws generalizing pins with
  | nil =>
    simp only [cellPins, Option.some.injEq] at h
    subst h; simp
  | cons w rest ih =>
    unfold cellPins at h
    split at h
    · cases h
    · rename_i l hl
      split at h
      · cases h
      · rename_i r hr
        simp only [Option.some.injEq] at h
        subst h
        simp only [List.mem_append, List.mem_map, ih hr, List.mem_cons, exists_eq_or_imp]
        apply or_congr _ Iff.rfl
        constructor
        · rintro ⟨a, ha, rfl⟩; exact ⟨l, hl, ha, rfl, rfl⟩
        · rintro ⟨l', hl', hm, h1, h2⟩
          rw [hl] at hl'; cases hl'
          exact ⟨_, hm, by cases q; simp_all⟩

/-- the pins exist: no undefined behaviour on a grid that fits -/
theorem cellPins_some {g : GGrid} (hf : g.Fits) (ws : List TWire) : ∃ pins, cellPins g ws = some pins := by
  have hidx : ∀ pt, ∃ i, g.idx pt = some i := by
    intro pt
    obtain ⟨a, ha, _⟩ := gcellIdx1_spec hf.1 pt.x
    obtain ⟨b, hb, _⟩ := gcellIdx1_spec hf.2 pt.y
    exact ⟨⟨a, b⟩, by simp [GGrid.idx, ha, hb]⟩
  induction ws with
  | nil => exact ⟨[], rfl⟩
  | cons w rest ih =>
    obtain ⟨r, hr⟩ := ih
    obtain ⟨i1, h1⟩ := hidx w.b
    obtain ⟨i2, h2⟩ := hidx w.e
    have : ∃ l, wirePins g w = some l := by
      unfold wirePins
      rw [h1, h2]
      dsimp only
      repeat' split
      all_goals exact ⟨_, rfl⟩
    obtain ⟨l, hl⟩ := this
    exact ⟨_, by unfold cellPins; rw [hl]; dsimp only; rw [hr]⟩

theorem mem_mergePins {g : GGrid} {pins : List CellPin} {i j size : Int} {rb : Box} {net : Nat} {p : Point} {l : Nat} :
    (p, l) ∈ mergePins g pins i j size rb net ↔
      (∃ x y, i ≤ x ∧ x < min g.xp.count (i + size) ∧ j ≤ y ∧ y < min g.yp.count (j + size) ∧ (⟨⟨x, y⟩, net, p, l⟩ : CellPin) ∈ pins) ∧
      (p.x = rb.left ∨ p.x = rb.right ∨ p.y = rb.bottom ∨ p.y = rb.top) := by
  unfold mergePins
  simp only [List.mem_flatMap, mem_intsFrom, List.mem_map, List.mem_filter, Bool.and_eq_true, Bool.or_eq_true, decide_eq_true_eq]
  constructor
  · rintro ⟨x, hx, y, hy, q, ⟨⟨hq, h1, h2⟩, hb⟩, heq⟩
    obtain ⟨c, n, pt, la⟩ := q
    simp only [Prod.mk.injEq] at heq h1 h2 hb
    obtain ⟨rfl, rfl⟩ := heq
    subst h1 h2
    exact ⟨⟨x, y, hx.1, hx.2, hy.1, hy.2, hq⟩, by omega⟩
  · rintro ⟨⟨x, y, a, b, c, d, hq⟩, hb⟩
    exact ⟨x, ⟨a, b⟩, y, ⟨c, d⟩, _, ⟨⟨hq, rfl, rfl⟩, by dsimp only; omega⟩, rfl⟩

end TR
