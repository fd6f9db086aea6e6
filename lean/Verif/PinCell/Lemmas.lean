import Verif.PinCell.Spec
import Verif.GCell.Props
import Verif.Guide.Props
namespace TR

/-- the index of a coordinate, by the lines between the GCells -/
theorem idx_lines {p : GCellPat} {dl dh : Int} (hf : AxisFits p dl dh) (c : Int) :
    ∃ i, gcellIdx1 p c = some i ∧ 0 ≤ i ∧ i < p.count ∧ ∀ j, 0 < j → j < p.count → (j ≤ i ↔ p.spacing * j + p.start ≤ c) := by
  obtain ⟨hs, hn, hd, hl, hr⟩ := hf
  have hne : p.spacing ≠ 0 := by omega
  simp only [gcellIdx1, hne, if_false]
  refine ⟨_, rfl, ?_, ?_, ?_⟩
  · repeat' split
    all_goals omega
  · repeat' split
    all_goals omega
  intro j hj0 hj1
  have m0 : p.spacing * 1 ≤ p.spacing * j := Int.mul_le_mul_of_nonneg_left (by omega) (by omega)
  by_cases hpos : 0 ≤ c - p.start
  · rw [Int.tdiv_eq_ediv_of_nonneg hpos]
    have q0 : 0 ≤ (c - p.start) / p.spacing := Int.ediv_nonneg hpos (by omega)
    have q1 : p.spacing * ((c - p.start) / p.spacing) ≤ c - p.start := Int.mul_ediv_self_le hne
    have q2 : c - p.start < p.spacing * ((c - p.start) / p.spacing) + p.spacing := Int.lt_mul_ediv_self_add hs
    generalize hq : (c - p.start) / p.spacing = q at *
    have e1 : (if q < 0 then 0 else q) = q := by split <;> omega
    rw [e1]
    have key : j ≤ q ↔ p.spacing * j + p.start ≤ c := by
      constructor
      · intro h
        have : p.spacing * j ≤ p.spacing * q := Int.mul_le_mul_of_nonneg_left h (by omega)
        omega
      · intro h
        by_cases h' : j ≤ q
        · exact h'
        · have m := mul_succ_le hs (show q < j by omega)
          rw [Int.mul_add, Int.mul_one] at m
          omega
    rw [← key]
    split <;> omega
  · have q0 : (c - p.start).tdiv p.spacing ≤ 0 := by
      have e : (c - p.start).tdiv p.spacing = -((p.start - c).tdiv p.spacing) := by
        rw [← Int.neg_tdiv]; congr 1; omega
      have := Int.tdiv_nonneg (a := p.start - c) (b := p.spacing) (by omega) (by omega)
      omega
    generalize (c - p.start).tdiv p.spacing = q at *
    have e1 : (if q < 0 then 0 else q) = 0 := by split <;> omega
    have hbig : ¬ (0 : Int) ≥ p.count := by omega
    simp only [e1, hbig, if_false]
    omega

/-- the side of a GCell is the line between it and the next -/
theorem span_line {p : GCellPat} {dl dh : Int} {i : Int} (h0 : 0 ≤ i) (h1 : i < p.count) :
    ((i = 0 → (gcellSpan p dl dh i).1 = dl) ∧ (i ≠ 0 → (gcellSpan p dl dh i).1 = p.spacing * i + p.start)) ∧
    ((i = p.count - 1 → (gcellSpan p dl dh i).2 = dh) ∧ (i ≠ p.count - 1 → (gcellSpan p dl dh i).2 = p.spacing * (i + 1) + p.start)) := by
  rw [gcellSpan_in p dl dh i h0 h1]
  refine ⟨⟨fun h => if_pos h, fun h => if_neg h⟩, fun h => if_pos h, fun h => if_neg h⟩

/-- one axis: the GCells from that of `l - 1` to that of `r` are those that meet `[l, r]`; and if `l` begins a GCell, the one before it is
the one that ends at `l` -/
theorem axis_cells {p : GCellPat} {dl dh l r i : Int} (hf : AxisFits p dl dh) (hr : dl ≤ r) (hl : l < dh)
    (h0 : 0 ≤ i) (h1 : i < p.count) :
    ∃ a b t, gcellIdx1 p (l - 1) = some a ∧ gcellIdx1 p r = some b ∧ gcellIdx1 p l = some t ∧ 0 ≤ a ∧ b < p.count ∧
      0 ≤ t ∧ t < p.count ∧ (l ≤ r → a ≤ t ∧ t ≤ b) ∧
      (a ≤ i ∧ i ≤ b ↔ (gcellSpan p dl dh i).1 ≤ r ∧ l ≤ (gcellSpan p dl dh i).2) ∧
      (l = (gcellSpan p dl dh t).1 ∧ i = t - 1 ↔ (gcellSpan p dl dh i).2 = l) := by
  obtain ⟨a, ha, a0, a1, ai⟩ := idx_lines hf (l - 1)
  obtain ⟨b, hb, b0, b1, bi⟩ := idx_lines hf r
  obtain ⟨t, ht, t0, t1, ti⟩ := idx_lines hf l
  refine ⟨a, b, t, ha, hb, ht, a0, b1, t0, t1, fun hlr => ⟨?_, ?_⟩, ?_, ?_⟩
  · by_cases q : a = 0
    · omega
    · exact (ti a (by omega) a1).2 (by have := (ai a (by omega) a1).1 (by omega); omega)
  · by_cases q : t = 0
    · omega
    · exact (bi t (by omega) t1).2 (by have := (ti t (by omega) t1).1 (by omega); omega)
  · obtain ⟨⟨s1, s2⟩, s3, s4⟩ := span_line (p := p) (dl := dl) (dh := dh) h0 h1
    have x1 : i ≤ b ↔ (gcellSpan p dl dh i).1 ≤ r := by
      by_cases q : i = 0
      · rw [s1 q]; omega
      · rw [s2 q]; exact bi i (by omega) h1
    have x2 : a ≤ i ↔ l ≤ (gcellSpan p dl dh i).2 := by
      by_cases q : i = p.count - 1
      · rw [s3 q]; omega
      · rw [s4 q]
        have := ai (i + 1) (by omega) (by omega)
        omega
    rw [x1, x2, and_comm]
  · have key : ∀ {u v : Int}, 0 < u → 0 < v → u < p.count → v < p.count → p.spacing * u + p.start = p.spacing * v + p.start → u = v := by
      intro u v _ _ _ _ h
      rcases Int.lt_trichotomy u v with h' | h' | h'
      · have := mul_succ_le hf.1 h'; rw [Int.mul_add, Int.mul_one] at this; have := hf.1; omega
      · exact h'
      · have := mul_succ_le hf.1 h'; rw [Int.mul_add, Int.mul_one] at this; have := hf.1; omega
    constructor
    · rintro ⟨e1, e2⟩
      obtain ⟨_, s3, s4⟩ := span_line (p := p) (dl := dl) (dh := dh) h0 h1
      obtain ⟨⟨_, s2⟩, _⟩ := span_line (p := p) (dl := dl) (dh := dh) t0 t1
      rw [s4 (by omega), e1, s2 (by omega), e2, show t - 1 + 1 = t by omega]
    · intro e
      obtain ⟨_, s3, s4⟩ := span_line (p := p) (dl := dl) (dh := dh) h0 h1
      by_cases q : i = p.count - 1
      · rw [s3 q] at e; omega
      · rw [s4 q] at e
        have h3 := (ti (i + 1) (by omega) (by omega)).2 (by omega)
        have h4 : ¬ i + 1 < t := by
          intro h
          have := (ti t (by omega) t1).1 (by omega)
          have m := mul_succ_le hf.1 h
          have := hf.1
          rw [Int.mul_add, Int.mul_one] at m
          omega
        have h5 : t = i + 1 := by omega
        obtain ⟨⟨_, s2⟩, _⟩ := span_line (p := p) (dl := dl) (dh := dh) t0 t1
        refine ⟨?_, by omega⟩
        rw [s2 (by omega), h5]; omega

end TR
