import Verif.Tech.Spec
import Verif.Guide.IvLemmas
/-! # C37–C39, C53–C55: spacing tables and forbidden lengths -/
namespace TR

theorem getD_of_getElem? {l : List Int} {j : Nat} {k : Int} (h : l[j]? = some k) : j < l.length ∧ l.getD j 0 = k := by
  obtain ⟨h1, h2⟩ := List.getElem?_eq_some_iff.1 h
  exact ⟨h1, by rw [List.getD_eq_getElem?_getD, h]; rfl⟩

theorem keyFor_of_idx {keys : List Int} (hs : StrictInc keys) (hne : keys ≠ []) (v : Int) {i : Nat}
    (hi : i = lowerBound keys v - 1) : KeyFor keys v i := by
  obtain ⟨h1, h2⟩ := lowerBound_spec hs.le v
  have hpos : 0 < keys.length := List.length_pos_iff.2 hne
  refine ⟨by omega, ?_, ?_⟩
  · intro j k hk hkv
    obtain ⟨q1, q2⟩ := getD_of_getElem? hk
    have := (h2 j q1).1 (by omega)
    omega
  · by_cases hz : lowerBound keys v = 0
    · right; omega
    · left
      have hlt : i < keys.length := by omega
      refine ⟨keys[i], List.getElem?_eq_getElem hlt, ?_⟩
      have := (h2 i hlt).2 (by omega)
      rwa [List.getD_eq_getElem?_getD, List.getElem?_eq_getElem hlt] at this

theorem keyFor_unique {keys : List Int} {v : Int} {i j : Nat} (hs : StrictInc keys) (h1 : KeyFor keys v i) (h2 : KeyFor keys v j) : i = j := by
  obtain ⟨a1, a2, a3⟩ := h1
  obtain ⟨b1, b2, b3⟩ := h2
  have key : ∀ {i j : Nat}, (∀ j k, keys[j]? = some k → k < v → j ≤ i) → ((∃ k, keys[j]? = some k ∧ k < v) ∨ j = 0) → j ≤ i := by
    intro i j h h'
    rcases h' with ⟨k, hk, hkv⟩ | rfl
    · exact h j k hk hkv
    · exact Nat.zero_le _
  have e1 := key a2 b3
  have e2 := key b2 a3
  omega

/-- C37: the row (column) index of a two-dimensional table is the position of the largest key strictly
below the query, the first one if there is none; it is inside the table. -/
theorem c37_lookup2 {keys : List Int} (hs : StrictInc keys) (hne : keys ≠ []) (v : Int) : KeyFor keys v (tbl2Idx keys v) :=
  keyFor_of_idx hs hne v (by unfold tbl2Idx; omega)

/-- C37: the iterator arithmetic of this lookup is defined exactly if the query is above the first key -/
theorem c37_decrement_defined {keys : List Int} (hs : StrictInc keys) {k : Int} (hk : keys[0]? = some k) (v : Int) :
    decDefined keys v ↔ k < v := by
  obtain ⟨_, h2⟩ := lowerBound_spec hs.le v
  obtain ⟨q1, q2⟩ := getD_of_getElem? hk
  have := h2 0 q1
  unfold decDefined
  rw [q2] at this
  exact this.symm

/-- C37: the one-dimensional table uses the same rule -/
theorem c37_lookup1 {keys : List Int} (hs : StrictInc keys) (hne : keys ≠ []) (v : Int) : KeyFor keys v (tbl1Idx keys v) := by
  obtain ⟨h1, h2⟩ := lowerBound_spec hs.le v
  have hpos : 0 < keys.length := List.length_pos_iff.2 hne
  have hh : keys.headD 0 = keys.getD 0 0 := by cases keys with | nil => rfl | cons a r => rfl
  have hl : keys.getLastD 0 = keys.getD (keys.length - 1) 0 := by
    rw [List.getD_eq_getElem?_getD, List.getLastD_eq_getLast?, List.getLast?_eq_getElem?]
  apply keyFor_of_idx hs hne v
  unfold tbl1Idx
  simp only
  split
  · split <;> omega
  · split
    · rename_i hc
      have := h2 0 hpos
      rw [hh] at hc
      omega
    · rename_i hr hc
      have := (h2 (keys.length - 1) (by omega)).1 (by omega)
      omega

theorem tbl2_find_some {t : Tbl2} (h : t.Ok) (r c : Int) : ∃ (l : List Int) (x : Int), t.vals[tbl2Idx t.rows r]? = some l ∧
    l[tbl2Idx t.cols c]? = some x ∧ t.find r c = some x := by
  have h1 := (c37_lookup2 h.rows h.rne r).1
  have h2 := (c37_lookup2 h.cols h.cne c).1
  have hl : tbl2Idx t.rows r < t.vals.length := by rw [h.nrow]; exact h1
  have hm : t.vals[tbl2Idx t.rows r] ∈ t.vals := List.getElem_mem hl
  have hc : tbl2Idx t.cols c < t.vals[tbl2Idx t.rows r].length := by rw [h.ncol _ hm]; exact h2
  refine ⟨t.vals[tbl2Idx t.rows r], t.vals[tbl2Idx t.rows r][tbl2Idx t.cols c], List.getElem?_eq_getElem hl,
    List.getElem?_eq_getElem hc, ?_⟩
  unfold Tbl2.find
  rw [List.getElem?_eq_getElem hl]
  exact List.getElem?_eq_getElem hc

/-- C37: a lookup in a table always yields the entry of the row and column for the queries -/
theorem c37_find {t : Tbl2} (h : t.Ok) (r c : Int) : ∃ (i j : Nat) (l : List Int) (x : Int), KeyFor t.rows r i ∧ KeyFor t.cols c j ∧
    t.vals[i]? = some l ∧ l[j]? = some x ∧ t.find r c = some x := by
  obtain ⟨l, x, h1, h2, h3⟩ := tbl2_find_some h r c
  exact ⟨_, _, l, x, c37_lookup2 h.rows h.rne r, c37_lookup2 h.cols h.cne c, h1, h2, h3⟩

theorem tbl2Idx_mono {keys : List Int} (hs : StrictInc keys) (hne : keys ≠ []) {v w : Int} (h : v ≤ w) : tbl2Idx keys v ≤ tbl2Idx keys w := by
  rcases (c37_lookup2 hs hne v).2.2 with ⟨k, hk, hkv⟩ | h0
  · exact (c37_lookup2 hs hne w).2.1 _ k hk (by omega)
  · omega

/-- C37: lookups in a monotone table are monotone -/
theorem c37_find_mono {t : Tbl2} (h : t.Ok) (hm : t.Mono) {r r' c c' x x' : Int} (hr : r ≤ r') (hc : c ≤ c')
    (h1 : t.find r c = some x) (h2 : t.find r' c' = some x') : x ≤ x' := by
  obtain ⟨l, y, a1, a2, a3⟩ := tbl2_find_some h r c
  obtain ⟨l', y', b1, b2, b3⟩ := tbl2_find_some h r' c'
  rw [h1] at a3; rw [h2] at b3
  simp only [Option.some.injEq] at a3 b3
  subst a3 b3
  exact hm _ _ _ _ _ _ _ _ (tbl2Idx_mono h.rows h.rne hr) (tbl2Idx_mono h.cols h.cne hc) a1 a2 b1 b2

/-- C37: `findMin` and `findMax` bound every lookup in a monotone table -/
theorem c37_find_bounds {t : Tbl2} (h : t.Ok) (hm : t.Mono) {r c x : Int} (h1 : t.find r c = some x) :
    t.findMin ≤ x ∧ x ≤ t.findMax := by
  obtain ⟨l, y, a1, a2, a3⟩ := tbl2_find_some h r c
  rw [h1] at a3
  simp only [Option.some.injEq] at a3
  subst a3
  obtain ⟨hi, _⟩ := List.getElem?_eq_some_iff.1 a1
  obtain ⟨hj, _⟩ := List.getElem?_eq_some_iff.1 a2
  have hlm : l ∈ t.vals := List.mem_of_getElem? a1
  have hlen := h.ncol l hlm
  have hc0 : 0 < t.cols.length := List.length_pos_iff.2 h.cne
  constructor
  · have hl0 : t.vals[0]? = some t.vals[0] := List.getElem?_eq_getElem (by omega)
    have hn0 : t.vals[0].length = t.cols.length := h.ncol _ (List.getElem_mem (by omega))
    have hx0 : t.vals[0][0]? = some (t.vals[0][0]'(by omega)) := List.getElem?_eq_getElem (by omega)
    have := hm _ _ _ _ _ _ _ _ (Nat.zero_le _) (Nat.zero_le _) hl0 hx0 a1 a2
    have e : t.findMin = t.vals[0][0]'(by omega) := by
      unfold Tbl2.findMin
      rw [List.headD_eq_head?_getD, List.headD_eq_head?_getD, List.head?_eq_getElem?, List.head?_eq_getElem?, hl0]
      show (t.vals[0][0]?).getD 0 = _
      rw [hx0]; rfl
    rw [e]; exact this
  · have hll : t.vals[t.vals.length - 1]? = some (t.vals[t.vals.length - 1]'(by omega)) := List.getElem?_eq_getElem (by omega)
    have hnl : (t.vals[t.vals.length - 1]'(by omega)).length = t.cols.length := h.ncol _ (List.getElem_mem (by omega))
    have hxl : (t.vals[t.vals.length - 1]'(by omega))[(t.vals[t.vals.length - 1]'(by omega)).length - 1]? =
        some ((t.vals[t.vals.length - 1]'(by omega))[(t.vals[t.vals.length - 1]'(by omega)).length - 1]'(by omega)) := List.getElem?_eq_getElem (by omega)
    have := hm _ _ _ _ _ _ _ _ (by omega) (by omega) a1 a2 hll hxl
    have e : t.findMax = (t.vals[t.vals.length - 1]'(by omega))[(t.vals[t.vals.length - 1]'(by omega)).length - 1]'(by omega) := by
      unfold Tbl2.findMax
      rw [List.getLastD_eq_getLast?, List.getLastD_eq_getLast?, List.getLast?_eq_getElem?, List.getLast?_eq_getElem?, hll]
      show ((t.vals[t.vals.length - 1]'(by omega))[(t.vals[t.vals.length - 1]'(by omega)).length - 1]?).getD 0 = _
      rw [hxl]; rfl
    rw [e]; exact this

/-- widths 0, 200, 400; run lengths 0, 300 -/
def techDemoTbl : Tbl2 := ⟨[0, 200, 400], [0, 300], [[100, 100], [100, 140], [100, 200]]⟩
example : techDemoTbl.Ok := ⟨by simp [techDemoTbl, StrictInc], by simp [techDemoTbl, StrictInc], by simp [techDemoTbl], by simp [techDemoTbl], rfl, by simp [techDemoTbl]⟩
example : techDemoTbl.find 200 300 = some 100 ∧ techDemoTbl.find 201 301 = some 140 ∧ techDemoTbl.find 500 (-5) = some 100 := by decide
example : tbl1Idx [0, 200, 400] 200 = 0 ∧ tbl1Idx [0, 200, 400] 201 = 1 ∧ tbl1Idx [0, 200, 400] 900 = 2 := by decide

/-! ### two-width rows -/

/-- C38 is false: the order is not even asymmetric. -/
theorem c38_order_not_asymmetric : ∃ a b : TwRow, a.lt b = true ∧ b.lt a = true := ⟨⟨1, 5⟩, ⟨5, 1⟩, by decide, by decide⟩

/-- the rows below a query come first if widths and run lengths are sorted -/
theorem tw_partitioned {rows : List TwRow} (hs : TwSorted rows) (q : TwRow) (j : Nat) (r : TwRow) (hr : rows[j]? = some r) :
    r.lt q = true ↔ j < twLower rows q := by
  induction rows generalizing j with
  | nil => simp at hr
  | cons a l ih =>
    have hs' := List.pairwise_cons.1 hs
    unfold twLower
    rw [List.takeWhile_cons]
    by_cases ha : a.lt q = true
    · rw [if_pos ha]
      cases j with
      | zero => simp only [List.getElem?_cons_zero, Option.some.injEq] at hr; subst hr; simp [ha]
      | succ j =>
        simp only [List.getElem?_cons_succ] at hr
        have := ih hs'.2 j hr
        unfold twLower at this
        rw [this]
        simp only [List.length_cons]
        omega
    · rw [if_neg ha]
      constructor
      · intro hrq
        exfalso
        apply ha
        cases j with
        | zero => simp only [List.getElem?_cons_zero, Option.some.injEq] at hr; subst hr; exact hrq
        | succ j =>
          simp only [List.getElem?_cons_succ] at hr
          obtain ⟨h1, h2⟩ := hs'.1 r (List.mem_of_getElem? hr)
          simp only [TwRow.lt, Bool.or_eq_true, decide_eq_true_eq] at hrq ⊢
          omega
      · simp

/-- C38, what holds: on tables whose widths and run lengths are sorted the search is well defined (the
rows below the query come first), and the row found is never before a row that applies, so that with
entries growing along the rows the spacing is never too small. Missing: the order is not a strict weak
order, and the row found need not apply (`c38_row_too_wide`). -/
theorem c38_sorted_rows_partial {rows : List TwRow} (hs : TwSorted rows) (w p : Int) :
    (∀ (j j' : Nat) (r r' : TwRow), j ≤ j' → rows[j]? = some r → rows[j']? = some r' → r'.lt ⟨w, p⟩ = true → r.lt ⟨w, p⟩ = true) ∧
    (∀ (j : Nat) (r : TwRow), rows[j]? = some r → r.Applies w p → j ≤ twIdx rows ⟨w, p⟩) ∧
    (rows ≠ [] → twIdx rows ⟨w, p⟩ < rows.length) := by
  refine ⟨?_, ?_, ?_⟩
  · intro j j' r r' hj h1 h2 h3
    have a := (tw_partitioned hs ⟨w, p⟩ j' r' h2).1 h3
    exact (tw_partitioned hs ⟨w, p⟩ j r h1).2 (by omega)
  · intro j r h1 h2
    have : r.lt ⟨w, p⟩ = true := by simp only [TwRow.lt, Bool.or_eq_true, decide_eq_true_eq]; exact .inl h2.1
    have := (tw_partitioned hs ⟨w, p⟩ j r h1).1 this
    unfold twIdx
    omega
  · intro hne
    have hpos : 0 < rows.length := List.length_pos_iff.2 hne
    have : twLower rows ⟨w, p⟩ ≤ rows.length := (List.takeWhile_sublist (fun r : TwRow => r.lt ⟨w, p⟩)).length_le
    unfold twIdx
    omega

/-- C38: the row found may be one for much wider shapes. Rows for widths 0, 200 and 400, no run lengths given
(stored as -100, the negative of the first spacing): for a shape of width 100 the row for width 400 is used. -/
theorem c38_row_too_wide : TwSorted [⟨0, -100⟩, ⟨200, -100⟩, ⟨400, -100⟩] ∧
    twIdx [⟨0, -100⟩, ⟨200, -100⟩, ⟨400, -100⟩] ⟨100, 0⟩ = 2 ∧ ¬ (TwRow.Applies ⟨400, -100⟩ 100 0) := by
  refine ⟨by simp [TwSorted], by decide, ?_⟩
  unfold TwRow.Applies; simp

/-! ### addressing -/

/-- C39: different combinations have different entries, all inside the table -/
theorem c39_entries : (∀ a b, entry2 a b < 4) ∧ (∀ a b c, entry3 a b c < 8) ∧
    (∀ a b a' b', entry2 a b = entry2 a' b' → a = a' ∧ b = b') ∧
    (∀ a b c a' b' c', entry3 a b c = entry3 a' b' c' → a = a' ∧ b = b' ∧ c = c') := by decide

/-- C39: a length is forbidden iff it lies in one of the stored closed intervals -/
theorem c39_included (ivs : List (Int × Int)) (len : Int) : isIncluded ivs len = true ↔ InRanges ivs len := by
  unfold isIncluded InRanges
  rw [List.any_eq_true]
  simp

/-- C39: a query after preparation uses the ranges computed for just this previous via, this via and this
direction. -/
theorem c39_via2via_query (T : RTech) (l : Int) (down up : Option RVia) (prevDown currDown dirX : Bool) (len : Int) :
    isVia2Via (v2vTable T l down up) prevDown currDown dirX len =
      some (isIncluded (storeRanges (v2vRanges T l (if prevDown then down else up) (if currDown then down else up) dirX)) len) := by
  cases prevDown <;> cases currDown <;> cases dirX <;> rfl

theorem c39_turn_query (T : RTech) (l : Int) (down up : Option RVia) (isDown dirX : Bool) (len : Int) :
    isViaTurn (turnTable T l down up) isDown dirX len = some (isIncluded (storeRanges (turnRanges T l (if isDown then down else up) dirX)) len) := by
  cases isDown <;> cases dirX <;> rfl

theorem c39_line_query (T : RTech) (l : Int) (zShape dirX : Bool) (len : Int) :
    isLine2Line (lineTable T l) zShape dirX len = some (isIncluded (storeRanges (lineRanges T l zShape)) len) := by
  cases zShape <;> cases dirX <;> rfl

/-! ### merging of ranges -/

theorem fold_ranges (rs : List (Int × Int)) : ∀ (s : IvSet), Separated s →
    Separated (rs.foldl (fun (s : IvSet) r => if r.1 ≤ r.2 then ivIns r.1 r.2 s else s) s) ∧
    ∀ x, (∃ i ∈ rs.foldl (fun (s : IvSet) r => if r.1 ≤ r.2 then ivIns r.1 r.2 s else s) s, i.1 ≤ x ∧ x ≤ i.2) ↔
      InRanges rs x ∨ ∃ i ∈ s, i.1 ≤ x ∧ x ≤ i.2 := by
  induction rs with
  | nil => intro s hs; exact ⟨hs, fun x => by simp [InRanges]⟩
  | cons r t ih =>
    intro s hs
    have hsep : Separated (if r.1 ≤ r.2 then ivIns r.1 r.2 s else s) := by
      split
      · exact ivIns_sep s r.1 r.2 (by assumption) hs
      · exact hs
    obtain ⟨h1, h2⟩ := ih _ hsep
    refine ⟨h1, fun x => ?_⟩
    rw [List.foldl_cons, h2 x, ivIns_has_if s r.1 r.2 hs x]
    unfold InRanges
    simp only [List.mem_cons, exists_eq_or_imp]
    constructor
    · rintro (h | h | h)
      · exact .inl (.inr h)
      · exact .inl (.inl h)
      · exact .inr h
    · rintro ((h | h) | h)
      · exact .inr (.inl h)
      · exact .inl h
      · exact .inr (.inr h)

theorem pairwise_gap {S : IvSet} (h : S.Pairwise (fun i j => i.2 + 1 < j.1)) : ∀ i ∈ S, ∀ j ∈ S, i ≠ j → i.2 + 1 < j.1 ∨ j.2 + 1 < i.1 := by
  induction S with
  | nil => simp
  | cons a r ih =>
    obtain ⟨h1, h2⟩ := List.pairwise_cons.1 h
    intro i hi j hj hij
    rcases List.mem_cons.1 hi with rfl | hi' <;> rcases List.mem_cons.1 hj with rfl | hj'
    · exact absurd rfl hij
    · exact .inl (h1 j (by assumption))
    · exact .inr (h1 i (by assumption))
    · exact ih h2 i hi' j hj' hij

/-- C53: a length is forbidden exactly if it and both its neighbours lie in ranges of the rules -/
theorem c53_forbidden_iff (rs : List (Int × Int)) (len : Int) :
    isIncluded (storeRanges rs) len = true ↔ InRanges rs (len - 1) ∧ InRanges rs len ∧ InRanges rs (len + 1) := by
  obtain ⟨hsep, hcov⟩ := fold_ranges rs [] ⟨List.Pairwise.nil, by simp⟩
  rw [c39_included]
  generalize hS : rs.foldl (fun (s : IvSet) r => if r.1 ≤ r.2 then ivIns r.1 r.2 s else s) [] = S at hsep hcov
  have hcov' : ∀ x, InRanges rs x ↔ ∃ i ∈ S, i.1 ≤ x ∧ x ≤ i.2 := by
    intro x; rw [hcov x]; simp
  rw [hcov', hcov', hcov']
  unfold storeRanges InRanges
  rw [hS]
  constructor
  · rintro ⟨r, hr, h1, h2⟩
    obtain ⟨i, hi, rfl⟩ := List.mem_map.1 hr
    simp only at h1 h2
    exact ⟨⟨i, hi, by omega, by omega⟩, ⟨i, hi, by omega, by omega⟩, ⟨i, hi, by omega, by omega⟩⟩
  · rintro ⟨⟨i, hi, a1, a2⟩, ⟨j, hj, b1, b2⟩, ⟨k, hk, c1, c2⟩⟩
    -- neighbouring integers lie in the same interval
    have same : ∀ (i j : Int × Int) (x : Int), i ∈ S → j ∈ S → i.1 ≤ x → x ≤ i.2 → j.1 ≤ x + 1 → x + 1 ≤ j.2 → i = j := by
      intro i j x hi hj h1 h2 h3 h4
      have hp := hsep.1
      by_cases hij : i = j
      · exact hij
      · exfalso
        have := pairwise_gap hp i hi j hj hij
        omega
    have e1 := same i j (len - 1) hi hj (by omega) (by omega) (by omega) (by omega)
    have e2 := same j k len hj hk b1 b2 c1 c2
    subst e1 e2
    exact ⟨(i.1 + 1, i.2 - 1), List.mem_map.2 ⟨i, hi, rfl⟩, by simp only; omega, by simp only; omega⟩

/-- C53: every length strictly inside a range of a rule is forbidden -/
theorem c53_inside_forbidden {rs : List (Int × Int)} {r : Int × Int} (hr : r ∈ rs) {len : Int} (h1 : r.1 < len) (h2 : len < r.2) :
    isIncluded (storeRanges rs) len = true :=
  (c53_forbidden_iff rs len).2 ⟨⟨r, hr, by omega, by omega⟩, ⟨r, hr, by omega, by omega⟩, ⟨r, hr, by omega, by omega⟩⟩

/-- C53: a length not strictly between two lengths covered by rules is allowed; in particular no length outside
the ranges is forbidden, nor are the ends of a single range. -/
theorem c53_outside_allowed {rs : List (Int × Int)} {len : Int} (h : ¬ InRanges rs len ∨ ¬ InRanges rs (len - 1) ∨ ¬ InRanges rs (len + 1)) :
    isIncluded (storeRanges rs) len = false := by
  cases hb : isIncluded (storeRanges rs) len with
  | false => rfl
  | true =>
    obtain ⟨a, b, c⟩ := (c53_forbidden_iff rs len).1 hb
    rcases h with h | h | h <;> contradiction

/-- two ranges of rules that meet at 140 are merged, and 140 is forbidden -/
example : storeRanges [(140, 300), (0, 140), (500, 600)] = [(1, 299), (501, 599)] := by decide

/-! ### vias too close to each other -/

theorem tdiv_sum {a b : Int} (h : 0 ≤ a + b) : (2 * a + 2 * b).tdiv 2 = a + b := by
  rw [Int.tdiv_eq_ediv_of_nonneg (by omega)]; omega

theorem centred_along {b : Box} (h : b.Centred) (dirX : Bool) : b.along dirX = 2 * (if dirX then b.right else b.top) := by
  obtain ⟨h1, h2⟩ := h
  unfold Box.along Box.spanX Box.spanY
  cases dirX <;> simp <;> omega

theorem gap_centred {a b : Box} (ha : a.Centred) (hb : b.Centred) (dirX : Bool) (d : Int) :
    gapAlong a b dirX d = d - ((if dirX then a.right else a.top) + (if dirX then b.right else b.top)) := by
  obtain ⟨h1, h2⟩ := ha
  obtain ⟨h3, h4⟩ := hb
  unfold gapAlong
  cases dirX <;> simp <;> omega

/-- C54: two default vias whose shapes on the layer are wider than its default width, at a distance at which
these shapes are apart by less than the required spacing, are reported as too close -/
theorem c54_metal_spacing (T : RTech) (l : Int) (down up : Option RVia) (prevDown currDown dirX : Bool) {v1 v2 : RVia}
    (hv1 : (if prevDown then down else up) = some v1) (hv2 : (if currDown then down else up) = some v2)
    (hc1 : (v1.boxOn l).Centred) (hc2 : (v2.boxOn l).Centred)
    (hpos : 0 ≤ (v1.boxOn l).along dirX ∧ 0 ≤ (v2.boxOn l).along dirX)
    (hf1 : (v1.boxOn l).across dirX > T.width l) (hf2 : (v2.boxOn l).across dirX > T.width l) {s : Int}
    (hs : T.req l (v1.boxOn l).minSpan (v2.boxOn l).minSpan (min ((v1.boxOn l).across dirX) ((v2.boxOn l).across dirX)) = some s)
    {d : Int} (hg : 0 < gapAlong (v1.boxOn l) (v2.boxOn l) dirX d) (hg' : gapAlong (v1.boxOn l) (v2.boxOn l) dirX d < s) :
    isVia2Via (v2vTable T l down up) prevDown currDown dirX d = some true := by
  rw [c39_via2via_query, hv1, hv2]
  congr 1
  rw [gap_centred hc1 hc2] at hg hg'
  rw [centred_along hc1, centred_along hc2] at hpos
  apply c53_inside_forbidden (r := ((if dirX then (v1.boxOn l).right else (v1.boxOn l).top) + (if dirX then (v2.boxOn l).right else (v2.boxOn l).top),
    s + ((if dirX then (v1.boxOn l).right else (v1.boxOn l).top) + (if dirX then (v2.boxOn l).right else (v2.boxOn l).top))))
  · unfold v2vRanges
    simp only [List.mem_append]
    left; left; left
    unfold v2vMinSpc1
    simp only
    rw [if_pos ⟨hf1, hf2⟩, hs, centred_along hc1, centred_along hc2, tdiv_sum (by omega)]
    simp [spcRange]
  · simp only; omega
  · simp only; omega

/-- the spacing required by a rule does not decrease with the width of a shape -/
def SpcRule.Mono (r : SpcRule) : Prop := ∀ w1 w2 w1' w2' p s s', w1 ≤ w1' → w2 ≤ w2' → r.req w1 w2 p = some s → r.req w1' w2' p = some s' → s ≤ s'

/-- the spacing depends on the larger width only -/
def SpcRule.ByMax (r : SpcRule) : Prop := ∀ w1 w2 p, r.req w1 w2 p = r.req (max w1 w2) (max w1 w2) p

theorem prl_rule_byMax (t : Tbl2) : (SpcRule.prl t).ByMax := by
  intro w1 w2 p
  simp [SpcRule.req]

/-- tables with growing entries give such rules -/
theorem prl_rule_mono {t : Tbl2} (h : t.Ok) (hm : t.Mono) : (SpcRule.prl t).Mono := by
  intro w1 w2 w1' w2' p s s' h1 h2 h3 h4
  exact c37_find_mono h hm (by omega) (Int.le_refl p) h3 h4

/-- other metal layer and shape there -/
def RVia.otherBox (v : RVia) (l : Int) : Box := if v.l1 = l then v.box2 else v.box1
def RVia.otherLayer (v : RVia) (l : Int) : Int := if v.l1 = l then l + 2 else l - 2

/-- C54: two equal default vias, at a distance along x at which their shapes on the other layer are apart by less
than the required spacing, are reported as too close. Missing: the same along y
(`c54_other_layer_y_missed`). -/
theorem c54_other_layer_x_partial (T : RTech) (l : Int) (down up : Option RVia) (isDown : Bool) {v : RVia}
    (hv : (if isDown then down else up) = some v) (hc : (v.otherBox l).Centred) {r : SpcRule} (hr : T.minSpc (v.otherLayer l) = some r)
    (hm : r.Mono) (hx : r.ByMax) {s s' : Int} (hs : r.req (v.otherBox l).minSpan (v.otherBox l).minSpan ((v.otherBox l).across true) = some s)
    (hreq : r.req (v.otherBox l).minSpan (v.boxOn l).minSpan ((v.otherBox l).across true) = some s')
    {d : Int} (hg : 0 < gapAlong (v.otherBox l) (v.otherBox l) true d) (hg' : gapAlong (v.otherBox l) (v.otherBox l) true d < s) :
    isVia2Via (v2vTable T l down up) isDown isDown true d = some true := by
  rw [c39_via2via_query, hv]
  congr 1
  have hss : s ≤ s' := by
    rw [hx] at hreq
    exact hm _ _ _ _ _ _ _ (by omega) (by omega) hs hreq
  rw [gap_centred hc hc] at hg hg'
  simp only [if_true] at hg hg'
  have hsp : (v.otherBox l).spanX = 2 * (v.otherBox l).right := by have := hc.1; unfold Box.spanX; omega
  apply c53_inside_forbidden (r := ((v.otherBox l).spanX, s' + (v.otherBox l).spanX))
  · unfold v2vRanges
    simp only [List.mem_append]
    left; left; right
    have : v2vMinSpc2 T l v v true = spcRange (v.otherBox l).spanX (T.req (v.otherLayer l) (v.otherBox l).minSpan (v.boxOn l).minSpan ((v.otherBox l).across true)) := by
      unfold v2vMinSpc2
      rw [if_pos rfl]
      rfl
    rw [this]
    unfold RTech.req
    rw [hr]
    show _ ∈ spcRange _ (r.req _ _ _)
    rw [hreq]
    simp [spcRange]
  · simp only; omega
  · simp only; omega

/-- vias of 100 × 100 on layer 2 and 100 × 400 on layer 4; spacing 100 everywhere -/
def techDemoVia : RVia := ⟨2, 4, 3, ⟨⟨-50, -50⟩, ⟨50, 50⟩⟩, ⟨⟨-50, -200⟩, ⟨50, 200⟩⟩, ⟨⟨-30, -30⟩, ⟨30, 30⟩⟩⟩
def techDemoRules : RTech where
  width _ := 80
  pitch _ := 200
  horz _ := true
  minSpc _ := some (.prl ⟨[0], [0], [[100]]⟩)
  cutSame _ := []
  cutDiff _ := [{ spacing := 90 }]
  interSame _ _ := none
  interDiff _ _ := none
  minCut _ := []

/-- C54 is false along y for the shapes on the other layer: 50 apart where 100 is required, not reported. (The
reason: the distance at which the shapes touch is taken from the wrong shape and the wrong extent.) -/
theorem c54_other_layer_y_missed :
    gapAlong (techDemoVia.otherBox 2) (techDemoVia.otherBox 2) false 450 = 50 ∧
    techDemoRules.req 4 (techDemoVia.otherBox 2).minSpan (techDemoVia.otherBox 2).minSpan ((techDemoVia.otherBox 2).across false) = some 100 ∧
    isVia2Via (v2vTable techDemoRules 2 none (some techDemoVia)) false false false 450 = some false := by decide

/-- along x the same gap is reported, on either layer -/
example : isVia2Via (v2vTable techDemoRules 2 none (some techDemoVia)) false false true 150 = some true := by decide
example : (techDemoVia.otherBox 2).Centred ∧ (techDemoVia.boxOn 2).Centred ∧ (techDemoVia.boxOn 2).across true > techDemoRules.width 2 := by
  unfold Box.Centred; decide

/-- C54: cuts of one layer closer than a plain rule for cuts of different nets allows (if there are no rules for
one net) are reported -/
theorem c54_cut_spacing (T : RTech) (l : Int) (down up : Option RVia) (prevDown currDown dirX : Bool) {v1 v2 : RVia}
    (hv1 : (if prevDown then down else up) = some v1) (hv2 : (if currDown then down else up) = some v2) (hcut : v1.cut = v2.cut)
    (hbox : v1.cutBox = v2.cutBox) (hsame : T.cutSame v1.cut = []) {r : CutRule} (hr : r ∈ T.cutDiff v1.cut)
    (hplain : r.secondLayer = false ∧ r.adjacent = false ∧ r.parallelOverlap = false ∧ r.area = false ∧ r.sameNet = false)
    {d : Int} (hd : 0 < d) (hg : (if r.c2c then d else gapAlong v1.cutBox v2.cutBox dirX d) < r.spacing) :
    isVia2Via (v2vTable T l down up) prevDown currDown dirX d = some true := by
  rw [c39_via2via_query, hv1, hv2]
  congr 1
  obtain ⟨p1, p2, p3, p4, p5⟩ := hplain
  apply c53_inside_forbidden (r := (0, r.spacing + (if r.c2c then 0 else v1.cutBox.along dirX)))
  · unfold v2vRanges
    simp only [List.mem_append]
    right
    unfold v2vCutSpc
    rw [if_pos hcut, hsame]
    simp only [List.isEmpty_nil, Bool.not_true, Bool.false_eq_true, if_false, List.mem_flatMap]
    exact ⟨r, hr, by unfold cutRange; simp [p1, p2, p3, p4, p5]⟩
  · exact hd
  · simp only
    unfold gapAlong at hg
    unfold Box.along Box.spanX Box.spanY
    rw [← hbox] at hg
    cases hcc : r.c2c <;> cases dirX <;> simp [hcc] at hg ⊢ <;> omega

/-- C54: the same for rules for one net -/
theorem c54_cut_spacing_same_net (T : RTech) (l : Int) (down up : Option RVia) (prevDown currDown dirX : Bool) {v1 v2 : RVia}
    (hv1 : (if prevDown then down else up) = some v1) (hv2 : (if currDown then down else up) = some v2) (hcut : v1.cut = v2.cut)
    (hbox : v1.cutBox = v2.cutBox) {r : CutRule} (hr : r ∈ T.cutSame v1.cut)
    (hplain : r.secondLayer = false ∧ r.adjacent = false ∧ r.parallelOverlap = false ∧ r.area = false ∧ r.sameNet = true)
    {d : Int} (hd : 0 < d) (hg : (if r.c2c then d else gapAlong v1.cutBox v2.cutBox dirX d) < r.spacing) :
    isVia2Via (v2vTable T l down up) prevDown currDown dirX d = some true := by
  rw [c39_via2via_query, hv1, hv2]
  congr 1
  obtain ⟨p1, p2, p3, p4, p5⟩ := hplain
  apply c53_inside_forbidden (r := (0, r.spacing + (if r.c2c then 0 else v1.cutBox.along dirX)))
  · unfold v2vRanges
    simp only [List.mem_append]
    right
    unfold v2vCutSpc
    have hne : (T.cutSame v1.cut).isEmpty = false := by
      cases hh : T.cutSame v1.cut with
      | nil => rw [hh] at hr; simp at hr
      | cons a b => rfl
    rw [if_pos hcut, hne]
    simp only [Bool.not_false, if_true, List.mem_flatMap]
    exact ⟨r, hr, by unfold cutRange; simp [p1, p2, p3, p4, p5]⟩
  · exact hd
  · simp only
    unfold gapAlong at hg
    unfold Box.along Box.spanX Box.spanY
    rw [← hbox] at hg
    cases hcc : r.c2c <;> cases dirX <;> simp [hcc] at hg ⊢ <;> omega

example : isVia2Via (v2vTable techDemoRules 2 none (some techDemoVia)) false false false 149 = some true ∧
    gapAlong techDemoVia.cutBox techDemoVia.cutBox false 149 = 89 := by decide

/-- vias below and above layer 4 with wide metal, and a minimum-cut rule for connections from above -/
def techDemoLow : RVia := ⟨2, 4, 3, ⟨⟨-50, -50⟩, ⟨50, 50⟩⟩, ⟨⟨-50, -50⟩, ⟨50, 50⟩⟩, ⟨⟨-30, -30⟩, ⟨30, 30⟩⟩⟩
def techDemoHigh : RVia := ⟨4, 6, 5, ⟨⟨-50, -50⟩, ⟨50, 50⟩⟩, ⟨⟨-50, -50⟩, ⟨50, 50⟩⟩, ⟨⟨-30, -30⟩, ⟨30, 30⟩⟩⟩
def techDemoMinCut : RTech := { techDemoRules with minSpc := fun _ => none, cutDiff := fun _ => [], minCut := fun _ => [{ width := 60, above := some true }] }

/-- C54: the minimum-cut rule makes the answer depend on the order of the two vias, although the shapes are the
same: when the first via's cut need not be tested, the second test is skipped. -/
theorem c54_min_cut_order_dependent :
    isVia2Via (v2vTable techDemoMinCut 4 (some techDemoLow) (some techDemoHigh)) true false true 40 = some true ∧
    isVia2Via (v2vTable techDemoMinCut 4 (some techDemoLow) (some techDemoHigh)) false true true 40 = some false := by decide

/-! ### turns and parallel wires -/

/-- C55: a wire of default width that turns off at a distance from a wide via at which the gap to the shape of the
via is below the required spacing is reported -/
theorem c55_turn_spacing (T : RTech) (l : Int) (down up : Option RVia) (isDown dirX : Bool) {v : RVia}
    (hv : (if isDown then down else up) = some v) (hf : (v.boxOn l).across dirX > T.width l) {s : Int}
    (hs : T.req l (v.boxOn l).minSpan (T.width l) ((v.boxOn l).across dirX) = some s) {wire : Box} (hc : (v.boxOn l).Centred) (hw : wire.Centred)
    (hww : wire.along dirX = T.width l) (hpos : 0 ≤ (v.boxOn l).along dirX ∧ 0 ≤ T.width l)
    {d : Int} (hg : 0 < gapAlong (v.boxOn l) wire dirX d) (hg' : gapAlong (v.boxOn l) wire dirX d < s) :
    isViaTurn (turnTable T l down up) isDown dirX d = some true := by
  rw [c39_turn_query, hv]
  congr 1
  rw [gap_centred hc hw] at hg hg'
  rw [centred_along hc] at hpos
  rw [centred_along hw] at hww
  apply c53_inside_forbidden (r := ((if dirX then (v.boxOn l).right else (v.boxOn l).top) + (if dirX then wire.right else wire.top),
    s + ((if dirX then (v.boxOn l).right else (v.boxOn l).top) + (if dirX then wire.right else wire.top))))
  · unfold turnRanges
    simp only
    rw [if_pos hf, hs, centred_along hc, ← hww, tdiv_sum (by omega)]
    simp [spcRange]
  · simp only; omega
  · simp only; omega

/-- C55: parallel wires of default width in a Z or U shape, apart by less than the required spacing, are reported,
and no other distances are -/
theorem c55_line_spacing (T : RTech) (l : Int) (zShape dirX : Bool) {s : Int}
    (hs : T.req l (T.width l) (T.width l) (if zShape then T.width l else T.pitch l) = some s) (d : Int) :
    isLine2Line (lineTable T l) zShape dirX d = some true ↔ 0 < d - T.width l ∧ d - T.width l < s := by
  rw [c39_line_query]
  simp only [Option.some.injEq]
  rw [c53_forbidden_iff]
  unfold lineRanges
  rw [hs]
  simp only [spcRange, InRanges, List.mem_singleton, exists_eq_left]
  omega

example : isLine2Line (lineTable techDemoRules 2) true false 81 = some true ∧ isLine2Line (lineTable techDemoRules 2) true false 180 = some false ∧
    isLine2Line (lineTable techDemoRules 2) true false 80 = some false := by decide
example : isViaTurn (turnTable techDemoRules 2 none (some techDemoVia)) false true 150 = some true ∧
    gapAlong (techDemoVia.boxOn 2) ⟨⟨-40, -40⟩, ⟨40, 40⟩⟩ true 150 = 60 := by decide

end TR
