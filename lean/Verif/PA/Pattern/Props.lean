import Verif.PA.Pattern.Lemmas
import Verif.PA.Pattern.Spec
/-! # C68, C69 — access patterns -/
namespace TR

/-! ### C68 -/

theorem rowCost_snoc (w : Nat → Nat → Nat → Int) : ∀ (xs : List Nat) (b a c : Nat),
    rowCost w b (xs ++ [a, c]) = rowCost w b (xs ++ [a]) + w (b + xs.length) a c := by
  intro xs
  induction xs with
  | nil => intro b a c; simp [rowCost]
  | cons x xs ih =>
    intro b a c
    cases xs with
    | nil => simp [rowCost]
    | cons y ys =>
      have := ih (b + 1) a c
      simp only [List.cons_append, rowCost, List.length_cons] at this ⊢
      rw [this, show b + 1 + (ys.length + 1) = b + (ys.length + 1 + 1) by omega]
      omega

/-- the edge costs of a row in terms of the candidates -/
def rowW (clean : Nat → Nat → Nat → Bool) (n : Nat) (t0 : DPTab) (p c : Nat) : Int := (rowEdge clean n () t0 p c).1

theorem rowW_pure (clean : Nat → Nat → Nat → Bool) (n : Nat) (t0 : DPTab) : PureEdge (rowEdge clean n) t0 (rowW clean n t0) := by
  intro s t p c h
  unfold rowW rowEdge
  rw [h p, h c]

theorem pcost_row (clean : Nat → Nat → Nat → Bool) (costs : List (List Int)) (hlen : ∀ cs ∈ costs, cs.length ≤ rowD) :
    ∀ (xs : List Nat), xs.length ≤ costs.length → (∀ (k a : Nat) cs, xs[k]? = some a → costs[k]? = some cs → a < cs.length) →
    PCost rowD (rowW clean costs.length (dpInit rowD costs)) xs.length (xs.reverse ++ [0]) = rowCost (pairCost clean costs) 0 xs := by
  obtain ⟨_, _, _, _, i5⟩ := dpInit_spec rowD (by decide) costs hlen
  intro xs
  generalize hm : xs.length = m
  induction m generalizing xs with
  | zero => intro _ _; rw [List.length_eq_zero_iff.1 hm]; rfl
  | succ m ih =>
    intro hl hx
    have hne : xs ≠ [] := by intro h; rw [h] at hm; cases hm
    obtain ⟨ys, j, rfl⟩ : ∃ ys j, xs = ys ++ [j] := ⟨xs.dropLast, xs.getLast hne, (List.dropLast_concat_getLast hne).symm⟩
    have hys : ys.length = m := by simpa using hm
    have ih := ih ys hys (by omega) (fun k a cs' hk hc => hx k a cs' (by rw [List.getElem?_append_left (List.getElem?_eq_some_iff.1 hk).1]; exact hk) hc)
    have hb : ∀ (k a : Nat), (ys ++ [j])[k]? = some a → k < costs.length ∧ a < rowD := by
      intro k a hk
      have hk' := (List.getElem?_eq_some_iff.1 hk).1
      rw [hm] at hk'
      have hkc : k < costs.length := by omega
      have := hx k a _ hk (List.getElem?_eq_getElem hkc)
      have := hlen costs[k] (List.getElem_mem hkc)
      omega
    rw [List.reverse_append, List.append_assoc]
    show PCost rowD _ (m + 1) (j :: (ys.reverse ++ [0])) = _
    by_cases hy : ys = []
    · subst hy
      simp only [List.length_nil] at hys
      subst hys
      show 0 + rowW clean costs.length (dpInit rowD costs) (flatIdx rowD 0 0) (flatIdx rowD 1 j) = 0
      unfold rowW rowEdge
      rw [if_pos (Or.inl (by decide))]
      rfl
    · obtain ⟨zs, i, rfl⟩ : ∃ zs i, ys = zs ++ [i] := ⟨ys.dropLast, ys.getLast hy, (List.dropLast_concat_getLast hy).symm⟩
      have hz : zs.length + 1 = m := by simpa using hys
      have e1 : (zs ++ [i]).reverse ++ [0] = i :: (zs.reverse ++ [0]) := by simp
      rw [e1] at ih ⊢
      have e2 : zs ++ [i] ++ [j] = zs ++ [i, j] := by simp
      rw [e2, rowCost_snoc]
      show PCost rowD _ m (i :: (zs.reverse ++ [0])) + rowW clean costs.length (dpInit rowD costs) (flatIdx rowD m i) (flatIdx rowD (m + 1) j) = _
      rw [ih]
      have hi := hb zs.length i (by rw [e2, List.getElem?_append_right (Nat.le_refl _)]; simp)
      have hj := hb m j (by rw [e2, List.getElem?_append_right (by omega), show m - zs.length = 1 by omega]; rfl)
      congr 1
      unfold rowW rowEdge pairCost
      rw [flat_div _ _ _ hi.2, flat_div _ _ _ hj.2, flat_mod _ _ _ hi.2, flat_mod _ _ _ hj.2, if_neg (by omega)]
      obtain ⟨m, rfl⟩ : ∃ q, m = q + 1 := ⟨zs.length, hz.symm⟩
      rw [i5 m i (by omega) hi.2, i5 (m + 1) j (by omega) hj.2]
      have hzm : zs.length = m := by omega
      rw [hzm]
      simp only [Nat.add_sub_cancel, Nat.zero_add, List.getD_eq_getElem?_getD]
      split <;> rfl

/-- **C68.** Whatever the costs of the patterns and whatever the checker says about neighbouring cells: if every cell of a row has between one and five
patterns, the program chooses one pattern for each cell and no other choice is cheaper. The cost of a choice is the sum over neighbouring cells of the mean
of the two pattern costs, or 1000 if their patterns conflict. -/
theorem c68_row_optimal (clean : Nat → Nat → Nat → Bool) (costs : List (List Int)) (h : ∀ cs ∈ costs, cs ≠ [] ∧ cs.length ≤ 5) :
    ∃ xs, Selects costs xs ∧ (∀ k, rowPatterns clean costs k = xs[k]?) ∧
      ∀ ys, Selects costs ys → rowCost (pairCost clean costs) 0 xs ≤ rowCost (pairCost clean costs) 0 ys := by
  have hlen : ∀ cs ∈ costs, cs.length ≤ rowD := fun cs hcs => (h cs hcs).2
  obtain ⟨xs, h1, _, h2, h3⟩ := (dp_choice (rowEdge clean costs.length) rowD (by decide) costs hlen ()).1 (fun cs hcs => (h cs hcs).1)
  refine ⟨xs, h1, h2, ?_⟩
  intro ys hy
  have key : ∀ zs, Selects costs zs → PCost rowD (rowW clean costs.length (dpInit rowD costs)) (costs.length + 1) (0 :: (zs.reverse ++ [0])) =
      rowCost (pairCost clean costs) 0 zs := by
    intro zs hz
    have e := pcost_row clean costs hlen zs (by rw [hz.1]; exact Nat.le_refl _) hz.2
    rw [hz.1] at e
    cases hzs : zs.reverse ++ [0] with
    | nil => simp at hzs
    | cons i s =>
      rw [hzs] at e
      show PCost rowD _ costs.length (i :: s) + rowW clean costs.length (dpInit rowD costs) (flatIdx rowD costs.length i) (flatIdx rowD (costs.length + 1) 0) = _
      rw [e]
      unfold rowW rowEdge
      rw [if_pos (Or.inr (flat_div _ _ _ (by decide)))]
      simp
  have := (h3 _ (rowW_pure clean costs.length (dpInit rowD costs)) ys hy).1
  rwa [key xs h1, key ys hy] at this

/-- **C68.** A cell without any pattern leaves all the cells of its row without one. -/
theorem c68_row_none (clean : Nat → Nat → Nat → Bool) (costs : List (List Int)) (hlen : ∀ cs ∈ costs, cs.length ≤ 5) (h : [] ∈ costs) (k : Nat) :
    rowPatterns clean costs k = none :=
  (dp_choice (rowEdge clean costs.length) rowD (by decide) costs hlen ()).2 ⟨[], h, rfl⟩ k

theorem pairCost_nonneg (clean : Nat → Nat → Nat → Bool) (costs : List (List Int)) (h : ∀ cs ∈ costs, ∀ c ∈ cs, 0 ≤ c) (k a b : Nat) :
    0 ≤ pairCost clean costs k a b ∧ (clean k a b = false → 1000 ≤ pairCost clean costs k a b) := by
  have hg : ∀ k a, 0 ≤ (costs.getD k []).getD a 0 := by
    intro k a
    rw [List.getD_eq_getElem?_getD, List.getD_eq_getElem?_getD]
    cases e : costs[k]? with
    | none => simp
    | some cs =>
      cases e' : cs[a]? with
      | none => simp [e']
      | some c => simp [e', h cs (List.mem_of_getElem? e) c (List.mem_of_getElem? e')]
  unfold pairCost
  have h1 := hg k a
  have h2 := hg (k + 1) b
  split
  · rename_i hc
    refine ⟨Int.tdiv_nonneg (by omega) (by decide), ?_⟩
    intro hf
    rw [hc] at hf; cases hf
  · exact ⟨by decide, fun _ => by decide⟩

theorem rowCost_clean (clean : Nat → Nat → Nat → Bool) (costs : List (List Int)) (h : ∀ cs ∈ costs, ∀ c ∈ cs, 0 ≤ c) : ∀ (xs : List Nat) (k : Nat),
    0 ≤ rowCost (pairCost clean costs) k xs ∧ (¬ RowClean clean k xs → 1000 ≤ rowCost (pairCost clean costs) k xs) := by
  intro xs
  induction xs with
  | nil => intro k; exact ⟨by simp [rowCost], fun hn => absurd trivial hn⟩
  | cons a xs ih =>
    intro k
    cases xs with
    | nil => exact ⟨by simp [rowCost], fun hn => absurd trivial hn⟩
    | cons b xs =>
      obtain ⟨i1, i2⟩ := ih (k + 1)
      obtain ⟨p1, p2⟩ := pairCost_nonneg clean costs h k a b
      refine ⟨by simp only [rowCost]; omega, ?_⟩
      intro hn
      simp only [rowCost]
      cases hc : clean k a b with
      | false => have := p2 hc; omega
      | true =>
        have := i2 (fun hr => hn ⟨hc, hr⟩)
        omega

/-- **C68.** If some choice has no conflict between neighbouring cells and costs less than 1000 then the choice of the program has no conflict. -/
theorem c68_clean_found (clean : Nat → Nat → Nat → Bool) (costs : List (List Int)) (h : ∀ cs ∈ costs, cs ≠ [] ∧ cs.length ≤ 5)
    (hpos : ∀ cs ∈ costs, ∀ c ∈ cs, 0 ≤ c) (ys : List Nat) (hys : Selects costs ys)
    (hcost : rowCost (pairCost clean costs) 0 ys < 1000) :
    ∃ xs, Selects costs xs ∧ (∀ k, rowPatterns clean costs k = xs[k]?) ∧ RowClean clean 0 xs := by
  obtain ⟨xs, h1, h2, h3⟩ := c68_row_optimal clean costs h
  refine ⟨xs, h1, h2, ?_⟩
  apply Classical.byContradiction
  intro hn
  have := (rowCost_clean clean costs hpos xs 0).2 hn
  have := h3 ys hys
  omega

theorem consec_snoc {α : Type} (R : α → α → Prop) : ∀ (l : List α) (a b : α), Consec R (l ++ [a]) → R a b → Consec R (l ++ [a, b]) := by
  intro l
  induction l with
  | nil => intro a b _ h; exact ⟨h, trivial⟩
  | cons x l ih =>
    intro a b h hab
    cases l with
    | nil => exact ⟨h.1, hab, trivial⟩
    | cons y l => exact ⟨h.1, ih a b h.2 hab⟩

theorem consec_last {α : Type} (R : α → α → Prop) : ∀ (l : List α) (a b : α), Consec R (l ++ [a]) → (∀ x, R x a → R x b) → Consec R (l ++ [b]) := by
  intro l
  induction l with
  | nil => intro a b _ _; trivial
  | cons x l ih =>
    intro a b h hab
    cases l with
    | nil => exact ⟨hab x h.1, trivial⟩
    | cons y l => exact ⟨h.1, ih a b h.2 hab⟩

/-- the row `s` does not continue the row `r` -/
def Apart (r s : List RowInst) : Prop := ∀ a b, r.getLast? = some a → s.head? = some b → ¬ Abuts a b

theorem rowStep_inv (insts : List RowInst) : ∀ (seen : List RowInst) (st : List (List RowInst) × List RowInst × Option RowInst),
    (st.1 ++ [st.2.1]).flatten = seen → st.2.2 = st.2.1.getLast? → (∀ r ∈ st.1, r ≠ [] ∧ Consec Abuts r) → Consec Abuts st.2.1 →
    Consec Apart (st.1 ++ [st.2.1]) → (st.2.1 = [] → st.1 = []) →
    let r := insts.foldl rowStep st
    (r.1 ++ [r.2.1]).flatten = seen ++ insts ∧ (∀ x ∈ r.1, x ≠ [] ∧ Consec Abuts x) ∧ Consec Abuts r.2.1 ∧ Consec Apart (r.1 ++ [r.2.1]) ∧
      (r.2.1 = [] → r.1 = []) := by
  induction insts with
  | nil => intro seen st h1 _ h3 h4 h5 h6; exact ⟨by simpa using h1, h3, h4, h5, h6⟩
  | cons i insts ih =>
    rintro seen ⟨d, c, l⟩ h1 h2 h3 h4 h5 h6
    simp only at h1 h2 h3 h4 h5 h6
    rw [List.foldl_cons]
    have hend : seen ++ i :: insts = seen ++ [i] ++ insts := by simp
    rw [hend]
    by_cases hc : c = []
    · subst hc
      have hd := h6 rfl
      subst hd
      have e : rowStep ([], [], l) i = ([], [i], some i) := by
        unfold rowStep
        simp
      rw [e]
      refine ih _ _ ?_ rfl (by simp) trivial trivial (by simp)
      rw [← h1]; rfl
    · obtain ⟨zs, j, rfl⟩ : ∃ zs j, c = zs ++ [j] := ⟨c.dropLast, c.getLast hc, (List.dropLast_concat_getLast hc).symm⟩
      have hl : l = some j := by rw [h2]; simp
      subst hl
      by_cases hb : Abuts j i
      · have e : rowStep (d, zs ++ [j], some j) i = (d, zs ++ [j] ++ [i], some i) := by
          unfold rowStep
          have : (i.y != j.y || decide (i.x > j.right)) = false := by
            obtain ⟨a, b⟩ := hb
            simp [a, b]
          simp only [this]
          simp
        rw [e]
        refine ih _ _ ?_ (by simp) h3 ?_ ?_ (by simp)
        · rw [← h1]; simp
        · have := consec_snoc Abuts zs j i h4 hb
          simpa using this
        · refine consec_last Apart d _ _ h5 ?_
          intro x hx a b ha hbb
          refine hx a b ha ?_
          rw [← hbb]
          cases zs <;> rfl
      · have e : rowStep (d, zs ++ [j], some j) i = (d ++ [zs ++ [j]], [i], some i) := by
          unfold rowStep
          have : (i.y != j.y || decide (i.x > j.right)) = true := by
            unfold Abuts at hb
            rw [Bool.or_eq_true, bne_iff_ne, decide_eq_true_eq]
            by_cases hy : i.y = j.y
            · right
              apply Classical.byContradiction
              intro hn
              exact hb ⟨hy, by omega⟩
            · left; exact hy
          simp only [this]
          simp
        rw [e]
        refine ih _ _ ?_ rfl ?_ trivial ?_ (by simp)
        · rw [← h1]; simp
        · intro r hr
          rcases List.mem_append.1 hr with hr | hr
          · exact h3 r hr
          · rw [List.mem_singleton] at hr
            rw [hr]
            exact ⟨hc, h4⟩
        · have : Consec Apart (d ++ [zs ++ [j], [i]]) := by
            refine consec_snoc Apart d _ _ h5 ?_
            intro a b ha hbb
            simp only [List.getLast?_append, List.getLast?_singleton, Option.some_or, Option.some.injEq] at ha
            simp only [List.head?_cons, Option.some.injEq] at hbb
            rw [← ha, ← hbb]
            exact hb
          simpa using this

theorem consec_left {α : Type} (R : α → α → Prop) : ∀ (l : List α) (a : α), Consec R (l ++ [a]) → Consec R l := by
  intro l
  induction l with
  | nil => intro a _; trivial
  | cons x l ih =>
    intro a h
    cases l with
    | nil => trivial
    | cons y l => exact ⟨h.1, ih a h.2⟩

/-- **C68.** The cells, in their sorted order, are cut into rows: every cell is in exactly one row, in the same order; no row is empty; within a row every cell
abuts its predecessor; and a row ends only where the next cell does not abut the last one. -/
theorem c68_rows (insts : List RowInst) :
    (instRows insts).flatten = insts ∧ (∀ r ∈ instRows insts, r ≠ [] ∧ Consec Abuts r) ∧ Consec Apart (instRows insts) := by
  obtain ⟨h1, h2, h3, h4, h5⟩ := rowStep_inv insts [] ([], [], none) rfl rfl (by simp) trivial trivial (by simp)
  unfold instRows
  simp only [List.nil_append] at h1
  simp only
  by_cases hc : (insts.foldl rowStep ([], [], none)).2.1 = []
  · rw [if_pos (by rw [hc]; rfl)]
    rw [hc] at h1
    exact ⟨by simpa using h1, h2, consec_left _ _ _ h4⟩
  · rw [if_neg (by simpa using hc)]
    refine ⟨h1, ?_, h4⟩
    intro r hr
    rcases List.mem_append.1 hr with hr | hr
    · exact h2 r hr
    · rw [List.mem_singleton] at hr
      rw [hr]
      exact ⟨hc, h3⟩

set_option maxRecDepth 100000 in
/-- three cells; the cheapest patterns of the first two conflict, so the second pattern of the second cell is chosen -/
example : (List.range 4).map (rowPatterns (fun k a b => !(k == 0 && a == 0 && b == 0) && !(k == 0 && a == 1)) [[2, 4], [0, 6, 8], [4]]) =
    [some 0, some 1, some 0, none] := by decide

example : rowCost (pairCost (fun k a b => !(k == 0 && a == 0 && b == 0) && !(k == 0 && a == 1)) [[2, 4], [0, 6, 8], [4]]) 0 [0, 1, 0] = 9 := by decide

/-- two rows at the same height with a gap, and one above -/
example : instRows [⟨0, 0, 0, 10⟩, ⟨1, 10, 0, 20⟩, ⟨2, 25, 0, 30⟩, ⟨3, 25, 8, 30⟩] =
    [[⟨0, 0, 0, 10⟩, ⟨1, 10, 0, 20⟩], [⟨2, 25, 0, 30⟩], [⟨3, 25, 8, 30⟩]] := rfl

end TR
