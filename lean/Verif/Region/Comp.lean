import Verif.Region.Model
import Verif.Conn.SearchLemmas
import Verif.Conn.CleanLemmas
/-! # The search for connected components -/
namespace TR

/-- reachable along `adj` -/
abbrev ReachA (adj : Nat → List Nat) (a b : Nat) : Prop := Chain (fun x y => y ∈ adj x) (fun _ => True) a b

theorem ReachA.symm {adj : Nat → List Nat} (hs : ∀ a b, b ∈ adj a → a ∈ adj b) {a b : Nat} (h : ReachA adj a b) : ReachA adj b a :=
  Chain.symm (fun x y h => hs x y h) h

theorem reach_closed {adj : Nat → List Nat} {P : Nat → Prop} (hc : ∀ x, P x → ∀ y ∈ adj x, P y) {a b : Nat} (h : ReachA adj a b) (ha : P a) : P b := by
  induction h with
  | refl _ => exact ha
  | step _ hr _ ih => exact hc _ ih _ hr

theorem mem_eraseIdx_sub {α : Type} {q : List α} {i : Nat} {x : α} (h : x ∈ q.eraseIdx i) : x ∈ q := List.mem_of_mem_eraseIdx h

theorem mem_split_erase {q : List Nat} {i : Nat} (hi : i < q.length) {x : Nat} (h : x ∈ q) : x = q.getD i 0 ∨ x ∈ q.eraseIdx i := by
  have he : q[i]? = some (q.getD i 0) := by rw [List.getD_eq_getElem?_getD, List.getElem?_eq_getElem hi]; rfl
  have := (mem_eraseIdx_or q i _ he) x h
  exact this

/-- state of the search from `i` -/
structure FloodInv (adj : Nat → List Nat) (s0 : CompSt) (i id : Nat) (q : List Nat) (s : CompSt) : Prop where
  old : ∀ x, s0.vis x = true → s.vis x = true ∧ s.comp x = s0.comp x
  new : ∀ x, s.vis x = true → s0.vis x = true ∨ (ReachA adj i x ∧ s.comp x = id)
  queue : ∀ x ∈ q, ReachA adj i x
  front : ∀ x, s.vis x = true → s0.vis x = false → ∀ y ∈ adj x, s.vis y = true ∨ y ∈ q
  src : s.vis i = true ∨ i ∈ q

theorem flood_inv {adj : Nat → List Nat} {pick : List Nat → Nat} {s0 : CompSt} {i id : Nat} : ∀ (f : Nat) (q : List Nat) (s s' : CompSt),
    FloodInv adj s0 i id q s → flood adj pick id f q s = some s' → FloodInv adj s0 i id [] s' := by
  intro f
  induction f with
  | zero =>
    intro q s s' h hf
    cases q with
    | nil => simp only [flood, Option.some.injEq] at hf; rw [← hf]; exact h
    | cons a r => simp [flood] at hf
  | succ f ih =>
    intro q s s' h hf
    cases q with
    | nil => simp only [flood, Option.some.injEq] at hf; rw [← hf]; exact h
    | cons a r =>
      simp only [flood] at hf
      generalize hq : a :: r = q at hf h
      have hlen : 0 < q.length := by rw [← hq]; simp
      have hi := Nat.mod_lt (pick q) hlen
      generalize pick q % q.length = j at hf hi
      have hcm : q.getD j 0 ∈ q := by
        rw [List.getD_eq_getElem?_getD, List.getElem?_eq_getElem hi]
        exact List.getElem_mem hi
      split at hf
      · rename_i hv
        refine ih _ _ _ ⟨h.old, h.new, fun x hx => h.queue x (mem_eraseIdx_sub hx), ?_, ?_⟩ hf
        · intro x hx hx0 y hy
          rcases h.front x hx hx0 y hy with h1 | h1
          · exact .inl h1
          · rcases mem_split_erase hi h1 with e | e
            · rw [e]; exact .inl hv
            · exact .inr e
        · rcases h.src with h1 | h1
          · exact .inl h1
          · rcases mem_split_erase hi h1 with e | e
            · rw [e]; exact .inl hv
            · exact .inr e
      · rename_i hv
        refine ih _ _ _ ⟨?_, ?_, ?_, ?_, ?_⟩ hf
        · intro x hx
          obtain ⟨h1, h2⟩ := h.old x hx
          have hne : x ≠ q.getD j 0 := by intro e; rw [e] at h1; exact hv h1
          exact ⟨by simp only [upd_ne _ _ hne]; exact h1, by simp only [upd_ne _ _ hne]; exact h2⟩
        · intro x hx
          by_cases hne : x = q.getD j 0
          · right
            refine ⟨by rw [hne]; exact h.queue _ hcm, ?_⟩
            rw [hne]; simp only [upd_self]
          · simp only [upd_ne _ _ hne] at hx ⊢
            exact h.new x hx
        · intro x hx
          rcases List.mem_append.1 hx with hx | hx
          · exact h.queue x (mem_eraseIdx_sub hx)
          · exact .step (h.queue _ hcm) (List.mem_filter.1 hx).1 trivial
        · intro x hx hx0 y hy
          by_cases hyc : y = q.getD j 0
          · left; rw [hyc]; simp only [upd_self]
          · by_cases hne : x = q.getD j 0
            · rw [hne] at hy
              cases hvy : upd s.vis (q.getD j 0) true y with
              | true => exact .inl hvy
              | false => right; exact List.mem_append_right _ (List.mem_filter.2 ⟨hy, by rw [hvy]; rfl⟩)
            · simp only [upd_ne _ _ hne] at hx
              rcases h.front x hx hx0 y hy with h1 | h1
              · left; simp only [upd_ne _ _ hyc]; exact h1
              · rcases mem_split_erase hi h1 with e | e
                · exact absurd e hyc
                · exact .inr (List.mem_append_left _ e)
        · by_cases hic : i = q.getD j 0
          · left; rw [hic]; simp only [upd_self]
          · rcases h.src with h1 | h1
            · left; simp only [upd_ne _ _ hic]; exact h1
            · rcases mem_split_erase hi h1 with e | e
              · exact absurd e hic
              · exact .inr (List.mem_append_left _ e)

/-- work left -/
def msum (adj : Nat → List Nat) (n : Nat) (vis : Nat → Bool) : Nat := ((List.range n).map (fun x => if vis x then 0 else (adj x).length)).sum

theorem msum_succ (adj : Nat → List Nat) (n : Nat) (vis : Nat → Bool) : msum adj (n + 1) vis = msum adj n vis + if vis n then 0 else (adj n).length := by
  unfold msum
  rw [List.range_succ, List.map_append, List.sum_append]
  simp

theorem msum_upd_ge (adj : Nat → List Nat) (vis : Nat → Bool) (c : Nat) : ∀ n, n ≤ c → msum adj n (upd vis c true) = msum adj n vis := by
  intro n
  induction n with
  | zero => intro _; rfl
  | succ n ih =>
    intro h
    rw [msum_succ, msum_succ, ih (by omega), upd_ne _ _ (show n ≠ c by omega)]

theorem msum_upd (adj : Nat → List Nat) (vis : Nat → Bool) (c : Nat) (hv : vis c = false) : ∀ n, c < n →
    msum adj n (upd vis c true) + (adj c).length = msum adj n vis := by
  intro n
  induction n with
  | zero => intro h; omega
  | succ n ih =>
    intro h
    rw [msum_succ, msum_succ]
    by_cases hc : c = n
    · rw [msum_upd_ge adj vis c n (by omega), ← hc, upd_self, hv]
      simp
    · rw [upd_ne _ _ (fun e => hc e.symm)]
      have := ih (by omega)
      omega

theorem flood_terminates {adj : Nat → List Nat} {pick : List Nat → Nat} {n id : Nat} (hb : ∀ a, a < n → ∀ b ∈ adj a, b < n) : ∀ (f : Nat) (q : List Nat) (s : CompSt),
    (∀ x ∈ q, x < n) → q.length + msum adj n s.vis ≤ f → flood adj pick id f q s ≠ none := by
  intro f
  induction f with
  | zero =>
    intro q s _ hf
    cases q with
    | nil => simp [flood]
    | cons a r => simp only [List.length_cons] at hf; omega
  | succ f ih =>
    intro q s hq hf
    cases q with
    | nil => simp [flood]
    | cons a r =>
      simp only [flood]
      generalize hq' : a :: r = q at hf hq
      have hlen : 0 < q.length := by rw [← hq']; simp
      have hi := Nat.mod_lt (pick q) hlen
      generalize pick q % q.length = j at hi
      have hel : (q.eraseIdx j).length + 1 = q.length := by rw [List.length_eraseIdx_of_lt hi]; omega
      have hcm : q.getD j 0 ∈ q := by
        rw [List.getD_eq_getElem?_getD, List.getElem?_eq_getElem hi]
        exact List.getElem_mem hi
      split
      · exact ih _ _ (fun x hx => hq x (mem_eraseIdx_sub hx)) (by omega)
      · rename_i hv
        refine ih _ _ ?_ ?_
        · intro x hx
          rcases List.mem_append.1 hx with hx | hx
          · exact hq x (mem_eraseIdx_sub hx)
          · exact hb _ (hq _ hcm) x (List.mem_filter.1 hx).1
        · have := msum_upd adj s.vis (q.getD j 0) (by simpa using hv) n (hq _ hcm)
          have := List.length_filter_le (fun j' => !upd s.vis (q.getD j 0) true j') (adj (q.getD j 0))
          simp only [List.length_append]
          omega

/-- state between two searches -/
structure CompInv (adj : Nat → List Nat) (id : Nat) (s : CompSt) : Prop where
  closed : ∀ x, s.vis x = true → ∀ y ∈ adj x, s.vis y = true
  same : ∀ x y, s.vis x = true → s.vis y = true → (s.comp x = s.comp y ↔ ReachA adj x y)
  lt : ∀ x, s.vis x = true → s.comp x < id
  all : ∀ k, k < id → ∃ x, s.vis x = true ∧ s.comp x = k

theorem flood_comp {adj : Nat → List Nat} (hs : ∀ a b, b ∈ adj a → a ∈ adj b) {pick : List Nat → Nat} {i id : Nat} {s s' : CompSt} {f : Nat}
    (h : CompInv adj id s) (hi : s.vis i = false) (hf : flood adj pick id f [i] s = some s') :
    CompInv adj (id + 1) s' ∧ s'.vis i = true ∧ ∀ x, s.vis x = true → s'.vis x = true := by
  have hinv := flood_inv f [i] s s' ⟨fun x hx => ⟨hx, rfl⟩, fun x hx => .inl hx, fun x hx => by
    rw [List.mem_singleton] at hx; rw [hx]; exact .refl trivial, fun x hx hx0 => absurd hx0 (by rw [hx]; decide), .inr List.mem_cons_self⟩ hf
  have hnew : ∀ x, s'.vis x = true → s.vis x = false → ReachA adj i x ∧ s'.comp x = id := by
    intro x hx hx0
    rcases hinv.new x hx with h1 | h1
    · rw [h1] at hx0; cases hx0
    · exact h1
  have hvi : s'.vis i = true := by
    rcases hinv.src with h1 | h1
    · exact h1
    · cases h1
  refine ⟨⟨?_, ?_, ?_, ?_⟩, hvi, fun x hx => (hinv.old x hx).1⟩
  · intro x hx y hy
    cases hx0 : s.vis x with
    | true => exact (hinv.old y (h.closed x hx0 y hy)).1
    | false =>
      rcases hinv.front x hx hx0 y hy with h1 | h1
      · exact h1
      · cases h1
  · intro x y hx hy
    cases hx0 : s.vis x with
    | true =>
      cases hy0 : s.vis y with
      | true => rw [(hinv.old x hx0).2, (hinv.old y hy0).2]; exact h.same x y hx0 hy0
      | false =>
        have hyn := hnew y hy hy0
        rw [(hinv.old x hx0).2, hyn.2]
        constructor
        · intro e; have := h.lt x hx0; omega
        · intro hr
          have := reach_closed (P := fun z => s.vis z = true) h.closed hr hx0
          rw [this] at hy0; cases hy0
    | false =>
      have hxn := hnew x hx hx0
      cases hy0 : s.vis y with
      | true =>
        rw [(hinv.old y hy0).2, hxn.2]
        constructor
        · intro e; have := h.lt y hy0; omega
        · intro hr
          have := reach_closed (P := fun z => s.vis z = true) h.closed (hr.symm hs) hy0
          rw [this] at hx0; cases hx0
      | false =>
        have hyn := hnew y hy hy0
        rw [hxn.2, hyn.2]
        exact ⟨fun _ => Chain.trans (ReachA.symm hs hxn.1) hyn.1, fun _ => rfl⟩
  · intro x hx
    cases hx0 : s.vis x with
    | true => rw [(hinv.old x hx0).2]; have := h.lt x hx0; omega
    | false => rw [(hnew x hx hx0).2]; omega
  · intro k hk
    by_cases hki : k = id
    · exact ⟨i, hvi, by rw [hki]; exact (hnew i hvi hi).2⟩
    · obtain ⟨x, hx, hxk⟩ := h.all k (by omega)
      exact ⟨x, (hinv.old x hx).1, by rw [(hinv.old x hx).2]; exact hxk⟩

theorem compLoop_ok {adj : Nat → List Nat} (hs : ∀ a b, b ∈ adj a → a ∈ adj b) (pick : List Nat → Nat) {n : Nat} (hb : ∀ a, a < n → ∀ b ∈ adj a, b < n) :
    ∀ (r id : Nat) (s : CompSt), CompInv adj id s → missing n s.vis ≤ r →
    ∃ s' num, compLoop adj pick n (floodFuel adj n) r id s = some (s', num) ∧ CompInv adj num s' ∧ ∀ i, i < n → s'.vis i = true := by
  intro r
  induction r with
  | zero =>
    intro id s h hm
    have hall : ∀ i, i < n → s.vis i = true := by
      intro i hi
      cases hv : s.vis i with
      | true => rfl
      | false => have := missing_pos hi hv; omega
    refine ⟨s, id, ?_, h, hall⟩
    unfold compLoop
    rw [if_pos]
    rw [List.all_eq_true]
    intro i hi
    exact hall i (List.mem_range.1 hi)
  | succ r ih =>
    intro id s h hm
    unfold compLoop
    cases hf : (List.range n).find? (fun i => !s.vis i) with
    | none =>
      refine ⟨s, id, rfl, h, ?_⟩
      intro i hi
      have := (List.find?_eq_none.1 hf) i (List.mem_range.2 hi)
      simpa using this
    | some i =>
      have hi : i < n := List.mem_range.1 (List.mem_of_find?_eq_some hf)
      have hv : s.vis i = false := by simpa using List.find?_some hf
      simp only
      cases hfl : flood adj pick id (floodFuel adj n) [i] s with
      | none =>
        exfalso
        refine flood_terminates hb _ _ _ ?_ ?_ hfl
        · intro x hx; rw [List.mem_singleton] at hx; rw [hx]; exact hi
        · unfold floodFuel
          have : msum adj n s.vis ≤ ((List.range n).map (fun i => (adj i).length)).sum := by
            unfold msum
            generalize List.range n = l
            induction l with
            | nil => simp
            | cons a l ih =>
              simp only [List.map_cons, List.sum_cons]
              have : (if s.vis a = true then 0 else (adj a).length) ≤ (adj a).length := by split <;> omega
              omega
          simp only [List.length_singleton]
          omega
      | some s' =>
        obtain ⟨h1, h2, h3⟩ := flood_comp hs h hv hfl
        refine ih (id + 1) s' h1 ?_
        have hlt : missing n s'.vis < missing n s.vis := by
          unfold missing
          refine filter_length_lt (p := fun i => !s'.vis i) (q := fun i => !s.vis i) ?_ (a := i) (List.mem_range.2 hi) (by simp [hv]) (by simp [h2])
          intro x hx
          cases hvx : s.vis x with
          | false => rfl
          | true => have := h3 x hvx; simp [this] at hx
        omega

/-- the search numbers the components -/
theorem connComp_ok {adj : Nat → List Nat} (hs : ∀ a b, b ∈ adj a → a ∈ adj b) (pick : List Nat → Nat) {n : Nat} (hb : ∀ a, a < n → ∀ b ∈ adj a, b < n) :
    ∃ comp num, connComp adj pick n = some (comp, num) ∧ (∀ i j, i < n → j < n → (comp i = comp j ↔ ReachA adj i j)) ∧ (∀ i, i < n → comp i < num) := by
  obtain ⟨s, num, h1, h2, h3⟩ := compLoop_ok hs pick hb n 0 ⟨fun _ => false, fun _ => 0⟩
    ⟨fun _ h => (by cases h), fun _ _ h => (by cases h), fun _ h => (by cases h), fun _ h => (by omega)⟩ (missing_le n _)
  refine ⟨s.comp, num, ?_, fun i j hi hj => h2.same i j (h3 i hi) (h3 j hj), fun i hi => h2.lt i (h3 i hi)⟩
  unfold connComp
  rw [h1]
  rfl

end TR
