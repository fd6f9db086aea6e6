import Verif.Conn.SearchModel
import Verif.Conn.SearchSpec
/-! Lemmas about the pin-to-pin search. -/
namespace TR

theorem Within.mono {adj : Nat → List Nat} {K L : Nat → Prop} {a b : Nat} (h : ∀ x, K x → L x)
    (w : Within adj K a b) : Within adj L a b := by
  induction w with
  | refl k => exact .refl (h _ k)
  | step _ hc k ih => exact .step ih hc (h _ k)

theorem Within.mem {adj : Nat → List Nat} {K : Nat → Prop} {a b : Nat}
    (w : Within adj K a b) : K b := by
  cases w with
  | refl k => exact k
  | step _ _ k => exact k

theorem upd_self {α : Type} (f : Nat → α) (i : Nat) (v : α) : upd f i v i = v := by simp [upd]
theorem upd_ne {α : Type} (f : Nat → α) {i j : Nat} (v : α) (h : j ≠ i) : upd f i v j = f j := by
  simp [upd, h]

theorem mark_vis (s : NS) (e : Wf) (x : Nat) : (s.mark e).vis x = true ↔ x = e.node ∨ s.vis x = true := by
  simp only [NS.mark, upd]; split <;> simp_all

/-- number of nodes below `n` outside a set -/
def missing (n : Nat) (v : Nat → Bool) : Nat := ((List.range n).filter (fun i => !v i)).length

theorem missing_upd_le (n : Nat) (v : Nat → Bool) (i : Nat) : missing n (upd v i true) ≤ missing n v := by
  unfold missing
  induction List.range n with
  | nil => simp
  | cons a t ih =>
    simp only [List.filter_cons]
    by_cases h : a = i
    · subst h; rw [upd_self]; simp; split <;> simp_all <;> omega
    · rw [upd_ne _ _ h]; split <;> simp_all

theorem missing_upd_lt {n : Nat} {v : Nat → Bool} {i : Nat} (hi : i < n) (hv : v i = false) :
    missing n (upd v i true) < missing n v := by
  unfold missing
  have hm : i ∈ List.range n := List.mem_range.2 hi
  revert hm
  induction List.range n with
  | nil => simp
  | cons a t ih =>
    intro hm
    have hle : ((t.filter (fun j => !upd v i true j)).length) ≤ (t.filter (fun j => !v j)).length := by
      clear ih hm
      induction t with
      | nil => simp
      | cons b t ih =>
        simp only [List.filter_cons]
        by_cases h : b = i
        · subst h; rw [upd_self]; simp; split <;> simp_all <;> omega
        · rw [upd_ne _ _ h]; split <;> simp_all
    simp only [List.filter_cons]
    by_cases h : a = i
    · subst h; rw [upd_self, hv]; simp; omega
    · rw [upd_ne _ _ h]
      have := ih (by simpa [Ne.symm h] using hm)
      split <;> simp_all

theorem missing_le (n : Nat) (v : Nat → Bool) : missing n v ≤ n := by
  unfold missing
  exact Nat.le_trans (List.length_filter_le _ _) (by simp)

theorem missing_pos {n : Nat} {v : Nat → Bool} {i : Nat} (hi : i < n) (hv : v i = false) :
    0 < missing n v := Nat.lt_of_le_of_lt (Nat.zero_le _) (missing_upd_lt hi hv)

/-- What holds of a round while it runs. -/
structure PInv (adj : Nat → List Nat) (g n : Nat) (first : Bool) (on : Nat → Bool) (s : NS)
    (q : List Wf) : Prop where
  onVis : ∀ x, on x = true → s.vis x = true
  visLt : ∀ x, s.vis x = true → x < n
  qLt : ∀ e ∈ q, e.node < n
  qOk : ∀ e ∈ q, on e.node = true ∨ (first = true ∧ e.node = g ∧ e.prev = none) ∨
    ∃ p, e.prev = some p ∧ s.vis p = true ∧ e.node ∈ adj p
  tree : ∃ r : Nat → Nat, ∃ B, (∀ x, s.vis x = true → r x < B) ∧
    ∀ x, s.vis x = true → on x = false →
      (s.prev x = none ∧ x = g ∧ first = true) ∨
      ∃ p, s.prev x = some p ∧ s.vis p = true ∧ x ∈ adj p ∧ (on p = true ∨ r p < r x)
  pend : ∀ x, s.vis x = true → (∀ m ∈ adj x, s.vis m = true ∨ ∃ e ∈ q, e.node = m) ∨
    (on x = true ∧ ∃ e ∈ q, e.node = x)

/-- What a finished round yields. -/
structure PEnd (adj : Nat → List Nat) (g n : Nat) (first : Bool) (on : Nat → Bool) (s : NS)
    (last : Option Nat) : Prop where
  onVis : ∀ x, on x = true → s.vis x = true
  visLt : ∀ x, s.vis x = true → x < n
  tree : ∃ r : Nat → Nat, ∃ B, (∀ x, s.vis x = true → r x < B) ∧
    ∀ x, s.vis x = true → on x = false →
      (s.prev x = none ∧ x = g ∧ first = true) ∨
      ∃ p, s.prev x = some p ∧ s.vis p = true ∧ x ∈ adj p ∧ (on p = true ∨ r p < r x)
  pin : ∀ l, last = some l → g < l ∧ l < n ∧ s.vis l = true ∧ on l = false
  done : last = none → (∀ x, Reaches adj g x → s.vis x = true) ∧
    ∀ x, g < x → s.vis x = true → on x = true

theorem tree_mark {adj : Nat → List Nat} {g : Nat} {first : Bool} {on : Nat → Bool} {s : NS} {e : Wf}
    (onVis : ∀ x, on x = true → s.vis x = true)
    (tree : ∃ r : Nat → Nat, ∃ B, (∀ x, s.vis x = true → r x < B) ∧
      ∀ x, s.vis x = true → on x = false →
      (s.prev x = none ∧ x = g ∧ first = true) ∨
      ∃ p, s.prev x = some p ∧ s.vis p = true ∧ x ∈ adj p ∧ (on p = true ∨ r p < r x))
    (he : on e.node = true ∨ (first = true ∧ e.node = g ∧ e.prev = none) ∨
      ∃ p, e.prev = some p ∧ s.vis p = true ∧ e.node ∈ adj p)
    (hn : ¬ (on e.node = false ∧ s.vis e.node = true)) :
    ∃ r : Nat → Nat, ∃ B, (∀ x, (s.mark e).vis x = true → r x < B) ∧
      ∀ x, (s.mark e).vis x = true → on x = false →
      ((s.mark e).prev x = none ∧ x = g ∧ first = true) ∨
      ∃ p, (s.mark e).prev x = some p ∧ (s.mark e).vis p = true ∧ x ∈ adj p ∧ (on p = true ∨ r p < r x) := by
  obtain ⟨r, B, hB, ht⟩ := tree
  by_cases hon : on e.node = true
  · refine ⟨r, B, ?_, ?_⟩
    · intro x hx
      rcases (mark_vis s e x).1 hx with h | h
      · exact hB x (by rw [h]; exact onVis _ hon)
      · exact hB x h
    · intro x hx hox
      have hne : x ≠ e.node := by rintro rfl; simp_all
      have hv : s.vis x = true := by
        rcases (mark_vis s e x).1 hx with h | h
        · exact absurd h hne
        · exact h
      have hp : (s.mark e).prev x = s.prev x := by simp [NS.mark, upd_ne _ _ hne]
      rw [hp]
      rcases ht x hv hox with h | ⟨p, h1, h2, h3, h4⟩
      · exact .inl h
      · exact .inr ⟨p, h1, (mark_vis s e p).2 (.inr h2), h3, h4⟩
  · have hon' : on e.node = false := by simpa using hon
    have hnv : s.vis e.node = false := by
      cases h : s.vis e.node with
      | false => rfl
      | true => exact absurd ⟨hon', h⟩ hn
    refine ⟨upd r e.node B, B + 1, ?_, ?_⟩
    · intro x hx
      rcases (mark_vis s e x).1 hx with h | h
      · subst h; rw [upd_self]; omega
      · have hne : x ≠ e.node := by rintro rfl; simp_all
        rw [upd_ne _ _ hne]; have := hB x h; omega
    · intro x hx hox
      by_cases hxe : x = e.node
      · subst hxe
        have hp : (s.mark e).prev e.node = e.prev := by simp [NS.mark, upd_self]
        rw [hp]
        rcases he with h | ⟨h1, h2, h3⟩ | ⟨p, h1, h2, h3⟩
        · simp_all
        · exact .inl ⟨h3, h2, h1⟩
        · refine .inr ⟨p, h1, (mark_vis s e p).2 (.inr h2), h3, .inr ?_⟩
          have hne : p ≠ e.node := by rintro rfl; simp_all
          rw [upd_self, upd_ne _ _ hne]; exact hB p h2
      · have hv : s.vis x = true := by
          rcases (mark_vis s e x).1 hx with h | h
          · exact absurd h hxe
          · exact h
        have hp : (s.mark e).prev x = s.prev x := by simp [NS.mark, upd_ne _ _ hxe]
        rw [hp]
        rcases ht x hv hox with h | ⟨p, h1, h2, h3, h4⟩
        · exact .inl h
        · have hne : p ≠ e.node := by rintro rfl; simp_all
          refine .inr ⟨p, h1, (mark_vis s e p).2 (.inr h2), h3, ?_⟩
          rw [upd_ne _ _ hne, upd_ne _ _ hxe]; exact h4

theorem mem_eraseIdx_or {α : Type} (q : List α) (i : Nat) (e : α) (h : q[i]? = some e) :
    ∀ x ∈ q, x = e ∨ x ∈ q.eraseIdx i := by
  induction q generalizing i with
  | nil => simp
  | cons a t ih =>
    cases i with
    | zero => simp at h; subst h; simp
    | succ i =>
      simp at h
      intro x hx
      rcases List.mem_cons.1 hx with rfl | hx
      · right; simp
      · rcases ih i h x hx with h' | h'
        · exact .inl h'
        · right; simp [h']

theorem netPop_inv {adj : Nat → List Nat} {g n : Nat} (pick : Nat → Nat) {first : Bool} {on : Nat → Bool}
    (hadj : ∀ i < n, ∀ m ∈ adj i, m < n) :
    ∀ (f k : Nat) (s : NS) (q : List Wf), PInv adj g n first on s q →
      (∀ x, g < x → s.vis x = true → on x = true) →
      (s.vis g = true ∨ (∃ e ∈ q, e.node = g)) →
      ∀ s' last, netPop adj g n pick on f k s q = some (s', last) → PEnd adj g n first on s' last
  | 0, _, _, _ => by intro _ _ _ s' last h; simp [netPop] at h
  | f + 1, k, s, q => by
    intro inv hpins hg s' last h
    rw [netPop] at h
    cases hq : q[pick k % q.length]? with
    | none =>
      rw [hq] at h
      simp only [Option.some.injEq, Prod.mk.injEq] at h
      obtain ⟨rfl, rfl⟩ := h
      have hnil : q = [] := by
        cases q with
        | nil => rfl
        | cons a t =>
          rw [List.getElem?_eq_none_iff] at hq
          have := Nat.mod_lt (pick k) (show 0 < (a :: t).length by simp)
          omega
      subst hnil
      refine ⟨inv.onVis, inv.visLt, inv.tree, by simp, ?_⟩
      intro _
      have hvg : s.vis g = true := by simpa using hg
      refine ⟨?_, hpins⟩
      intro x hx
      induction hx with
      | refl _ => exact hvg
      | step _ hc _ ih =>
        rcases inv.pend _ ih with h | ⟨_, e, he, _⟩
        · rcases h _ hc with h | ⟨e, he, _⟩
          · exact h
          · simp at he
        · simp at he
    | some e =>
      rw [hq] at h
      have heq : e ∈ q := List.mem_of_getElem? hq
      have hsub : ∀ x ∈ q.eraseIdx (pick k % q.length), x ∈ q := fun x hx => List.mem_of_mem_eraseIdx hx
      have hsup := mem_eraseIdx_or q _ e hq
      simp only at h
      split at h
      · rename_i hc
        simp only [Bool.and_eq_true, Bool.not_eq_true'] at hc
        have hkeep : ∀ m, (∃ e' ∈ q, e'.node = m) → s.vis m = true ∨
            ∃ e' ∈ q.eraseIdx (pick k % q.length), e'.node = m := by
          rintro m ⟨e', he', hm⟩
          rcases hsup e' he' with rfl | h'
          · left; rw [← hm]; exact hc.2
          · exact .inr ⟨e', h', hm⟩
        refine netPop_inv pick hadj f (k + 1) s _ ?_ hpins ?_ s' last h
        · refine ⟨inv.onVis, inv.visLt, fun e he => inv.qLt e (hsub e he), fun e he => inv.qOk e (hsub e he),
            inv.tree, ?_⟩
          intro x hx
          rcases inv.pend x hx with h | ⟨h1, e', he', h2⟩
          · left; intro m hm
            rcases h m hm with h | h
            · exact .inl h
            · exact hkeep m h
          · rcases hsup e' he' with rfl | h'
            · rw [h2] at hc; simp_all
            · exact .inr ⟨h1, e', h', h2⟩
        · rcases hg with h | h
          · exact .inl h
          · exact hkeep g h
      · rename_i hc
        have hn : ¬ (on e.node = false ∧ s.vis e.node = true) := by
          simpa [Bool.and_eq_true] using hc
        have hmark := tree_mark inv.onVis inv.tree (inv.qOk e heq) hn
        have hmono : ∀ x, s.vis x = true → (s.mark e).vis x = true := fun x hx => (mark_vis s e x).2 (.inr hx)
        have hvl : ∀ x, (s.mark e).vis x = true → x < n := by
          intro x hx
          rcases (mark_vis s e x).1 hx with h | h
          · rw [h]; exact inv.qLt e heq
          · exact inv.visLt x h
        split at h
        · rename_i hp
          simp only [Option.some.injEq, Prod.mk.injEq] at h
          obtain ⟨rfl, rfl⟩ := h
          refine ⟨fun x hx => hmono x (inv.onVis x hx), hvl, hmark, ?_, by simp⟩
          intro l hl
          simp only [Option.some.injEq] at hl
          subst hl
          refine ⟨hp.1, hp.2.1, (mark_vis s e _).2 (.inl rfl), ?_⟩
          cases ho : on e.node with
          | false => rfl
          | true => have := inv.onVis _ ho; simp_all
        · rename_i hp
          have hkeep : ∀ m, (∃ e' ∈ q, e'.node = m) → (s.mark e).vis m = true ∨
              ∃ e' ∈ q.eraseIdx (pick k % q.length), e'.node = m := by
            rintro m ⟨e', he', hm⟩
            rcases hsup e' he' with rfl | h'
            · left; rw [← hm]; exact (mark_vis s _ _).2 (.inl rfl)
            · exact .inr ⟨e', h', hm⟩
          refine netPop_inv pick hadj f (k + 1) (s.mark e) _ ?_ ?_ ?_ s' last h
          · refine ⟨fun x hx => hmono x (inv.onVis x hx), hvl, ?_, ?_, hmark, ?_⟩
            · intro e' he'
              rcases List.mem_append.1 he' with h' | h'
              · exact inv.qLt e' (hsub e' h')
              · obtain ⟨m, hm, rfl⟩ := List.mem_map.1 h'
                exact hadj _ (inv.qLt e heq) m (List.mem_filter.1 hm).1
            · intro e' he'
              rcases List.mem_append.1 he' with h' | h'
              · rcases inv.qOk e' (hsub e' h') with h1 | h1 | ⟨p, h1, h2, h3⟩
                · exact .inl h1
                · exact .inr (.inl h1)
                · exact .inr (.inr ⟨p, h1, hmono p h2, h3⟩)
              · obtain ⟨m, hm, rfl⟩ := List.mem_map.1 h'
                exact .inr (.inr ⟨e.node, rfl, (mark_vis s e _).2 (.inl rfl), (List.mem_filter.1 hm).1⟩)
            · intro x hx
              by_cases hxe : x = e.node
              · subst hxe
                left; intro m hm
                cases hvm : (s.mark e).vis m with
                | true => exact .inl rfl
                | false =>
                  right
                  refine ⟨⟨m, some e.node, e.cost + 1⟩, ?_, rfl⟩
                  apply List.mem_append_right
                  exact List.mem_map.2 ⟨m, List.mem_filter.2 ⟨hm, by simp [hvm]⟩, rfl⟩
              · have hv : s.vis x = true := by
                  rcases (mark_vis s e x).1 hx with h | h
                  · exact absurd h hxe
                  · exact h
                rcases inv.pend x hv with h | ⟨h1, e', he', h2⟩
                · left; intro m hm
                  rcases h m hm with h | h
                  · exact .inl (hmono m h)
                  · rcases hkeep m h with h | ⟨e', he', h⟩
                    · exact .inl h
                    · exact .inr ⟨e', List.mem_append_left _ he', h⟩
                · rcases hsup e' he' with rfl | h'
                  · exact absurd h2.symm hxe
                  · exact .inr ⟨h1, e', List.mem_append_left _ h', h2⟩
          · intro x hgx hx
            rcases (mark_vis s e x).1 hx with h | h
            · subst h
              cases ho : on e.node with
              | true => rfl
              | false =>
                have hnv : s.vis e.node = false := by
                  cases h : s.vis e.node with
                  | false => rfl
                  | true => exact absurd ⟨ho, h⟩ hn
                exact absurd ⟨hgx, inv.qLt e heq, hnv⟩ hp
            · exact hpins x hgx h
          · rcases hg with h | h
            · exact .inl (hmono g h)
            · rcases hkeep g h with h | ⟨e', he', h⟩
              · exact .inl h
              · exact .inr ⟨e', List.mem_append_left _ he', h⟩

/-- trace-back: the nodes it adds are connected to the start inside the new set -/
theorem netTrace_spec {adj : Nat → List Nat} {g n : Nat} {first : Bool} {on vis : Nat → Bool}
    {prev : Nat → Option Nat} {r : Nat → Nat}
    (hlt : ∀ x, vis x = true → x < n)
    (hreach : ∀ x, on x = true → Within adj (fun y => on y = true) g x)
    (tree : ∀ x, vis x = true → on x = false →
      (prev x = none ∧ x = g ∧ first = true) ∨
      ∃ p, prev x = some p ∧ vis p = true ∧ x ∈ adj p ∧ (on p = true ∨ r p < r x)) :
    ∀ (m f : Nat) (cur : Nat → Bool) (l : Nat), r l < m → vis l = true → on l = false →
      (∀ x, on x = true → cur x = true) → (∀ x, cur x = true → vis x = true) →
      (∀ x, cur x = true → on x = false → r l < r x) →
      missing n cur + 1 ≤ f →
      ∃ on', netTrace prev f cur (some l) = some on' ∧ (∀ x, cur x = true → on' x = true) ∧
        (∀ x, on' x = true → vis x = true) ∧
        Within adj (fun y => on' y = true) g l ∧
        ∀ x, on' x = true → cur x = true ∨ Within adj (fun y => on' y = true) g x := by
  intro m
  induction m with
  | zero => intro f cur l h; omega
  | succ m ih =>
    intro f cur l hrm hvl hol hcur hcv hrank hf
    have hnl : cur l = false := by
      cases h : cur l with
      | false => rfl
      | true => have := hrank l h hol; omega
    cases f with
    | zero => omega
    | succ f =>
    have hmiss := missing_upd_lt (hlt l hvl) hnl
    rw [netTrace, hnl]
    simp only [Bool.false_eq_true, if_false]
    have hcur' : ∀ x, on x = true → upd cur l true x = true := by
      intro x hx; by_cases h : x = l
      · subst h; rw [upd_self]
      · rw [upd_ne _ _ h]; exact hcur x hx
    have hcv' : ∀ x, upd cur l true x = true → vis x = true := by
      intro x hx; by_cases h : x = l
      · rw [h]; exact hvl
      · rw [upd_ne _ _ h] at hx; exact hcv x hx
    have hsup : ∀ x, cur x = true → upd cur l true x = true := by
      intro x hx; by_cases h : x = l
      · subst h; rw [upd_self]
      · rw [upd_ne _ _ h]; exact hx
    have hcase : ∀ x, upd cur l true x = true → x = l ∨ cur x = true := by
      intro x hx; by_cases h : x = l
      · exact .inl h
      · rw [upd_ne _ _ h] at hx; exact .inr hx
    rcases tree l hvl hol with ⟨h1, h2, h3⟩ | ⟨p, h1, h2, h3, h4⟩
    · rw [h1]
      cases f with
      | zero => omega
      | succ f =>
      refine ⟨_, rfl, hsup, hcv', ?_, ?_⟩
      · rw [← h2]; exact .refl (upd_self _ _ _)
      · intro x hx
        rcases hcase x hx with h | h
        · right; rw [h, ← h2]; exact .refl (upd_self _ _ _)
        · exact .inl h
    · rw [h1]
      by_cases hop : on p = true
      · cases f with
        | zero => omega
        | succ f =>
        rw [netTrace, hcur' p hop, if_pos rfl]
        have hw : Within adj (fun y => upd cur l true y = true) g l :=
          .step ((hreach p hop).mono hcur') h3 (upd_self _ _ _)
        refine ⟨_, rfl, hsup, hcv', hw, ?_⟩
        intro x hx
        rcases hcase x hx with h | h
        · right; rw [h]; exact hw
        · exact .inl h
      · have hop' : on p = false := by simpa using hop
        have hrp : r p < r l := by rcases h4 with h4 | h4 <;> simp_all
        obtain ⟨on', e1, e2, e3, e4, e5⟩ := ih f (upd cur l true) p (by omega) h2 hop' hcur' hcv'
          (by
            intro x hx hox
            rcases hcase x hx with h | h
            · rw [h]; exact hrp
            · have := hrank x h hox; omega) (by omega)
        have hw : Within adj (fun y => on' y = true) g l := .step e4 h3 (e2 l (upd_self _ _ _))
        refine ⟨on', e1, fun x hx => e2 x (hsup x hx), e3, hw, ?_⟩
        intro x hx
        rcases e5 x hx with h | h
        · rcases hcase x h with h | h
          · right; rw [h]; exact hw
          · exact .inl h
        · exact .inr h

/-- number of entries of the heap whose node is already on the path -/
def onCount (on : Nat → Bool) (q : List Wf) : Nat := (q.filter (fun e => on e.node)).length

theorem onCount_eraseIdx {on : Nat → Bool} {q : List Wf} {i : Nat} {e : Wf} (h : q[i]? = some e) :
    onCount on (q.eraseIdx i) + (if on e.node then 1 else 0) = onCount on q := by
  induction q generalizing i with
  | nil => simp at h
  | cons a t ih =>
    cases i with
    | zero =>
      simp at h; subst h
      simp only [onCount, List.eraseIdx_zero, List.tail_cons, List.filter_cons]
      split <;> simp
    | succ i =>
      simp at h
      have := ih h
      simp only [onCount, List.eraseIdx_cons_succ, List.filter_cons] at this ⊢
      by_cases ha : on a.node <;> simp [ha] <;> omega

theorem netPop_terminates {adj : Nat → List Nat} {g n D : Nat} (pick : Nat → Nat) {on : Nat → Bool}
    (hadj : ∀ i < n, ∀ m ∈ adj i, m < n) (hD : ∀ i < n, (adj i).length ≤ D) :
    ∀ (f k : Nat) (s : NS) (q : List Wf), (∀ x, on x = true → s.vis x = true) → (∀ e ∈ q, e.node < n) →
      q.length + D * (missing n s.vis + onCount on q) + 1 ≤ f →
      ∃ r, netPop adj g n pick on f k s q = some r
  | 0, _, _, _ => by intro _ _ h; omega
  | f + 1, k, s, q => by
    intro hon hlt hf
    rw [netPop]
    cases hq : q[pick k % q.length]? with
    | none => exact ⟨_, rfl⟩
    | some e =>
      have heq : e ∈ q := List.mem_of_getElem? hq
      have hi : pick k % q.length < q.length := by
        rcases List.getElem?_eq_some_iff.1 hq with ⟨h, _⟩; exact h
      have hlen : (q.eraseIdx (pick k % q.length)).length + 1 = q.length := by
        rw [List.length_eraseIdx, if_pos hi]; omega
      have hsub : ∀ x ∈ q.eraseIdx (pick k % q.length), x ∈ q := fun x hx => List.mem_of_mem_eraseIdx hx
      have hcnt := onCount_eraseIdx (on := on) hq
      simp only
      split
      · have hle : onCount on (q.eraseIdx (pick k % q.length)) ≤ onCount on q := by omega
        have := Nat.mul_le_mul_left D (Nat.add_le_add_left hle (missing n s.vis))
        exact netPop_terminates pick hadj hD f (k + 1) s _ hon (fun x hx => hlt x (hsub x hx)) (by omega)
      · rename_i hc
        split
        · exact ⟨_, rfl⟩
        · refine netPop_terminates pick hadj hD f (k + 1) (s.mark e) _ ?_ ?_ ?_
          · exact fun x hx => (mark_vis s e x).2 (.inr (hon x hx))
          · intro e' he'
            rcases List.mem_append.1 he' with h' | h'
            · exact hlt e' (hsub e' h')
            · obtain ⟨m, hm, rfl⟩ := List.mem_map.1 h'
              exact hadj _ (hlt e heq) m (List.mem_filter.1 hm).1
          · have hpush : onCount on (((adj e.node).filter (fun m => !(s.mark e).vis m)).map
                (fun m => (⟨m, some e.node, e.cost + 1⟩ : Wf))) = 0 := by
              unfold onCount
              rw [List.length_eq_zero_iff, List.filter_eq_nil_iff]
              intro x hx
              obtain ⟨m, hm, rfl⟩ := List.mem_map.1 hx
              have := (List.mem_filter.1 hm).2
              intro ho
              have := (mark_vis s e m).2 (.inr (hon m ho))
              simp_all
            have happ : onCount on (q.eraseIdx (pick k % q.length) ++
                ((adj e.node).filter (fun m => !(s.mark e).vis m)).map
                  (fun m => (⟨m, some e.node, e.cost + 1⟩ : Wf)))
                = onCount on (q.eraseIdx (pick k % q.length)) := by
              unfold onCount at hpush ⊢
              rw [List.filter_append, List.length_append, hpush]; rfl
            rw [happ]
            have hfl : ((adj e.node).filter (fun m => !(s.mark e).vis m)).length ≤ D :=
              Nat.le_trans (List.length_filter_le _ _) (hD _ (hlt e heq))
            have hml : missing n (s.mark e).vis ≤ missing n s.vis := missing_upd_le _ _ _
            simp only [List.length_append, List.length_map]
            have hsum : missing n (s.mark e).vis + onCount on (q.eraseIdx (pick k % q.length)) + 1
                ≤ missing n s.vis + onCount on q := by
              by_cases ho : on e.node = true
              · rw [if_pos ho] at hcnt; omega
              · have ho' : on e.node = false := by simpa using ho
                have hnv : s.vis e.node = false := by
                  cases h : s.vis e.node with
                  | false => rfl
                  | true => simp [ho', h] at hc
                have : missing n (s.mark e).vis < missing n s.vis := missing_upd_lt (hlt e heq) hnv
                omega
            have hmul := Nat.mul_le_mul_left D hsum
            rw [Nat.mul_add, Nat.mul_one] at hmul
            omega

theorem pins_split (g : Nat) (v : Nat → Bool) : ∀ n, pinsVisited g n v +
    ((List.range n).filter (fun i => decide (g ≤ i) && !v i)).length = n - g
  | 0 => by simp [pinsVisited]
  | n + 1 => by
    have ih := pins_split g v n
    unfold pinsVisited at ih ⊢
    rw [List.range_succ, List.filter_append, List.filter_append, List.length_append, List.length_append]
    by_cases h : g ≤ n
    · cases hv : v n <;> simp [List.filter_cons, h, hv] <;> omega
    · simp [List.filter_cons, h]; omega

theorem pins_all_iff (g n : Nat) (v : Nat → Bool) :
    pinsVisited g n v = n - g ↔ ∀ x, g ≤ x → x < n → v x = true := by
  have h := pins_split g v n
  constructor
  · intro he x hg hx
    have h0 : ((List.range n).filter (fun i => decide (g ≤ i) && !v i)).length = 0 := by omega
    rw [List.length_eq_zero_iff, List.filter_eq_nil_iff] at h0
    have := h0 x (List.mem_range.2 hx)
    simpa [hg] using this
  · intro ha
    have h0 : ((List.range n).filter (fun i => decide (g ≤ i) && !v i)).length = 0 := by
      rw [List.length_eq_zero_iff, List.filter_eq_nil_iff]
      intro x hx
      by_cases hg : g ≤ x
      · simp [ha x hg (List.mem_range.1 hx)]
      · simp [hg]
    omega

theorem filter_length_le {p q : Nat → Bool} (h : ∀ x, p x = true → q x = true) (L : List Nat) :
    (L.filter p).length ≤ (L.filter q).length := by
  induction L with
  | nil => simp
  | cons a t ih =>
    simp only [List.filter_cons]
    by_cases hp : p a = true
    · rw [if_pos hp, if_pos (h a hp)]; simp; exact ih
    · rw [if_neg hp]; split
      · simp; omega
      · exact ih

theorem filter_length_lt {p q : Nat → Bool} (h : ∀ x, p x = true → q x = true) {L : List Nat} {a : Nat}
    (ha : a ∈ L) (hq : q a = true) (hp : p a = false) : (L.filter p).length < (L.filter q).length := by
  induction L with
  | nil => simp at ha
  | cons b t ih =>
    simp only [List.filter_cons]
    by_cases hab : a = b
    · subst hab
      rw [hp, hq]; simp
      have := filter_length_le h t; omega
    · have := ih (by simpa [hab] using ha)
      by_cases hpb : p b = true
      · rw [if_pos hpb, if_pos (h b hpb)]; simp; omega
      · rw [if_neg hpb]; split
        · simp; omega
        · exact this

theorem pins_lt {g n : Nat} {v w : Nat → Bool} (h : ∀ x, v x = true → w x = true) {l : Nat}
    (hg : g ≤ l) (hl : l < n) (hw : w l = true) (hv : v l = false) :
    pinsVisited g n v < pinsVisited g n w := by
  unfold pinsVisited
  refine filter_length_lt (a := l) ?_ (List.mem_range.2 hl) ?_ ?_
  · intro x hx; simp only [Bool.and_eq_true] at hx ⊢; exact ⟨hx.1, h x hx.2⟩
  · simp [hg, hw]
  · simp [hv]

/-- What holds between rounds. -/
structure RdInv (adj : Nat → List Nat) (g n i : Nat) (s : NS) (on : Nat → Bool) : Prop where
  vis : s.vis = on
  lt : ∀ x, on x = true → x < n
  reach : ∀ x, on x = true → Within adj (fun y => on y = true) g x
  progress : (i = 0 ∧ ∀ x, on x = false) ∨ (0 < i ∧ on g = true ∧ i + 1 ≤ pinsVisited g n on) ∨
    (0 < i ∧ ∃ x, g ≤ x ∧ x < n ∧ ¬ Reaches adj g x)

theorem within_start {adj : Nat → List Nat} {K : Nat → Prop} {a b : Nat} (w : Within adj K a b) : K a := by
  induction w with
  | refl k => exact k
  | step _ _ _ ih => exact ih

/-- fuel that is enough for every round -/
def roundFuel (n D : Nat) : Nat := 2 * n + 2 + D * (2 * n + 2)

theorem onCount_le (on : Nat → Bool) (q : List Wf) : onCount on q ≤ q.length := List.length_filter_le _ _

theorem netRound_inv {adj : Nat → List Nat} {g n D pen : Nat} (pick : Nat → Nat) {i : Nat} {s : NS} {on : Nat → Bool}
    (hgn : g + 2 ≤ n) (hadj : ∀ i < n, ∀ m ∈ adj i, m < n) (hD : ∀ i < n, (adj i).length ≤ D)
    (hi : i < n - 1 - g) (inv : RdInv adj g n i s on) {fuel : Nat} (hf : roundFuel n D ≤ fuel) :
    ∃ s' on', netRound adj g n pen pick fuel (i == 0) s on = some (s', on') ∧ RdInv adj g n (i + 1) s' on' := by
  by_cases hstuck : 0 < i ∧ ∀ x, on x = false
  · -- nothing on the path after the first round: the heap is empty
    obtain ⟨hi0, hemp⟩ := hstuck
    have hq : netStart g n pen (i == 0) s on = [] := by
      have : (i == 0) = false := by simp; omega
      simp [netStart, this, hemp]
    have hfp : ∃ f', fuel = f' + 1 := ⟨fuel - 1, by unfold roundFuel at hf; omega⟩
    obtain ⟨f', rfl⟩ := hfp
    refine ⟨⟨on, s.prev⟩, on, ?_, rfl, inv.lt, inv.reach, ?_⟩
    · rw [netRound, hq]; simp [netPop, netTrace]
    · rcases inv.progress with h | h | h
      · omega
      · simp [hemp] at h
      · exact .inr (.inr ⟨by omega, h.2⟩)
  · have hong : i = 0 ∨ on g = true := by
      by_cases h0 : i = 0
      · exact .inl h0
      · right
        have : ∃ x, on x = true := by
          apply Classical.byContradiction
          intro hne
          apply hstuck
          refine ⟨by omega, ?_⟩
          intro x
          cases h : on x with
          | false => rfl
          | true => exact absurd ⟨x, h⟩ hne
        obtain ⟨x, hx⟩ := this
        exact within_start (inv.reach x hx)
    have hlt0 : ∀ e ∈ netStart g n pen (i == 0) s on, e.node < n := by
      intro e he
      unfold netStart at he
      split at he
      · simp at he; subst he; show g < n; omega
      · obtain ⟨x, hx, rfl⟩ := List.mem_map.1 he
        exact List.mem_range.1 (List.mem_filter.1 hx).1
    have hpinv : PInv adj g n (i == 0) on s (netStart g n pen (i == 0) s on) := by
      refine ⟨by rw [inv.vis]; exact fun _ h => h, by rw [inv.vis]; exact inv.lt, hlt0, ?_, ?_, ?_⟩
      · intro e he
        unfold netStart at he
        split at he
        · rename_i hc
          simp at he; subst he
          exact .inr (.inl ⟨hc, rfl, rfl⟩)
        · obtain ⟨x, hx, rfl⟩ := List.mem_map.1 he
          exact .inl (List.mem_filter.1 hx).2
      · refine ⟨fun _ => 0, 1, fun _ _ => Nat.zero_lt_one, ?_⟩
        intro x hx hox
        rw [inv.vis] at hx; simp_all
      · intro x hx
        rw [inv.vis] at hx
        right
        refine ⟨hx, ?_⟩
        have h0 : i ≠ 0 := by
          rintro rfl
          rcases inv.progress with h | h | h
          · simp [h.2] at hx
          · omega
          · omega
        have hb : (i == 0) = false := by simp [h0]
        refine ⟨⟨x, s.prev x, if g ≤ x then pen else 0⟩, ?_, rfl⟩
        unfold netStart
        rw [hb]
        exact List.mem_map.2 ⟨x, List.mem_filter.2 ⟨List.mem_range.2 (inv.lt x hx), hx⟩, rfl⟩
    have hg0 : s.vis g = true ∨ ∃ e ∈ netStart g n pen (i == 0) s on, e.node = g := by
      rcases hong with h | h
      · right; refine ⟨⟨g, none, 0⟩, ?_, rfl⟩
        subst h; simp [netStart]
      · left; rw [inv.vis]; exact h
    have hlen : (netStart g n pen (i == 0) s on).length ≤ n := by
      unfold netStart; split
      · simp; omega
      · rw [List.length_map]; exact Nat.le_trans (List.length_filter_le _ _) (by simp)
    obtain ⟨⟨s1, last⟩, hpop⟩ := netPop_terminates (g := g) (D := D) pick hadj hD fuel 0 s
      (netStart g n pen (i == 0) s on) hpinv.onVis hlt0 (by
        have h1 := missing_le n s.vis
        have h2 := onCount_le on (netStart g n pen (i == 0) s on)
        have h3 : missing n s.vis + onCount on (netStart g n pen (i == 0) s on) ≤ 2 * n + 2 := by omega
        have := Nat.mul_le_mul_left D h3
        unfold roundFuel at hf; omega)
    have hend := netPop_inv pick hadj fuel 0 s _ hpinv
      (by intro x _ hx; rw [inv.vis] at hx; exact hx) hg0 s1 last hpop
    have hfl : n + 2 ≤ fuel := by unfold roundFuel at hf; omega
    cases last with
    | none =>
      have hfp : ∃ f', fuel = f' + 1 := ⟨fuel - 1, by omega⟩
      obtain ⟨f', rfl⟩ := hfp
      refine ⟨⟨on, s1.prev⟩, on, ?_, rfl, inv.lt, inv.reach, ?_⟩
      · rw [netRound, hpop]; simp [netTrace]
      · obtain ⟨hd1, hd2⟩ := hend.done rfl
        by_cases hall : ∃ x, g ≤ x ∧ x < n ∧ ¬ Reaches adj g x
        · exact .inr (.inr ⟨by omega, hall⟩)
        · right; left
          have hpin : ∀ x, g < x → x < n → on x = true := by
            intro x hx hxn
            apply hd2 x hx
            apply hd1 x
            apply Classical.byContradiction
            intro hn
            exact hall ⟨x, by omega, hxn, hn⟩
          have hlast := hpin (g + 1) (by omega) (by omega)
          have hog : on g = true := within_start (inv.reach _ hlast)
          refine ⟨by omega, hog, ?_⟩
          have := (pins_all_iff g n on).2 (by
            intro x h1 h2
            by_cases hx : x = g
            · rw [hx]; exact hog
            · exact hpin x (by omega) h2)
          omega
    | some l =>
      obtain ⟨hl1, hl2, hl3, hl4⟩ := hend.pin l rfl
      obtain ⟨r, B, hB, ht⟩ := hend.tree
      obtain ⟨on', e1, e2, e3, e4, e5⟩ := netTrace_spec hend.visLt inv.reach ht B fuel on l (hB l hl3) hl3 hl4
        (fun _ h => h) hend.onVis (by intro x h1 h2; simp_all)
        (by have := missing_le n on; omega)
      refine ⟨⟨on', s1.prev⟩, on', ?_, rfl, fun x hx => hend.visLt x (e3 x hx), ?_, ?_⟩
      · rw [netRound, hpop]; simp [e1]
      · intro x hx
        rcases e5 x hx with h | h
        · exact (inv.reach x h).mono e2
        · exact h
      · have hog : on' g = true := within_start e4
        have hol : on' l = true := e4.mem
        have hlt := pins_lt (g := g) (n := n) e2 (by omega) hl2 hol hl4
        rcases inv.progress with h | h | h
        · right; left
          refine ⟨by omega, hog, ?_⟩
          have hemp := h.2
          have h1 : pinsVisited g n on < pinsVisited g n (upd on l true) :=
            pins_lt (l := l) (fun x hx => by simp [hemp] at hx) (by omega) hl2 (upd_self _ _ _) hl4
          have h2 : pinsVisited g n (upd on l true) < pinsVisited g n on' :=
            pins_lt (l := g) (fun x hx => by
              by_cases hxl : x = l
              · rw [hxl]; exact hol
              · rw [upd_ne _ _ hxl] at hx; exact e2 x hx) (by omega) (by omega) hog
              (by rw [upd_ne _ _ (by omega)]; exact hemp g)
          omega
        · exact .inr (.inl ⟨by omega, hog, by omega⟩)
        · exact .inr (.inr ⟨by omega, h.2⟩)

theorem netRounds_inv {adj : Nat → List Nat} {g n D pen : Nat} (pick : Nat → Nat → Nat)
    (hgn : g + 2 ≤ n) (hadj : ∀ i < n, ∀ m ∈ adj i, m < n) (hD : ∀ i < n, (adj i).length ≤ D)
    {fuel : Nat} (hf : roundFuel n D ≤ fuel) :
    ∀ (r i : Nat) (s : NS) (on : Nat → Bool), r + i = n - 1 - g → RdInv adj g n i s on →
      ∃ s' on', netRounds adj g n pen pick fuel r i s on = some (s', on') ∧ RdInv adj g n (n - 1 - g) s' on'
  | 0, i, s, on => by
    intro h inv
    refine ⟨s, on, rfl, ?_⟩
    have : i = n - 1 - g := by omega
    rw [← this]; exact inv
  | r + 1, i, s, on => by
    intro h inv
    obtain ⟨s1, on1, h1, inv1⟩ := netRound_inv (pen := pen) (pick i) hgn hadj hD (by omega) inv hf
    obtain ⟨s2, on2, h2, inv2⟩ := netRounds_inv (pen := pen) pick hgn hadj hD hf r (i + 1) s1 on1 (by omega) inv1
    exact ⟨s2, on2, by rw [netRounds, h1]; exact h2, inv2⟩

/-- The search as a whole, for a net with at least two pins. -/
theorem netSearch_correct {adj : Nat → List Nat} {g n D : Nat} (hgn : g + 2 ≤ n)
    (hadj : ∀ i < n, ∀ m ∈ adj i, m < n) (hD : ∀ i < n, (adj i).length ≤ D)
    (pen : Nat) (pick : Nat → Nat → Nat) {fuel : Nat} (hf : roundFuel n D ≤ fuel) :
    ∃ r, netSearch adj g n pen pick fuel = some r ∧
      (r.ok = true ↔ ∀ x, g ≤ x → x < n → Reaches adj g x) ∧
      (r.ok = true ↔ ∀ x, g ≤ x → x < n → r.kept x = true) ∧
      ∀ x, r.kept x = true → x < n ∧ Within adj (fun y => r.kept y = true) g x := by
  have h0 : RdInv adj g n 0 ⟨fun _ => false, fun _ => none⟩ (fun _ => false) :=
    ⟨rfl, by simp, by simp, .inl ⟨rfl, fun _ => rfl⟩⟩
  obtain ⟨s, on, h, inv⟩ := netRounds_inv (pen := pen) pick hgn hadj hD hf (n - 1 - g) 0 _ _ (by omega) h0
  refine ⟨_, by rw [netSearch, h], ?_, ?_, ?_⟩
  · simp only [decide_eq_true_eq]
    rw [inv.vis]
    constructor
    · intro hp x h1 h2
      exact (inv.reach x ((pins_all_iff g n on).1 hp x h1 h2)).mono (fun _ _ => trivial)
    · intro ha
      rcases inv.progress with h | ⟨_, _, h⟩ | ⟨_, x, h1, h2, h3⟩
      · omega
      · have := pins_split g on n; omega
      · exact absurd (ha x h1 h2) h3
  · simp only [decide_eq_true_eq]
    exact pins_all_iff g n s.vis
  · intro x hx
    simp only [inv.vis] at hx ⊢
    exact ⟨inv.lt x hx, inv.reach x hx⟩

end TR
