import Verif.RQueue.Spec
/-! Lemmas on the reroute queue. -/
namespace TR

/-! ### sets as lists -/

theorem mem_ownIns (s : List Nat) (o x : Nat) : x ∈ ownIns s o ↔ x ∈ s ∨ x = o := by
  unfold ownIns
  split
  · constructor
    · exact Or.inl
    · rintro (h | rfl)
      · exact h
      · assumption
  · simp

theorem ownIns_nodup {s : List Nat} (h : s.Nodup) (o : Nat) : (ownIns s o).Nodup := by
  unfold ownIns
  split
  · exact h
  · rename_i ho
    rw [List.nodup_append]
    refine ⟨h, by simp, ?_⟩
    intro a ha b hb
    simp at hb
    subst hb
    rintro rfl
    exact ho ha

theorem foldl_ownIns (l : List Nat) : ∀ s, s.Nodup → (l.foldl ownIns s).Nodup ∧ ∀ x, x ∈ l.foldl ownIns s ↔ x ∈ s ∨ x ∈ l := by
  induction l with
  | nil => intro s h; exact ⟨h, by simp⟩
  | cons a r ih =>
    intro s h
    obtain ⟨h1, h2⟩ := ih _ (ownIns_nodup h a)
    refine ⟨h1, fun x => ?_⟩
    rw [List.foldl_cons, h2, mem_ownIns, List.mem_cons]
    constructor
    · rintro ((h | h) | h) <;> simp [h]
    · rintro (h | h | h) <;> simp [h]

theorem toSet_nodup (l : List Nat) : (toSet l).Nodup := (foldl_ownIns l [] List.nodup_nil).1
theorem mem_toSet (l : List Nat) (x : Nat) : x ∈ toSet l ↔ x ∈ l := by
  unfold toSet; rw [(foldl_ownIns l [] List.nodup_nil).2]; simp

theorem mem_owners (l : List (Option Nat)) (x : Nat) : x ∈ toSet (l.filterMap id) ↔ some x ∈ l := by
  rw [mem_toSet, List.mem_filterMap]
  simp

theorem erase_sum (f : Nat → Nat) : ∀ (U : List Nat) (a : Nat), a ∈ U → (U.map f).sum = f a + ((U.erase a).map f).sum
  | [], a, h => by simp at h
  | b :: r, a, h => by
    by_cases hab : b = a
    · subst hab; simp
    · have h' : a ∈ r := by
        rcases List.mem_cons.1 h with rfl | h
        · exact absurd rfl hab
        · exact h
      rw [List.erase_cons_tail (by simpa using hab)]
      simp only [List.map_cons, List.sum_cons]
      have := erase_sum f r a h'
      omega

/-- a sum over distinct elements of `U` is at most the sum over `U` -/
theorem nodup_sum_le (f : Nat → Nat) : ∀ (s U : List Nat), s.Nodup → (∀ x ∈ s, x ∈ U) → (s.map f).sum ≤ (U.map f).sum
  | [], _, _, _ => by simp
  | a :: r, U, hn, hs => by
    obtain ⟨h1, h2⟩ := List.nodup_cons.1 hn
    rw [erase_sum f U a (hs a List.mem_cons_self)]
    simp only [List.map_cons, List.sum_cons]
    have := nodup_sum_le f r (U.erase a) h2 (by
      intro x hx
      have hxa : x ≠ a := by rintro rfl; exact h1 hx
      exact (List.mem_erase_of_ne hxa).2 (hs x (List.mem_cons_of_mem _ hx)))
    omega

theorem nodup_length_le {s U : List Nat} (h : s.Nodup) (hs : ∀ x ∈ s, x ∈ U) : s.length ≤ U.length := by
  have e : ∀ l : List Nat, (l.map (fun _ => 1)).sum = l.length := by
    intro l; induction l with
    | nil => rfl
    | cons a r ih => simp only [List.map_cons, List.sum_cons, List.length_cons, ih]; omega
  have := nodup_sum_le (fun _ => 1) s U h hs
  rwa [e, e] at this

/-! ### one batch -/

theorem rerouteOwners_nodup (E : QEnv) (cnt : Nat → Nat) (m : QMarker) : (E.rerouteOwners cnt m).Nodup := by
  unfold QEnv.rerouteOwners
  simp only
  split <;> exact (toSet_nodup _).filter _

theorem rerouteOwners_live {E : QEnv} {cnt : Nat → Nat} {m : QMarker} {o : Nat} (h : o ∈ E.rerouteOwners cnt m) :
    E.live cnt o = true ∧ (some o ∈ m.aggr ∨ some o ∈ m.srcs) := by
  unfold QEnv.rerouteOwners at h
  simp only at h
  split at h
  · obtain ⟨h1, h2⟩ := List.mem_filter.1 h
    exact ⟨h2, .inr ((mem_owners _ _).1 h1)⟩
  · obtain ⟨h1, h2⟩ := List.mem_filter.1 h
    exact ⟨h2, .inl ((mem_owners _ _).1 h1)⟩

theorem open_nonempty {E : QEnv} {cnt : Nat → Nat} {o : Nat} (h : E.live cnt o = true) : ∃ d, d ∈ E.open cnt o := by
  simp only [QEnv.live, Bool.and_eq_true, Bool.not_eq_true'] at h
  cases hl : E.open cnt o with
  | nil => rw [hl] at h; simp at h
  | cons d r => exact ⟨d, by simp⟩

/-- invariant of the accumulators -/
structure AccOK (E : QEnv) (cnt : Nat → Nat) (U : List Nat) (A : QAcc) : Prop where
  va : A.victims.Nodup
  aa : A.aggressors.Nodup
  vU : ∀ o ∈ A.victims, o ∈ U
  aU : ∀ o ∈ A.aggressors, o ∈ U ∧ E.live cnt o = true
  checks : A.checks = A.victims.map .check
  routes : A.routes = A.aggressors.flatMap (fun o => (E.open cnt o).map (fun d => .route d (cnt d)))
  guard : A.checks ≠ [] → A.aggressors ≠ []

theorem filter_new_nodup {s t : List Nat} (h1 : s.Nodup) (h2 : t.Nodup) : (s ++ t.filter (fun o => decide (o ∉ s))).Nodup := by
  rw [List.nodup_append]
  refine ⟨h1, h2.filter _, ?_⟩
  intro a ha b hb
  have := (List.mem_filter.1 hb).2
  simp only [decide_eq_true_eq] at this
  rintro rfl
  exact this ha

theorem updateFromMarker_ok {E : QEnv} {cnt : Nat → Nat} {U : List Nat} {A : QAcc} (h : AccOK E cnt U A) {m : QMarker} (hm : m.From U) :
    AccOK E cnt U (updateFromMarker E cnt A m) ∧ (∀ o ∈ A.aggressors, o ∈ (updateFromMarker E cnt A m).aggressors) ∧
    ∀ o ∈ E.rerouteOwners cnt m, o ∈ (updateFromMarker E cnt A m).aggressors := by
  unfold updateFromMarker
  simp only
  split
  · rename_i he
    rw [List.isEmpty_iff] at he
    exact ⟨h, fun _ h => h, by simp [he]⟩
  · rename_i he
    rw [List.isEmpty_iff] at he
    have hmemA : ∀ o ∈ E.rerouteOwners cnt m, o ∈ A.aggressors ++ (E.rerouteOwners cnt m).filter (fun o => decide (o ∉ A.aggressors)) := by
      intro o ho
      by_cases h' : o ∈ A.aggressors
      · simp [h']
      · simp [h', ho]
    refine ⟨⟨?_, ?_, ?_, ?_, ?_, ?_, ?_⟩, fun o ho => List.mem_append_left _ ho, hmemA⟩
    · exact filter_new_nodup h.va ((toSet_nodup _).filter _)
    · exact filter_new_nodup h.aa (rerouteOwners_nodup E cnt m)
    · intro o ho
      rcases List.mem_append.1 ho with ho | ho
      · exact h.vU o ho
      · have := (List.mem_filter.1 (List.mem_filter.1 ho).1).1
        exact hm.2 o ((mem_owners _ _).1 this)
    · intro o ho
      rcases List.mem_append.1 ho with ho | ho
      · exact h.aU o ho
      · obtain ⟨h1, h2⟩ := rerouteOwners_live (List.mem_filter.1 ho).1
        exact ⟨h2.elim (hm.1 o) (hm.2 o), h1⟩
    · simp only [h.checks, List.map_append]
    · simp only [h.routes, List.flatMap_append]
    · intro _ hnil
      simp only at hnil
      obtain ⟨o, ho⟩ : ∃ o, o ∈ E.rerouteOwners cnt m := by
        cases hh : E.rerouteOwners cnt m with
        | nil => exact absurd hh he
        | cons a r => exact ⟨a, by simp⟩
      have := hmemA o ho
      rw [hnil] at this
      simp at this

theorem foldl_update_ok {E : QEnv} {cnt : Nat → Nat} {U : List Nat} (ms : List QMarker) : ∀ {A : QAcc}, AccOK E cnt U A →
    (∀ m ∈ ms, m.From U) → AccOK E cnt U (ms.foldl (updateFromMarker E cnt) A) ∧
    (∀ o ∈ A.aggressors, o ∈ (ms.foldl (updateFromMarker E cnt) A).aggressors) ∧
    ∀ m ∈ ms, ∀ o ∈ E.rerouteOwners cnt m, o ∈ (ms.foldl (updateFromMarker E cnt) A).aggressors := by
  induction ms with
  | nil => intro A h _; exact ⟨h, fun _ h => h, by simp⟩
  | cons m r ih =>
    intro A h hf
    obtain ⟨a1, a2, a3⟩ := updateFromMarker_ok h (hf m List.mem_cons_self)
    obtain ⟨b1, b2, b3⟩ := ih a1 (fun m' hm' => hf m' (List.mem_cons_of_mem _ hm'))
    refine ⟨b1, fun o ho => b2 o (a2 o ho), ?_⟩
    intro m' hm' o ho
    rcases List.mem_cons.1 hm' with rfl | hm'
    · exact b2 o (a3 o ho)
    · exact b3 m' hm' o ho

theorem accOK_init (E : QEnv) (cnt : Nat → Nat) (U : List Nat) : AccOK E cnt U {} :=
  ⟨List.nodup_nil, List.nodup_nil, by simp, by simp, rfl, rfl, by simp⟩

/-- bound on the entries of one batch -/
def batchBound (E : QEnv) (U : List Nat) : Nat := (U.map (fun o => (E.subnets o).length)).sum + U.length

/-- facts about one batch -/
theorem batch_spec (E : QEnv) (cnt : Nat → Nat) {U : List Nat} {ms : List QMarker} (h : ∀ m ∈ ms, m.From U) :
    ∃ R C, batch E cnt ms = R ++ C ∧
      (∀ e ∈ R, ∃ d o, e = .route d (cnt d) ∧ cnt d < E.endIter ∧ o ∈ U ∧ E.movable o = true ∧ d ∈ E.subnets o) ∧
      (∀ e ∈ C, ∃ o, e = .check o ∧ o ∈ U) ∧ (C ≠ [] → R ≠ []) ∧ R.length + C.length ≤ batchBound E U ∧
      (∀ m ∈ ms, ∀ o ∈ E.rerouteOwners cnt m, ∀ d ∈ E.open cnt o, .route d (cnt d) ∈ R) := by
  obtain ⟨hA, _, hown⟩ := foldl_update_ok ms (accOK_init E cnt U) h
  refine ⟨_, _, rfl, ?_, ?_, ?_, ?_, ?_⟩
  · intro e he
    rw [hA.routes] at he
    obtain ⟨o, ho, he⟩ := List.mem_flatMap.1 he
    obtain ⟨d, hd, rfl⟩ := List.mem_map.1 he
    obtain ⟨h1, h2⟩ := List.mem_filter.1 hd
    have hl := (hA.aU o ho).2
    simp only [QEnv.live, Bool.and_eq_true] at hl
    exact ⟨d, o, rfl, by simpa using h2, (hA.aU o ho).1, hl.1, h1⟩
  · intro e he
    rw [hA.checks] at he
    obtain ⟨o, ho, rfl⟩ := List.mem_map.1 he
    exact ⟨o, rfl, hA.vU o ho⟩
  · intro hC hR
    have hne := hA.guard hC
    cases hagg : (ms.foldl (updateFromMarker E cnt) {}).aggressors with
    | nil => exact hne hagg
    | cons o r =>
      obtain ⟨d, hd⟩ := open_nonempty (hA.aU o (by rw [hagg]; simp)).2
      have : QEntry.route d (cnt d) ∈ (ms.foldl (updateFromMarker E cnt) {}).routes := by
        rw [hA.routes, hagg]
        exact List.mem_flatMap.2 ⟨o, by simp, List.mem_map.2 ⟨d, hd, rfl⟩⟩
      rw [hR] at this
      simp at this
  · have h1 : (ms.foldl (updateFromMarker E cnt) {}).routes.length ≤ (U.map (fun o => (E.subnets o).length)).sum := by
      rw [hA.routes, List.length_flatMap]
      have a1 := nodup_sum_le (fun o => ((E.open cnt o).map (fun d => QEntry.route d (cnt d))).length) _ U hA.aa (fun o ho => (hA.aU o ho).1)
      have a2 : ∀ (V : List Nat), (V.map (fun o => ((E.open cnt o).map (fun d => QEntry.route d (cnt d))).length)).sum ≤
          (V.map (fun o => (E.subnets o).length)).sum := by
        intro V
        induction V with
        | nil => simp
        | cons a r ih =>
          simp only [List.map_cons, List.sum_cons, List.length_map] at ih ⊢
          have : (E.open cnt a).length ≤ (E.subnets a).length := List.length_filter_le _ _
          omega
      exact Nat.le_trans a1 (a2 U)
    have h2 : (ms.foldl (updateFromMarker E cnt) {}).checks.length ≤ U.length := by
      rw [hA.checks, List.length_map]
      exact nodup_length_le hA.va hA.vU
    unfold batchBound
    omega
  · intro m hm o ho d hd
    rw [hA.routes]
    exact List.mem_flatMap.2 ⟨o, hown m hm o ho, List.mem_map.2 ⟨d, hd, rfl⟩⟩

/-- the same for the entries appended after a check -/
theorem pushed_spec (E : QEnv) (cnt : Nat → Nat) {U : List Nat} {o : Option (List QMarker)} (h : ∀ ms, o = some ms → ∀ m ∈ ms, m.From U) :
    ∃ R C, pushed E cnt o = R ++ C ∧
      (∀ e ∈ R, ∃ d o, e = .route d (cnt d) ∧ cnt d < E.endIter ∧ o ∈ U ∧ E.movable o = true ∧ d ∈ E.subnets o) ∧
      (∀ e ∈ C, ∃ o, e = .check o ∧ o ∈ U) ∧ (C ≠ [] → R ≠ []) ∧ R.length + C.length ≤ batchBound E U := by
  cases o with
  | none => exact ⟨[], [], rfl, by simp, by simp, by simp, by simp⟩
  | some ms =>
    obtain ⟨R, C, h1, h2, h3, h4, h5, _⟩ := batch_spec E cnt (h ms rfl)
    exact ⟨R, C, h1, h2, h3, h4, h5⟩

/-! ### the loop -/

/-- a queue with the number of reroutes at the time of each push -/
abbrev LQueue := List (QEntry × Nat)

/-- every check entry that is as young as the last reroute is preceded by a valid route entry -/
def Guarded (tot : Nat) (cnt : Nat → Nat) : Bool → LQueue → Prop
  | _, [] => True
  | v, (.route d n, _) :: q => Guarded tot cnt (v || decide (n = cnt d)) q
  | v, (.check _, l) :: q => (l < tot ∨ v = true) ∧ Guarded tot cnt v q

def anyValid (cnt : Nat → Nat) : LQueue → Bool
  | [] => false
  | (.route d n, _) :: q => decide (n = cnt d) || anyValid cnt q
  | (.check _, _) :: q => anyValid cnt q

theorem guarded_append {tot : Nat} {cnt : Nat → Nat} : ∀ (a b : LQueue) (v : Bool),
    Guarded tot cnt v (a ++ b) ↔ Guarded tot cnt v a ∧ Guarded tot cnt (v || anyValid cnt a) b
  | [], b, v => by simp [Guarded, anyValid]
  | (.route d n, l) :: q, b, v => by
    simp only [List.cons_append, Guarded, anyValid, guarded_append q b, Bool.or_assoc]
  | (.check o, l) :: q, b, v => by
    simp only [List.cons_append, Guarded, anyValid, guarded_append q b, and_assoc]

theorem guarded_mono {tot : Nat} {cnt : Nat → Nat} : ∀ (q : LQueue) (v w : Bool), (v = true → w = true) →
    Guarded tot cnt v q → Guarded tot cnt w q
  | [], _, _, _, _ => trivial
  | (.route d n, l) :: q, v, w, h, hg => by
    refine guarded_mono q _ _ ?_ hg
    simp only [Bool.or_eq_true]
    rintro (h1 | h1)
    · exact .inl (h h1)
    · exact .inr h1
  | (.check o, l) :: q, v, w, h, hg => ⟨hg.1.imp id h, guarded_mono q v w h hg.2⟩

theorem guarded_old {tot : Nat} {cnt : Nat → Nat} : ∀ (q : LQueue) (v : Bool), (∀ x ∈ q, x.2 < tot) → Guarded tot cnt v q
  | [], _, _ => trivial
  | (.route _ _, _) :: q, _, h => guarded_old q _ (fun x hx => h x (List.mem_cons_of_mem _ hx))
  | (.check o, l) :: q, v, h => ⟨.inl (h (.check o, l) List.mem_cons_self), guarded_old q v (fun x hx => h x (List.mem_cons_of_mem _ hx))⟩

theorem guarded_true {tot : Nat} {cnt : Nat → Nat} : ∀ (q : LQueue), Guarded tot cnt true q
  | [] => trivial
  | (.route _ _, _) :: q => by simp only [Guarded, Bool.true_or]; exact guarded_true q
  | (.check _, _) :: q => ⟨.inr rfl, guarded_true q⟩

/-- a freshly pushed batch is guarded -/
theorem guarded_batch {E : QEnv} {cnt : Nat → Nat} {U : List Nat} {tot l : Nat} {R C : List QEntry}
    (hR : ∀ e ∈ R, ∃ d o, e = .route d (cnt d) ∧ cnt d < E.endIter ∧ o ∈ U ∧ E.movable o = true ∧ d ∈ E.subnets o)
    (hC : ∀ e ∈ C, ∃ o, e = .check o ∧ o ∈ U) (h : C ≠ [] → R ≠ []) (v : Bool) :
    Guarded tot cnt v ((R ++ C).map (fun e => (e, l))) := by
  rw [List.map_append, guarded_append]
  cases R with
  | nil =>
    cases C with
    | nil => exact ⟨trivial, trivial⟩
    | cons c r => exact absurd rfl (h (by simp))
  | cons e r =>
    obtain ⟨d, o, rfl, _⟩ := hR e List.mem_cons_self
    simp only [List.map_cons, Guarded, anyValid, decide_true, Bool.or_true, Bool.true_or]
    exact ⟨guarded_true _, guarded_true _⟩

/-- size of a labelled queue: younger entries weigh less -/
def weight (B M : Nat) (q : LQueue) : Nat := (q.map (fun x => (B + 1) ^ (M - x.2))).sum

theorem weight_append (B M : Nat) (a b : LQueue) : weight B M (a ++ b) = weight B M a + weight B M b := by
  simp [weight]

theorem weight_batch (B M l : Nat) (P : List QEntry) (h : P.length ≤ B) : weight B M (P.map (fun e => (e, l))) ≤ B * (B + 1) ^ (M - l) := by
  have : weight B M (P.map (fun e => (e, l))) = P.length * (B + 1) ^ (M - l) := by
    unfold weight
    rw [List.map_map]
    clear h
    induction P with
    | nil => simp
    | cons a r ih => simp only [List.map_cons, List.sum_cons, Function.comp_def] at ih ⊢; rw [ih, List.length_cons, Nat.succ_mul]; omega
  rw [this]
  exact Nat.mul_le_mul_right _ h

theorem weight_drop {B M l : Nat} (h : l < M) : B * (B + 1) ^ (M - (l + 1)) < (B + 1) ^ (M - l) := by
  have e : M - l = (M - (l + 1)) + 1 := by omega
  rw [e, Nat.pow_succ, Nat.mul_comm ((B + 1) ^ (M - (l + 1))) (B + 1)]
  have : 0 < (B + 1) ^ (M - (l + 1)) := Nat.pow_pos (by omega)
  exact (Nat.mul_lt_mul_right this).2 (by omega)

/-- total number of reroutes -/
def totalR (D : List Nat) (cnt : Nat → Nat) : Nat := (D.map cnt).sum

theorem totalR_bump {D : List Nat} (hD : D.Nodup) {cnt : Nat → Nat} {d : Nat} (hd : d ∈ D) :
    totalR D (bump cnt d) = totalR D cnt + 1 := by
  unfold totalR
  rw [erase_sum _ D d hd, erase_sum cnt D d hd]
  have : (D.erase d).map (bump cnt d) = (D.erase d).map cnt := by
    apply List.map_congr_left
    intro x hx
    unfold bump
    rw [if_neg]
    rintro rfl
    exact (List.Nodup.not_mem_erase hD) hx
  rw [this]
  unfold bump
  rw [if_pos rfl]
  omega

theorem sum_le {D : List Nat} {cnt : Nat → Nat} {k : Nat} (h : ∀ d, cnt d ≤ k) : totalR D cnt ≤ D.length * k := by
  unfold totalR
  induction D with
  | nil => simp
  | cons a r ih =>
    simp only [List.map_cons, List.sum_cons, List.length_cons, Nat.succ_mul]
    have := h a
    omega

/-- loop invariant -/
structure QInv (E : QEnv) (D : List Nat) (lq : LQueue) (s : QState) : Prop where
  queue : s.queue = lq.map Prod.fst
  lab : ∀ x ∈ lq, x.2 ≤ totalR D s.cnt
  guard : Guarded (totalR D s.cnt) s.cnt false lq
  ent : ∀ d n, .route d n ∈ s.queue → d ∈ D ∧ n ≤ s.cnt d ∧ n < max 1 E.endIter
  cap : ∀ d, s.cnt d ≤ max 1 E.endIter

theorem weight_young {B M l tot : Nat} (h1 : l < tot) (h2 : tot ≤ M) {P : List QEntry} (hP : P.length ≤ B) :
    weight B M (P.map (fun e => (e, tot))) < (B + 1) ^ (M - l) := by
  have a := weight_batch B M tot P hP
  have b := weight_drop (B := B) (M := M) (l := l) (by omega)
  have c : (B + 1) ^ (M - tot) ≤ (B + 1) ^ (M - (l + 1)) := Nat.pow_le_pow_right (by omega) (by omega)
  have d := Nat.mul_le_mul_left B c
  omega

/-- one pass keeps the invariant and lowers the weight -/
theorem qStep_inv {E : QEnv} {U D : List Nat} (hD : D.Nodup) (hsub : ∀ o ∈ U, E.movable o = true → ∀ d ∈ E.subnets o, d ∈ D)
    {gc : Nat → Option (List QMarker)} (hgc : GcFrom U gc) {routed : Nat → Bool} {lq : LQueue} {s s' : QState}
    (h : QInv E D lq s) (hne : s.queue ≠ []) (hs : qStep E gc routed s = some s') :
    ∃ lq', QInv E D lq' s' ∧
      weight (batchBound E U) (D.length * max 1 E.endIter) lq' < weight (batchBound E U) (D.length * max 1 E.endIter) lq := by
  cases lq with
  | nil => exact absurd h.queue hne
  | cons x q =>
    obtain ⟨e, l⟩ := x
    have hq := h.queue
    rw [List.map_cons] at hq
    have hlab := h.lab (e, l) List.mem_cons_self
    have hwx : ∀ q' : LQueue, weight (batchBound E U) (D.length * max 1 E.endIter) (q ++ q') =
        weight (batchBound E U) (D.length * max 1 E.endIter) q + weight (batchBound E U) (D.length * max 1 E.endIter) q' :=
      fun q' => weight_append _ _ q q'
    have hwc : weight (batchBound E U) (D.length * max 1 E.endIter) ((e, l) :: q) =
        (batchBound E U + 1) ^ (D.length * max 1 E.endIter - l) + weight (batchBound E U) (D.length * max 1 E.endIter) q := by
      simp [weight]
    unfold qStep at hs
    rw [hq] at hs
    cases e with
    | route d n =>
      simp only at hs
      split at hs
      · rename_i hst
        simp only [Option.some.injEq] at hs
        subst hs
        refine ⟨q, ⟨rfl, fun x hx => h.lab x (List.mem_cons_of_mem _ hx), ?_, ?_, h.cap⟩, ?_⟩
        · have := h.guard
          simp only [Guarded] at this
          rw [decide_eq_false hst] at this
          exact this
        · intro d' n' hm
          exact h.ent d' n' (by rw [hq]; exact List.mem_cons_of_mem _ hm)
        · rw [hwc]
          have : 0 < (batchBound E U + 1) ^ (D.length * max 1 E.endIter - l) := Nat.pow_pos (by omega)
          omega
      · rename_i hst
        have hst : n = s.cnt d := by omega
        split at hs
        · simp only [Option.some.injEq] at hs
          subst hs
          obtain ⟨hdD, _, hnlt⟩ := h.ent d n (by rw [hq]; exact List.mem_cons_self)
          have htot := totalR_bump hD (cnt := s.cnt) hdD
          obtain ⟨R, C, e1, e2, e3, e4, e5⟩ := pushed_spec E (bump s.cnt d) (U := U) (o := gc s.time) (fun ms h1 => hgc _ ms h1)
          have hcap : ∀ x, bump s.cnt d x ≤ max 1 E.endIter := by
            intro x
            unfold bump
            split
            · rename_i hx; subst hx; omega
            · exact h.cap x
          refine ⟨q ++ (R ++ C).map (fun e => (e, totalR D (bump s.cnt d))), ⟨?_, ?_, ?_, ?_, hcap⟩, ?_⟩
          · simp only [e1, List.map_append, List.map_map]
            congr 1
            simp [Function.comp_def]
          · intro x hx
            rcases List.mem_append.1 hx with hx | hx
            · have := h.lab x (List.mem_cons_of_mem _ hx); show x.2 ≤ totalR D (bump s.cnt d); omega
            · obtain ⟨e, _, rfl⟩ := List.mem_map.1 hx; exact Nat.le_refl _
          · rw [guarded_append]
            refine ⟨guarded_old _ _ ?_, guarded_batch e2 e3 e4 _⟩
            intro x hx
            have := h.lab x (List.mem_cons_of_mem _ hx)
            show x.2 < totalR D (bump s.cnt d)
            omega
          · intro d' n' hm
            rcases List.mem_append.1 hm with hm | hm
            · obtain ⟨a, b, c⟩ := h.ent d' n' (by rw [hq]; exact List.mem_cons_of_mem _ hm)
              refine ⟨a, ?_, c⟩
              show n' ≤ bump s.cnt d d'
              unfold bump; split <;> omega
            · rw [e1] at hm
              rcases List.mem_append.1 hm with hm | hm
              · obtain ⟨d2, o, h1, h2, h3, h4, h5⟩ := e2 _ hm
                simp only [QEntry.route.injEq] at h1
                obtain ⟨rfl, rfl⟩ := h1
                exact ⟨hsub o h3 h4 d' h5, Nat.le_refl _, by omega⟩
              · obtain ⟨o, h1, _⟩ := e3 _ hm; simp at h1
          · rw [hwx, hwc]
            have := weight_young (B := batchBound E U) (M := D.length * max 1 E.endIter) (l := l) (tot := totalR D (bump s.cnt d))
              (by simp only at hlab; omega) (sum_le hcap) (P := R ++ C) (by rw [List.length_append]; exact e5)
            omega
        · simp at hs
    | check o =>
      simp only [Option.some.injEq] at hs
      subst hs
      obtain ⟨R, C, e1, e2, e3, e4, e5⟩ := pushed_spec E s.cnt (U := U) (o := gc s.time) (fun ms h1 => hgc _ ms h1)
      have hg := h.guard
      simp only [Guarded] at hg
      have hl : l < totalR D s.cnt := by
        rcases hg.1 with h | h
        · exact h
        · simp at h
      refine ⟨q ++ (R ++ C).map (fun e => (e, totalR D s.cnt)), ⟨?_, ?_, ?_, ?_, h.cap⟩, ?_⟩
      · simp only [e1, List.map_append, List.map_map]
        congr 1
        simp [Function.comp_def]
      · intro x hx
        rcases List.mem_append.1 hx with hx | hx
        · exact h.lab x (List.mem_cons_of_mem _ hx)
        · obtain ⟨e, _, rfl⟩ := List.mem_map.1 hx; exact Nat.le_refl _
      · rw [guarded_append]
        exact ⟨hg.2, guarded_batch e2 e3 e4 _⟩
      · intro d' n' hm
        rcases List.mem_append.1 hm with hm | hm
        · exact h.ent d' n' (by rw [hq]; exact List.mem_cons_of_mem _ hm)
        · rw [e1] at hm
          rcases List.mem_append.1 hm with hm | hm
          · obtain ⟨d2, o, h1, h2, h3, h4, h5⟩ := e2 _ hm
            simp only [QEntry.route.injEq] at h1
            obtain ⟨rfl, rfl⟩ := h1
            exact ⟨hsub o h3 h4 d' h5, Nat.le_refl _, by omega⟩
          · obtain ⟨o, h1, _⟩ := e3 _ hm; simp at h1
      · rw [hwx, hwc]
        have := weight_young (B := batchBound E U) (M := D.length * max 1 E.endIter) (l := l) (tot := totalR D s.cnt) hl (sum_le h.cap)
          (P := R ++ C) (by rw [List.length_append]; exact e5)
        omega

/-- states reached satisfy the invariant -/
theorem qReach_inv {E : QEnv} {U D : List Nat} (hD : D.Nodup) (hsub : ∀ o ∈ U, E.movable o = true → ∀ d ∈ E.subnets o, d ∈ D)
    {gc : Nat → Option (List QMarker)} (hgc : GcFrom U gc) {routed : Nat → Bool} {lq : LQueue} {s s' : QState}
    (h : QInv E D lq s) (hr : QReach E gc routed s s') : ∃ lq', QInv E D lq' s' := by
  induction hr with
  | refl => exact ⟨lq, h⟩
  | step _ hne hs ih =>
    obtain ⟨lq1, h1⟩ := ih
    obtain ⟨lq2, h2, _⟩ := qStep_inv hD hsub hgc h1 hne hs
    exact ⟨lq2, h2⟩

theorem qReach_cons {E : QEnv} {gc : Nat → Option (List QMarker)} {routed : Nat → Bool} {s a b : QState} (hne : s.queue ≠ [])
    (h : qStep E gc routed s = some a) (hr : QReach E gc routed a b) : QReach E gc routed s b := by
  induction hr with
  | refl => exact .step .refl hne h
  | step _ h1 h2 ih => exact .step ih h1 h2

/-- with enough fuel the loop ends -/
theorem qRun_ends {E : QEnv} {U D : List Nat} (hD : D.Nodup) (hsub : ∀ o ∈ U, E.movable o = true → ∀ d ∈ E.subnets o, d ∈ D)
    {gc : Nat → Option (List QMarker)} (hgc : GcFrom U gc) {routed : Nat → Bool} : ∀ (fuel : Nat) (lq : LQueue) (s : QState),
    QInv E D lq s → weight (batchBound E U) (D.length * max 1 E.endIter) lq ≤ fuel →
    qRun E gc routed fuel s = .exit ∨ ∃ s', qRun E gc routed fuel s = .done s' ∧ s'.queue = [] ∧ QReach E gc routed s s' := by
  intro fuel
  induction fuel with
  | zero =>
    intro lq s h hw
    have : s.queue = [] := by
      cases lq with
      | nil => exact h.queue
      | cons x r =>
        have : 0 < (batchBound E U + 1) ^ (D.length * max 1 E.endIter - x.2) := Nat.pow_pos (by omega)
        simp [weight] at hw
    exact .inr ⟨s, by simp [qRun, this], this, .refl⟩
  | succ f ih =>
    intro lq s h hw
    by_cases hq : s.queue = []
    · exact .inr ⟨s, by simp [qRun, hq], hq, .refl⟩
    · unfold qRun
      rw [if_neg (by simpa using hq)]
      cases hs : qStep E gc routed s with
      | none => exact .inl rfl
      | some s1 =>
        obtain ⟨lq1, h1, hw1⟩ := qStep_inv hD hsub hgc h hq hs
        rcases ih lq1 s1 h1 (by omega) with h2 | ⟨s', h2, h3, h4⟩
        · exact .inl h2
        · exact .inr ⟨s', h2, h3, qReach_cons hq hs h4⟩

/-- a queued reroute is performed, or was overtaken by another one of that net -/
theorem qReach_served {E : QEnv} {gc : Nat → Option (List QMarker)} {routed : Nat → Bool} {s s' : QState} {d n : Nat}
    (hr : QReach E gc routed s s') (h : (.route d n ∈ s.queue ∧ n ≤ s.cnt d) ∨ n < s.cnt d) :
    (.route d n ∈ s'.queue ∧ n ≤ s'.cnt d) ∨ n < s'.cnt d := by
  induction hr with
  | refl => exact h
  | @step a b _ hne hs ih =>
    have hb : ∀ x, ∀ e, n ≤ bump a.cnt e x ↔ n ≤ a.cnt x + (if x = e then 1 else 0) := by
      intro x e; unfold bump; split <;> simp
    unfold qStep at hs
    cases hq : a.queue with
    | nil => exact absurd hq hne
    | cons e q =>
      rw [hq] at hs
      cases e with
      | route d1 n1 =>
        simp only at hs
        split at hs
        · rename_i hst
          simp only [Option.some.injEq] at hs
          subst hs
          rcases ih with ⟨h1, h2⟩ | h1
          · rw [hq] at h1
            rcases List.mem_cons.1 h1 with h1 | h1
            · simp only [QEntry.route.injEq] at h1
              obtain ⟨rfl, rfl⟩ := h1
              right; show n < a.cnt d; omega
            · exact .inl ⟨h1, h2⟩
          · exact .inr h1
        · rename_i hst
          split at hs
          · simp only [Option.some.injEq] at hs
            subst hs
            have hge : a.cnt d ≤ bump a.cnt d1 d := by unfold bump; split <;> omega
            rcases ih with ⟨h1, h2⟩ | h1
            · rw [hq] at h1
              rcases List.mem_cons.1 h1 with h1 | h1
              · simp only [QEntry.route.injEq] at h1
                obtain ⟨rfl, rfl⟩ := h1
                right
                show n < bump a.cnt d d
                unfold bump; rw [if_pos rfl]; omega
              · exact .inl ⟨List.mem_append_left _ h1, Nat.le_trans h2 hge⟩
            · exact .inr (Nat.lt_of_lt_of_le h1 hge)
          · simp at hs
      | check o =>
        simp only [Option.some.injEq] at hs
        subst hs
        rcases ih with ⟨h1, h2⟩ | h1
        · rw [hq] at h1
          rcases List.mem_cons.1 h1 with h1 | h1
          · simp at h1
          · exact .inl ⟨List.mem_append_left _ h1, h2⟩
        · exact .inr h1

end TR
