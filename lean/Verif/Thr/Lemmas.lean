import Verif.Thr.Spec
/-! # Executions of parallel loops -/
namespace TR

variable {D S F : Type}

/-- the same with the number of steps -/
inductive ThrReachN (d : D) (t : ThrTask D S F) : Nat → S → List F → Prop where
  | start : ThrReachN d t 0 t.start []
  | step {n : Nat} {s s' : S} {g fs : List F} : ThrReachN d t n s g → t.step d s = some (s', fs) → ThrReachN d t (n + 1) s' (g ++ fs)

theorem reachN_of {d : D} {t : ThrTask D S F} {s : S} {g : List F} (h : ThrReach d t s g) : ∃ n, ThrReachN d t n s g := by
  induction h with
  | start => exact ⟨0, .start⟩
  | step _ hs ih => obtain ⟨n, hn⟩ := ih; exact ⟨n + 1, .step hn hs⟩

theorem reach_of {d : D} {t : ThrTask D S F} {n : Nat} {s : S} {g : List F} (h : ThrReachN d t n s g) : ThrReach d t s g := by
  induction h with
  | start => exact .start
  | step _ hs ih => exact .step ih hs

theorem reachN_fun {d : D} {t : ThrTask D S F} : ∀ {n : Nat} {s s' : S} {g g' : List F}, ThrReachN d t n s g → ThrReachN d t n s' g' → s = s' ∧ g = g' := by
  intro n
  induction n with
  | zero => intro s s' g g' h h'; cases h; cases h'; exact ⟨rfl, rfl⟩
  | succ n ih =>
    intro s s' g g' h h'
    cases h with
    | step h1 e1 =>
      cases h' with
      | step h2 e2 =>
        obtain ⟨rfl, rfl⟩ := ih h1 h2
        rw [e1] at e2; cases e2
        exact ⟨rfl, rfl⟩

/-- what is reached later passes through what is reached before -/
theorem reachN_before {d : D} {t : ThrTask D S F} {n : Nat} {s : S} {g : List F} (h : ThrReachN d t n s g) : ∀ k, k ≤ n → ∃ s' g', ThrReachN d t k s' g' := by
  induction h with
  | start => intro k hk; have : k = 0 := by omega
             subst this; exact ⟨_, _, .start⟩
  | @step n s s' g fs h1 hs ih =>
    intro k hk
    by_cases hk' : k ≤ n
    · exact ih k hk'
    · have : k = n + 1 := by omega
      subst this; exact ⟨_, _, .step h1 hs⟩

theorem reachN_le {d : D} {t : ThrTask D S F} {n m : Nat} {s s' : S} {g g' : List F} (h : ThrReachN d t n s g) (he : t.step d s = none) (h' : ThrReachN d t m s' g') :
    m ≤ n := by
  apply Classical.byContradiction
  intro hn
  obtain ⟨s1, g1, h1⟩ := reachN_before h' (n + 1) (by omega)
  cases h1 with
  | step h2 e2 =>
    obtain ⟨rfl, _⟩ := reachN_fun h h2
    rw [he] at e2; cases e2

theorem solo_unique {d : D} {t : ThrTask D S F} {s s' : S} {g g' : List F} (h : ThrSolo d t s g) (h' : ThrSolo d t s' g') : s = s' ∧ g = g' := by
  obtain ⟨n, hn⟩ := reachN_of h.1
  obtain ⟨m, hm⟩ := reachN_of h'.1
  have h1 := reachN_le hn h.2 hm
  have h2 := reachN_le hm h'.2 hn
  have : n = m := by omega
  subst this
  exact reachN_fun hn hm

theorem flatten_set_perm : ∀ (gs : List (List F)) (i : Nat) (g fs : List F), gs[i]? = some g → ((gs.set i (g ++ fs)).flatten).Perm (gs.flatten ++ fs)
  | [], i, g, fs, h => by simp at h
  | a :: gs, 0, g, fs, h => by
    simp only [List.getElem?_cons_zero, Option.some.injEq] at h
    subst h
    simp only [List.set_cons_zero, List.flatten_cons, List.append_assoc]
    exact List.Perm.append_left _ List.perm_append_comm
  | a :: gs, i + 1, g, fs, h => by
    rw [List.getElem?_cons_succ] at h
    simp only [List.set_cons_succ, List.flatten_cons, List.append_assoc]
    exact List.Perm.append_left _ (flatten_set_perm gs i g fs h)

/-- what holds while a loop is executed: `gs` is what each round has added so far -/
structure ThrInv (d : D) (ts : List (ThrTask D S F)) (st : ThrSt S F) (ns : List Nat) (gs : List (List F)) : Prop where
  priv : st.priv.length = ts.length
  nlen : ns.length = ts.length
  glen : gs.length = ts.length
  got : st.got.Perm gs.flatten
  each : ∀ (i : Nat) (t : ThrTask D S F) (s : S) (n : Nat) (g : List F), ts[i]? = some t → st.priv[i]? = some s → ns[i]? = some n → gs[i]? = some g → ThrReachN d t n s g

theorem thrInv_init (d : D) (ts : List (ThrTask D S F)) : ThrInv d ts (thrInit ts) (List.replicate ts.length 0) (List.replicate ts.length []) := by
  refine ⟨by simp [thrInit], by simp, by simp, ?_, ?_⟩
  · simp [thrInit]
  · intro i t s n g ht hs hn hg
    simp only [thrInit, List.getElem?_map, ht, Option.map_some, Option.some.injEq] at hs
    subst hs
    rw [List.getElem?_replicate] at hn hg
    have hi : i < ts.length := (List.getElem?_eq_some_iff.1 ht).1
    rw [if_pos hi] at hn hg
    cases hn; cases hg
    exact .start

theorem sum_set_succ : ∀ (ns : List Nat) (i n : Nat), ns[i]? = some n → (ns.set i (n + 1)).sum = ns.sum + 1
  | [], i, n, h => by simp at h
  | a :: ns, 0, n, h => by
    simp only [List.getElem?_cons_zero, Option.some.injEq] at h
    subst h
    simp only [List.set_cons_zero, List.sum_cons]; omega
  | a :: ns, i + 1, n, h => by
    rw [List.getElem?_cons_succ] at h
    simp only [List.set_cons_succ, List.sum_cons, sum_set_succ ns i n h]; omega

theorem thrInv_step {d : D} {ts : List (ThrTask D S F)} {a b : ThrSt S F} (hs : ThrStep d ts a b) {ns : List Nat} {gs : List (List F)} (h : ThrInv d ts a ns gs) :
    ∃ ns' gs', ThrInv d ts b ns' gs' ∧ ns'.sum = ns.sum + 1 := by
  cases hs with
  | mk i t s s' fs ht hp he =>
    have hi : i < ts.length := (List.getElem?_eq_some_iff.1 ht).1
    obtain ⟨n, hn⟩ : ∃ n, ns[i]? = some n := ⟨_, List.getElem?_eq_getElem (by rw [h.nlen]; exact hi)⟩
    obtain ⟨g, hg⟩ : ∃ g, gs[i]? = some g := ⟨_, List.getElem?_eq_getElem (by rw [h.glen]; exact hi)⟩
    refine ⟨ns.set i (n + 1), gs.set i (g ++ fs), ⟨by simp [h.priv], by simp [h.nlen], by simp [h.glen], ?_, ?_⟩, sum_set_succ ns i n hn⟩
    · exact (h.got.append_right fs).trans (flatten_set_perm gs i g fs hg).symm
    · intro j u x m k hu hx hm hk
      by_cases hij : i = j
      · subst hij
        rw [ht] at hu; cases hu
        rw [List.getElem?_set_self (by rw [h.priv]; exact hi)] at hx
        rw [List.getElem?_set_self (by rw [h.nlen]; exact hi)] at hm
        rw [List.getElem?_set_self (by rw [h.glen]; exact hi)] at hk
        cases hx; cases hm; cases hk
        exact .step (h.each i t s n g ht hp hn hg) he
      · rw [List.getElem?_set_ne hij] at hx hm hk
        exact h.each j u x m k hu hx hm hk

theorem thrInv_steps {d : D} {ts : List (ThrTask D S F)} {b : ThrSt S F} (hs : ThrSteps d ts (thrInit ts) b) : ∃ ns gs, ThrInv d ts b ns gs := by
  induction hs with
  | refl => exact ⟨_, _, thrInv_init d ts⟩
  | snoc _ h1 ih =>
    obtain ⟨ns, gs, h⟩ := ih
    obtain ⟨ns', gs', h', _⟩ := thrInv_step h1 h
    exact ⟨ns', gs', h'⟩

/-- all rounds end on their own, after at most `N` steps each -/
theorem thrInv_bound {d : D} {ts : List (ThrTask D S F)} {st : ThrSt S F} {ns : List Nat} {gs : List (List F)} (h : ThrInv d ts st ns gs)
    (N : List Nat) (hN : N.length = ts.length) (hb : ∀ (i : Nat) (t : ThrTask D S F) (m : Nat), ts[i]? = some t → N[i]? = some m → ∃ s g, ThrReachN d t m s g ∧ t.step d s = none) :
    ns.sum ≤ N.sum := by
  have key : ∀ (a b : List Nat), a.length = b.length → (∀ (i x y : Nat), a[i]? = some x → b[i]? = some y → x ≤ y) → a.sum ≤ b.sum := by
    intro a
    induction a with
    | nil => intro b hl _; simp
    | cons x a ih =>
      intro b hl hle
      cases b with
      | nil => simp at hl
      | cons y b =>
        simp only [List.sum_cons]
        have h1 := hle 0 x y rfl rfl
        have h2 := ih b (by simpa using hl) (fun i u v hu hv => hle (i + 1) u v (by simpa using hu) (by simpa using hv))
        omega
  refine key _ _ (by rw [h.nlen, hN]) ?_
  intro i x y hx hy
  have hi : i < ts.length := by rw [← h.nlen]; exact (List.getElem?_eq_some_iff.1 hx).1
  obtain ⟨s, g, h1, h2⟩ := hb i _ y (List.getElem?_eq_getElem hi) hy
  exact reachN_le h1 h2 (h.each i _ _ x _ (List.getElem?_eq_getElem hi) (List.getElem?_eq_getElem (by rw [h.priv]; exact hi)) hx (List.getElem?_eq_getElem (by rw [h.glen]; exact hi)))

theorem thrSteps_trans {d : D} {ts : List (ThrTask D S F)} {a b c : ThrSt S F} (h : ThrSteps d ts a b) (h' : ThrSteps d ts b c) : ThrSteps d ts a c := by
  induction h' with
  | refl => exact h
  | snoc _ h1 ih => exact .snoc (ih) h1

/-- a state that is not done can take a step -/
theorem thr_progress {d : D} {ts : List (ThrTask D S F)} {st : ThrSt S F} (h : ¬ ThrDone d ts st) : ∃ st', ThrStep d ts st st' := by
  apply Classical.byContradiction
  intro hn
  apply h
  intro i t s ht hs
  cases he : t.step d s with
  | none => rfl
  | some x => exact (hn ⟨_, .mk st i t s x.1 x.2 ht hs he⟩).elim

theorem thr_complete {d : D} {ts : List (ThrTask D S F)} (N : List Nat) (hN : N.length = ts.length)
    (hb : ∀ (i : Nat) (t : ThrTask D S F) (m : Nat), ts[i]? = some t → N[i]? = some m → ∃ s g, ThrReachN d t m s g ∧ t.step d s = none) :
    ∀ (k : Nat) (st : ThrSt S F) (ns : List Nat) (gs : List (List F)), ThrInv d ts st ns gs → N.sum ≤ ns.sum + k → ∃ st', ThrSteps d ts st st' ∧ ThrDone d ts st' := by
  intro k
  induction k with
  | zero =>
    intro st ns gs h hk
    by_cases hd : ThrDone d ts st
    · exact ⟨st, .refl _, hd⟩
    · obtain ⟨st', h1⟩ := thr_progress hd
      obtain ⟨ns', gs', h2, h3⟩ := thrInv_step h1 h
      have := thrInv_bound h2 N hN hb
      omega
  | succ k ih =>
    intro st ns gs h hk
    by_cases hd : ThrDone d ts st
    · exact ⟨st, .refl _, hd⟩
    · obtain ⟨st', h1⟩ := thr_progress hd
      obtain ⟨ns', gs', h2, h3⟩ := thrInv_step h1 h
      obtain ⟨st2, h4, h5⟩ := ih st' ns' gs' h2 (by omega)
      exact ⟨st2, thrSteps_trans (.snoc (.refl _) h1) h4, h5⟩

theorem steps_list {d : D} : ∀ (ts : List (ThrTask D S F)), (∀ t ∈ ts, ∃ s g, ThrSolo d t s g) →
    ∃ N : List Nat, N.length = ts.length ∧ ∀ (i : Nat) (t : ThrTask D S F) (m : Nat), ts[i]? = some t → N[i]? = some m → ∃ s g, ThrReachN d t m s g ∧ t.step d s = none
  | [], _ => ⟨[], rfl, fun i t m h => by simp at h⟩
  | t :: ts, h => by
    obtain ⟨N, h1, h2⟩ := steps_list ts (fun u hu => h u (List.mem_cons_of_mem _ hu))
    obtain ⟨s, g, h3, h4⟩ := h t List.mem_cons_self
    obtain ⟨n, h5⟩ := reachN_of h3
    refine ⟨n :: N, by simp [h1], ?_⟩
    intro i u m hu hm
    cases i with
    | zero =>
      simp only [List.getElem?_cons_zero, Option.some.injEq] at hu hm
      subst hu; subst hm
      exact ⟨s, g, h5, h4⟩
    | succ i => exact h2 i u m (by simpa using hu) (by simpa using hm)

end TR
