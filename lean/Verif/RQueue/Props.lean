import Verif.RQueue.Lemmas
/-! # C45, C51: the reroute queue -/
namespace TR

/-- the worker has the nets `D`, and the signal nets among the owners `U` have their subnets there -/
structure QWorld (E : QEnv) (U D : List Nat) : Prop where
  nodup : D.Nodup
  sub : ∀ o ∈ U, E.movable o = true → ∀ d ∈ E.subnets o, d ∈ D

theorem qInit_inv {E : QEnv} {U D : List Nat} (hw : QWorld E U D) {ripup : Bool} {nets : List Nat} (hn : ∀ d ∈ nets, d ∈ D)
    {ms : List QMarker} (hm : ∀ m ∈ ms, m.From U) :
    QInv E D ((qInit E ripup nets ms).queue.map (fun e => (e, 0))) (qInit E ripup nets ms) := by
  have hid : ∀ q : List QEntry, q = (q.map (fun e => (e, 0))).map Prod.fst := by
    intro q; rw [List.map_map]; simp [Function.comp_def]
  cases ripup with
  | true =>
    refine ⟨hid _, ?_, ?_, ?_, fun d => Nat.zero_le _⟩
    · intro x hx
      obtain ⟨e, _, rfl⟩ := List.mem_map.1 hx
      exact Nat.zero_le _
    · simp only [qInit, if_true]
      have : ∀ (l : List Nat) (v : Bool), Guarded (totalR D (fun _ => 0)) (fun _ => 0) v
          ((l.map (fun d => QEntry.route d 0)).map (fun e => (e, 0))) := by
        intro l
        induction l with
        | nil => intro v; trivial
        | cons a r ih => intro v; exact ih _
      exact this nets false
    · intro d n hd
      simp only [qInit, if_true, List.mem_map] at hd
      obtain ⟨d', h1, h2⟩ := hd
      simp only [QEntry.route.injEq] at h2
      obtain ⟨rfl, rfl⟩ := h2
      exact ⟨hn d' h1, Nat.zero_le _, by omega⟩
  | false =>
    obtain ⟨R, C, e1, e2, e3, e4, _⟩ := batch_spec E (fun _ => 0) hm
    refine ⟨hid _, ?_, ?_, ?_, fun d => Nat.zero_le _⟩
    · intro x hx
      obtain ⟨e, _, rfl⟩ := List.mem_map.1 hx
      exact Nat.zero_le _
    · simp only [qInit, e1, Bool.false_eq_true, if_false]
      exact guarded_batch e2 e3 e4 _
    · intro d n hd
      simp only [qInit, Bool.false_eq_true, if_false, e1] at hd
      rcases List.mem_append.1 hd with hd | hd
      · obtain ⟨d2, o, h1, h2, h3, h4, h5⟩ := e2 _ hd
        simp only [QEntry.route.injEq] at h1
        obtain ⟨rfl, rfl⟩ := h1
        exact ⟨hw.sub o h3 h4 d h5, Nat.le_refl _, by omega⟩
      · obtain ⟨o, h1, _⟩ := e3 _ hd; simp at h1

/-- number of passes that always suffices -/
def queueFuel (E : QEnv) (U D : List Nat) (s : QState) : Nat :=
  s.queue.length * (batchBound E U + 1) ^ (D.length * max 1 E.endIter)

/-- C45: the loop ends for every checker and every router, within a number of passes that depends only on
the size of the worker: the queue becomes empty, unless the program exits because a net cannot be routed. -/
theorem c45_queue_terminates {E : QEnv} {U D : List Nat} (hw : QWorld E U D) {ripup : Bool} {nets : List Nat}
    (hn : ∀ d ∈ nets, d ∈ D) {ms : List QMarker} (hm : ∀ m ∈ ms, m.From U) {gc : Nat → Option (List QMarker)}
    (hgc : GcFrom U gc) (routed : Nat → Bool) {fuel : Nat} (hf : queueFuel E U D (qInit E ripup nets ms) ≤ fuel) :
    qRun E gc routed fuel (qInit E ripup nets ms) = .exit ∨
    ∃ s', qRun E gc routed fuel (qInit E ripup nets ms) = .done s' ∧ s'.queue = [] ∧
      QReach E gc routed (qInit E ripup nets ms) s' := by
  refine qRun_ends hw.nodup hw.sub hgc fuel _ _ (qInit_inv hw hn hm) (Nat.le_trans ?_ hf)
  unfold queueFuel
  have : ∀ q : List QEntry, weight (batchBound E U) (D.length * max 1 E.endIter) (q.map (fun e => (e, 0))) =
      q.length * (batchBound E U + 1) ^ (D.length * max 1 E.endIter) := by
    intro q
    unfold weight
    rw [List.map_map]
    induction q with
    | nil => simp
    | cons a r ih => simp only [List.map_cons, List.sum_cons, Function.comp_def] at ih ⊢; rw [ih, List.length_cons, Nat.succ_mul]; simp; omega
  rw [this]
  exact Nat.le_refl _

/-- C45: in every state of the loop no net was rerouted more often than the limit (once if the limit is 0). -/
theorem c45_reroute_limit {E : QEnv} {U D : List Nat} (hw : QWorld E U D) {ripup : Bool} {nets : List Nat}
    (hn : ∀ d ∈ nets, d ∈ D) {ms : List QMarker} (hm : ∀ m ∈ ms, m.From U) {gc : Nat → Option (List QMarker)}
    (hgc : GcFrom U gc) {routed : Nat → Bool} {s : QState} (hr : QReach E gc routed (qInit E ripup nets ms) s) (d : Nat) :
    s.cnt d ≤ max 1 E.endIter := by
  obtain ⟨lq, h⟩ := qReach_inv hw.nodup hw.sub hgc (qInit_inv hw hn hm) hr
  exact h.cap d

/-- C45: a stale entry is removed without any effect. -/
theorem c45_stale_skipped (E : QEnv) (gc : Nat → Option (List QMarker)) (routed : Nat → Bool) {s : QState} {d n : Nat} {q : List QEntry}
    (hq : s.queue = .route d n :: q) (hst : n ≠ s.cnt d) :
    ∃ s', qStep E gc routed s = some s' ∧ s'.cnt = s.cnt ∧ s'.queue = q := by
  unfold qStep
  rw [hq]
  simp only
  rw [if_pos hst]
  exact ⟨_, rfl, rfl, rfl⟩

/-- C51: if a check (in a pass that is not about a stale entry) reports a marker, then every net that is picked for rerouting because of it (a net of
a movable aggressor, or, if no aggressor can be rerouted, of a movable source, that is below the limit)
has been rerouted once more when the loop ends. -/
theorem c51_violations_retried {E : QEnv} {U D : List Nat} (hw : QWorld E U D) {ripup : Bool} {nets : List Nat}
    (hn : ∀ d ∈ nets, d ∈ D) {ms : List QMarker} (hm : ∀ m ∈ ms, m.From U) {gc : Nat → Option (List QMarker)}
    (hgc : GcFrom U gc) {routed : Nat → Bool} {a b s' : QState} (h1 : QReach E gc routed (qInit E ripup nets ms) a)
    (hne : a.queue ≠ []) (hs : qStep E gc routed a = some b) (hact : ∀ d n q, a.queue = .route d n :: q → n = a.cnt d)
    {rep : List QMarker} (hrep : gc a.time = some rep) {m : QMarker} (hmem : m ∈ rep) {o d : Nat} (hd : d ∈ E.subnets o)
    (hmov : E.movable o = true) (hlim : b.cnt d < E.endIter)
    (hwho : some o ∈ m.aggr ∨ (some o ∈ m.srcs ∧ ∀ o', some o' ∈ m.aggr → E.movable o' = true → ∀ d' ∈ E.subnets o', E.endIter ≤ b.cnt d'))
    (h2 : QReach E gc routed b s') (hend : s'.queue = []) : b.cnt d < s'.cnt d := by
  have hopen : d ∈ E.open b.cnt o := List.mem_filter.2 ⟨hd, by simpa using hlim⟩
  have hlive : E.live b.cnt o = true := by
    simp only [QEnv.live, hmov, Bool.true_and, Bool.not_eq_true', List.isEmpty_eq_false_iff]
    intro h; rw [h] at hopen; simp at hopen
  have hown : o ∈ E.rerouteOwners b.cnt m := by
    unfold QEnv.rerouteOwners
    simp only
    split
    · rename_i he
      rw [List.isEmpty_iff] at he
      refine List.mem_filter.2 ⟨(mem_owners _ _).2 ?_, hlive⟩
      rcases hwho with h | ⟨h, _⟩
      · have : o ∈ (toSet (m.aggr.filterMap id)).filter (E.live b.cnt) := List.mem_filter.2 ⟨(mem_owners _ _).2 h, hlive⟩
        rw [he] at this; simp at this
      · exact h
    · rename_i he
      refine List.mem_filter.2 ⟨(mem_owners _ _).2 ?_, hlive⟩
      rcases hwho with h | ⟨_, h⟩
      · exact h
      · exfalso
        apply he
        rw [List.isEmpty_iff]
        apply List.eq_nil_iff_forall_not_mem.2
        intro x hx
        obtain ⟨x1, x2⟩ := List.mem_filter.1 hx
        obtain ⟨d', hd'⟩ := open_nonempty x2
        obtain ⟨y1, y2⟩ := List.mem_filter.1 hd'
        simp only [QEnv.live, Bool.and_eq_true] at x2
        have := h x ((mem_owners _ _).1 x1) x2.1 d' y1
        simp at y2
        omega
  obtain ⟨R, C, e1, _, _, _, _, e6⟩ := batch_spec E b.cnt (hgc _ rep hrep)
  have hin : QEntry.route d (b.cnt d) ∈ batch E b.cnt rep := by
    rw [e1]; exact List.mem_append_left _ (e6 m hmem o hown d hopen)
  have hq : QEntry.route d (b.cnt d) ∈ b.queue := by
    unfold qStep at hs
    cases haq : a.queue with
    | nil => exact absurd haq hne
    | cons e q =>
      rw [haq] at hs
      cases e with
      | route d1 n1 =>
        simp only at hs
        split at hs
        · rename_i hst
          exact absurd (hact d1 n1 q haq) hst
        · split at hs
          · simp only [Option.some.injEq] at hs
            subst hs
            simp only [hrep, pushed]
            exact List.mem_append_right _ hin
          · simp at hs
      | check o1 =>
        simp only [Option.some.injEq] at hs
        subst hs
        simp only [hrep, pushed]
        exact List.mem_append_right _ hin
  rcases qReach_served h2 (.inl ⟨hq, Nat.le_refl _⟩) with ⟨h, _⟩ | h
  · rw [hend] at h; simp at h
  · exact h

/-! ### a worker in which two nets keep violating -/

def queueDemoE : QEnv := ⟨fun o => decide (o < 2), fun o => if o < 2 then [o] else [], 3⟩
def queueDemoGc : Nat → Option (List QMarker) := fun _ => some [⟨[some 0, none], [some 0, some 1, some 2]⟩, ⟨[some 1], [some 1, some 0]⟩]

example : QWorld queueDemoE [0, 1, 2] [0, 1] ∧ GcFrom [0, 1, 2] queueDemoGc := by
  refine ⟨⟨by decide, ?_⟩, ?_⟩
  · intro o _ hm d hd
    simp [queueDemoE] at hm hd
    simp
    omega
  · intro t ms h m hm
    simp only [queueDemoGc, Option.some.injEq] at h
    subst h
    simp at hm
    rcases hm with rfl | rfl <;> constructor <;> intro o ho <;> simp at ho ⊢ <;> omega

/-- both nets are rerouted three times although the checker never stops reporting violations -/
example : (match qRun queueDemoE queueDemoGc (fun _ => true) 100 (qInit queueDemoE true [1, 0] []) with
    | .done s => (s.cnt 0, s.cnt 1, s.queue.length, s.time)
    | _ => (0, 0, 1, 0)) = (3, 3, 0, 91) := by decide

end TR
