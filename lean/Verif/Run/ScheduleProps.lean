import Verif.Run.ScheduleLemmas
import Verif.Run.PinsProps
/-! # The iterations of detailed routing: properties C110 and C111 -/
namespace TR

theorem runCalls_append {R : RunEnv} : ∀ (a b : List Call) (S : RunSt), runCalls R (a ++ b) S = (runCalls R a S).bind (runCalls R b)
  | [], b, S => rfl
  | c :: a, b, S => by
    rw [List.cons_append, runCalls, runCalls]
    cases searchRepair R c S with
    | none => rfl
    | some S' => exact runCalls_append a b S'

/-! ### every change is checked -/

theorem searchRepair_checked {R : RunEnv} (hR : R.Ok) {c : Call} {S S' : RunSt} (hS : ∀ n, S.flag n = false) (h : searchRepair R c S = some S') :
    (∀ n, S'.flag n = false) ∧ ∀ n, objsOf n S'.d.objs = objsOf n S.d.objs ∨ ∃ os, R.clean n os = some (objsOf n S'.d.objs) := by
  unfold searchRepair at h
  simp only at h
  split at h
  · cases h; exact ⟨hS, fun _ => .inl rfl⟩
  · split at h
    · cases h; exact ⟨hS, fun _ => .inl rfl⟩
    · split at h
      · exact absurd h (by simp)
      · rename_i objs ho
        cases h
        have hfl := fun n => batches_flag_nets hR (c := c) (batches BATCHSIZE R.grid c.size c.offset).flatten (n := n) S (by rw [hS n]; simp)
        constructor
        · intro n
          dsimp only
          cases hn : ((batches BATCHSIZE R.grid c.size c.offset).flatten.foldl (runBatch R c) S).flag n with
          | false => rfl
          | true => simp [hfl n hn]
        · intro n
          dsimp only
          obtain ⟨a1, a2⟩ := checkAll_other hR (n := n) _ _ ho
          cases hn : ((batches BATCHSIZE R.grid c.size c.offset).flatten.foldl (runBatch R c) S).flag n with
          | false => exact .inl ((a1 (by simp [hn])).trans (batches_other hR _ S hn).1)
          | true => exact .inr (a2 (by simp [hn, hfl n hn]))

theorem runCalls_checked {R : RunEnv} (hR : R.Ok) : ∀ (cs : List Call) {S S' : RunSt}, (∀ n, S.flag n = false) → runCalls R cs S = some S' →
    (∀ n, S'.flag n = false) ∧ ∀ n, objsOf n S'.d.objs = objsOf n S.d.objs ∨ ∃ os, R.clean n os = some (objsOf n S'.d.objs)
  | [], S, S', hS, h => by cases h; exact ⟨hS, fun _ => .inl rfl⟩
  | c :: cs, S, S', hS, h => by
    unfold runCalls at h
    split at h
    · exact absurd h (by simp)
    · rename_i S1 h1
      obtain ⟨a1, a2⟩ := searchRepair_checked hR hS h1
      obtain ⟨b1, b2⟩ := runCalls_checked hR cs a1 h
      refine ⟨b1, fun n => ?_⟩
      rcases b2 n with h | h
      · rw [h]; exact a2 n
      · exact .inr h

/-- C110: when the run ends without an error exit, every net either has the shapes it began with or shapes that passed the
connectivity check -/
theorem c110_every_change_checked {R : RunEnv} (hR : R.Ok) {S S' : RunSt} (hS : ∀ n, S.flag n = false) (h : runMain R S = some S') (n : Nat) :
    objsOf n S'.d.objs = objsOf n S.d.objs ∨ ∃ os, R.clean n os = some (objsOf n S'.d.objs) :=
  (runCalls_checked hR schedule hS h).2 n

/-! ### a clean design is final -/

theorem batch_idle {R : RunEnv} {c : Call} (hi : 2 ≤ c.iter) {S : RunSt} (hm : S.d.markers = []) (ws : List Worker) :
    (runBatch R c S ws).d = S.d ∧ ∀ n, (runBatch R c S ws).flag n = S.flag n := by
  have hinit : ∀ W, initMarkers (c.cfg W) S.d.markers = (0, false) := by
    intro W
    rw [hm]
    unfold initMarkers
    have : ¬ c.iter ≤ 1 := by omega
    simp [Call.cfg, this]
  have hskip : ∀ W, skipRouting (c.cfg W) 0 false = true := by
    intro W
    have : c.iter ≠ 0 := by omega
    simp [skipRouting, Call.cfg, this]
  constructor
  · unfold runBatch
    dsimp only
    have : ∀ D, ws.foldl (fun D W => workerEnd R.E (c.cfg W) S.d.markers (R.router c.iter W S.d) D) D = D := by
      intro D
      induction ws generalizing D with
      | nil => rfl
      | cons W ws ih => rw [List.foldl_cons, workerEnd_skip (by rw [hinit]; exact hskip W)]; exact ih D
    exact this _
  · intro n
    unfold runBatch
    have : ws.any (fun W => c.flags R S.d W n) = false := by
      rw [List.any_eq_false]
      intro W _
      unfold Call.flags
      simp only [hinit, hskip]
      simp
    simp [this]

theorem batches_idle {R : RunEnv} {c : Call} (hi : 2 ≤ c.iter) (bs : List (List Worker)) : ∀ {S : RunSt}, S.d.markers = [] →
    (bs.foldl (runBatch R c) S).d = S.d ∧ ∀ n, (bs.foldl (runBatch R c) S).flag n = S.flag n := by
  induction bs with
  | nil => intro S _; exact ⟨rfl, fun _ => rfl⟩
  | cons b bs ih =>
    intro S hm
    obtain ⟨a1, a2⟩ := batch_idle (R := R) hi hm b
    obtain ⟨b1, b2⟩ := ih (S := runBatch R c S b) (by rw [a1]; exact hm)
    rw [List.foldl_cons]
    exact ⟨b1.trans a1, fun n => (b2 n).trans (a2 n)⟩

theorem searchRepair_idle {R : RunEnv} {c : Call} (hi : 2 ≤ c.iter) {S : RunSt} (hm : S.d.markers = []) (hS : ∀ n, S.flag n = false) :
    ∃ S', searchRepair R c S = some S' ∧ S'.d = S.d ∧ ∀ n, S'.flag n = false := by
  unfold searchRepair
  simp only
  split
  · exact ⟨S, rfl, rfl, hS⟩
  · split
    · exact ⟨S, rfl, rfl, hS⟩
    · obtain ⟨a1, a2⟩ := batches_idle (R := R) hi (batches BATCHSIZE R.grid c.size c.offset).flatten hm
      have hnil : R.nets.filter ((batches BATCHSIZE R.grid c.size c.offset).flatten.foldl (runBatch R c) S).flag = [] := by
        rw [List.filter_eq_nil_iff]
        intro n _
        rw [a2 n, hS n]
        simp
      rw [hnil]
      unfold checkAll
      refine ⟨_, rfl, ?_, ?_⟩
      · dsimp only; rw [a1]
      · intro n; dsimp only; rw [a2 n, hS n]; rfl

theorem runCalls_idle {R : RunEnv} : ∀ (cs : List Call) (_ : ∀ c ∈ cs, 2 ≤ c.iter) {S : RunSt}, S.d.markers = [] → (∀ n, S.flag n = false) →
    ∃ S', runCalls R cs S = some S' ∧ S'.d = S.d
  | [], _, S, _, _ => ⟨S, rfl, rfl⟩
  | c :: cs, hc, S, hm, hS => by
    obtain ⟨S1, h1, h2, h3⟩ := searchRepair_idle (R := R) (hc c (by simp)) hm hS
    obtain ⟨S2, h4, h5⟩ := runCalls_idle (R := R) cs (fun c' h' => hc c' (by simp [h'])) (S := S1) (by rw [h2]; exact hm) h3
    refine ⟨S2, ?_, h5.trans h2⟩
    unfold runCalls
    rw [h1]
    exact h4

theorem schedule_iter : ∀ i : Nat, (h : i < schedule.length) → (schedule[i]).iter = i := by decide +kernel

theorem mem_after {pre post : List Call} (h : schedule = pre ++ post) {c : Call} (hc : c ∈ post) : pre.length ≤ c.iter := by
  obtain ⟨j, hj, rfl⟩ := List.mem_iff_getElem.1 hc
  have hlen : schedule.length = pre.length + post.length := by rw [h, List.length_append]
  have := schedule_iter (pre.length + j) (by omega)
  have e : schedule[pre.length + j]'(by omega) = post[j] := by
    simp only [h]
    rw [List.getElem_append_right (by omega)]
    simp
  rw [e] at this
  omega

/-- C110: if after at least two iterations no violation is left, the design is not changed any more -/
theorem c110_clean_is_final {R : RunEnv} (hR : R.Ok) {pre post : List Call} (hsch : schedule = pre ++ post) (hpre : 2 ≤ pre.length) {S S1 : RunSt}
    (hS : ∀ n, S.flag n = false) (h1 : runCalls R pre S = some S1) (hm : S1.d.markers = []) :
    ∃ S2, runMain R S = some S2 ∧ S2.d = S1.d := by
  obtain ⟨S2, h2, h3⟩ := runCalls_idle (R := R) post (fun c hc => by have := mem_after hsch hc; omega) hm (runCalls_checked hR pre hS h1).1
  refine ⟨S2, ?_, h3⟩
  unfold runMain
  rw [hsch, runCalls_append, h1]
  exact h2

/-! ### the number of violations -/

theorem runBatch_viols {R : RunEnv} {c : Call} (hm : c.ripupMode = 0) (hi : 2 ≤ c.iter) {P : DMarker → Prop} (hbest : ∀ i W D, ∀ m ∈ (R.router i W D).best, P m)
    {S : RunSt} (hS : ∀ m ∈ S.d.markers, P m) {ws : List Worker} (hs : ws.Pairwise (fun A B => SeenOnce P A.drcBox B.drcBox)) :
    (runBatch R c S ws).d.markers.length ≤ S.d.markers.length ∧ ∀ m ∈ (runBatch R c S ws).d.markers, P m :=
  batch_viols hm hi (fun W => hbest _ W _) ws hs S.d hS (fun _ _ => rfl)

theorem batches_viols {R : RunEnv} {c : Call} (hm : c.ripupMode = 0) (hi : 2 ≤ c.iter) {P : DMarker → Prop} (hbest : ∀ i W D, ∀ m ∈ (R.router i W D).best, P m)
    (bs : List (List Worker)) (hs : ∀ ws ∈ bs, ws.Pairwise (fun A B => SeenOnce P A.drcBox B.drcBox)) : ∀ {S : RunSt}, (∀ m ∈ S.d.markers, P m) →
    (bs.foldl (runBatch R c) S).d.markers.length ≤ S.d.markers.length ∧ (∀ m ∈ (bs.foldl (runBatch R c) S).d.markers, P m) ∧
      (bs.foldl (runBatch R c) S).viols = S.viols := by
  induction bs with
  | nil => intro S hS; exact ⟨Nat.le_refl _, hS, rfl⟩
  | cons b bs ih =>
    intro S hS
    obtain ⟨a1, a2⟩ := runBatch_viols (R := R) hm hi hbest hS (hs b (by simp))
    obtain ⟨b1, b2, b3⟩ := ih (fun ws h => hs ws (by simp [h])) (S := runBatch R c S b) a2
    rw [List.foldl_cons]
    exact ⟨Nat.le_trans b1 a1, b2, b3⟩

theorem searchRepair_viols {R : RunEnv} (hf : R.grid.Fits) {c : Call} (hm : c.ripupMode = 0) (hi : 2 ≤ c.iter) (hc : 0 < c.size) (ho : -c.size < c.offset)
    (hbest : ∀ i W D, ∀ m ∈ (R.router i W D).best, Compact R.grid c.size m) {S S' : RunSt} (hS : ∀ m ∈ S.d.markers, Compact R.grid c.size m)
    (h : searchRepair R c S = some S') :
    S'.d.markers.length ≤ S.d.markers.length ∧ (∀ m ∈ S'.d.markers, Compact R.grid c.size m) ∧
      (S'.viols = S.viols ∨ S'.viols = S.viols ++ [S'.d.markers.length]) := by
  unfold searchRepair at h
  simp only at h
  split at h
  · cases h; exact ⟨Nat.le_refl _, hS, .inl rfl⟩
  · split at h
    · cases h; exact ⟨Nat.le_refl _, hS, .inl rfl⟩
    · split at h
      · exact absurd h (by simp)
      · cases h
        obtain ⟨a1, a2, a3⟩ := batches_viols (R := R) hm hi hbest (batches BATCHSIZE R.grid c.size c.offset).flatten
          (fun ws hws => by
            rw [List.mem_flatten] at hws
            obtain ⟨col, hcol, hws⟩ := hws
            exact seen_once hf hc ho col hcol ws hws) hS
        exact ⟨a1, a2, .inr (by dsimp only; rw [a3])⟩

theorem runCalls_viols {R : RunEnv} (hf : R.grid.Fits) {size : Int} (hc : 0 < size)
    (hbest : ∀ i W D, ∀ m ∈ (R.router i W D).best, Compact R.grid size m) : ∀ (cs : List Call),
    (∀ c ∈ cs, c.ripupMode = 0 ∧ 2 ≤ c.iter ∧ c.size = size ∧ -size < c.offset) → ∀ {S S' : RunSt}, (∀ m ∈ S.d.markers, Compact R.grid size m) →
    runCalls R cs S = some S' → S'.d.markers.length ≤ S.d.markers.length ∧
      ∃ vs, S'.viols = S.viols ++ vs ∧ vs.Pairwise (fun a b => b ≤ a) ∧ ∀ v ∈ vs, S'.d.markers.length ≤ v ∧ v ≤ S.d.markers.length
  | [], _, S, S', _, h => by cases h; exact ⟨Nat.le_refl _, [], by simp⟩
  | c :: cs, hcs, S, S', hS, h => by
    unfold runCalls at h
    split at h
    · exact absurd h (by simp)
    · rename_i S1 h1
      obtain ⟨q1, q2, q3, q4⟩ := hcs c (by simp)
      subst q3
      obtain ⟨a1, a2, a3⟩ := searchRepair_viols hf q1 q2 hc q4 hbest hS h1
      obtain ⟨b1, vs, b2, b3, b4⟩ := runCalls_viols hf hc hbest cs (fun d hd => hcs d (by simp [hd])) a2 h
      refine ⟨Nat.le_trans b1 a1, ?_⟩
      rcases a3 with e | e
      · refine ⟨vs, by rw [b2, e], b3, fun v hv => ⟨(b4 v hv).1, Nat.le_trans (b4 v hv).2 a1⟩⟩
      · refine ⟨S1.d.markers.length :: vs, by rw [b2, e]; simp, List.pairwise_cons.2 ⟨fun v hv => (b4 v hv).2, b3⟩, ?_⟩
        intro v hv
        simp only [List.mem_cons] at hv
        rcases hv with rfl | hv
        · exact ⟨b1, a1⟩
        · exact ⟨(b4 v hv).1, Nat.le_trans (b4 v hv).2 a1⟩

theorem schedule_repair : ∀ c ∈ schedule, c.ripupMode = 0 → 2 ≤ c.iter ∧ c.size = 7 ∧ -7 < c.offset := by decide +kernel

/-- C110: during consecutive repair iterations of the run (those that do not rip up everything) the number of violations never goes up,
nor do the numbers reported after each of them, as long as all violations are smaller than a region by twice the safety distance -/
theorem c110_repair_no_increase {R : RunEnv} (hf : R.grid.Fits) {pre mid post : List Call} (hsch : schedule = pre ++ mid ++ post)
    (hmode : ∀ c ∈ mid, c.ripupMode = 0) {S S' : RunSt} (h0 : ∀ m ∈ S.d.markers, Compact R.grid 7 m)
    (hbest : ∀ i W D, ∀ m ∈ (R.router i W D).best, Compact R.grid 7 m) (h : runCalls R mid S = some S') :
    S'.d.markers.length ≤ S.d.markers.length ∧
      ∃ vs, S'.viols = S.viols ++ vs ∧ vs.Pairwise (fun a b => b ≤ a) ∧ ∀ v ∈ vs, S'.d.markers.length ≤ v ∧ v ≤ S.d.markers.length := by
  refine runCalls_viols hf (by decide) hbest mid (fun c hc => ?_) h0 h
  obtain ⟨a, b, d⟩ := schedule_repair c (by rw [hsch]; simp [hc]) (hmode c hc)
  exact ⟨hmode c hc, a, b, d⟩

theorem batches_keep_viols {R : RunEnv} {c : Call} (bs : List (List Worker)) : ∀ (S : RunSt), (bs.foldl (runBatch R c) S).viols = S.viols := by
  induction bs with
  | nil => intro S; rfl
  | cons b bs ih => intro S; rw [List.foldl_cons, ih]; rfl

/-- C110: no iteration is skipped as long as a violation is left, nor one that rips up everything: its number of violations is reported; a
repair iteration without violations changes nothing -/
theorem c110_no_early_stop {R : RunEnv} {c : Call} (hc : c ∈ schedule) {S S' : RunSt} (h : searchRepair R c S = some S') :
    (c.ripupMode ≠ 1 → S.d.markers = [] → S' = S) ∧
    (c.ripupMode = 1 ∨ S.d.markers ≠ [] → S'.viols = S.viols ++ [S'.d.markers.length]) := by
  have hlim : ¬ c.iter > END_ITERATION := by
    have : ∀ c ∈ schedule, c.iter ≤ END_ITERATION := by decide +kernel
    have := this c hc
    omega
  unfold searchRepair at h
  simp only at h
  rw [if_neg hlim] at h
  split at h
  · rename_i hs
    cases h
    refine ⟨fun _ _ => rfl, ?_⟩
    rintro (h1 | h1)
    · exact absurd h1 hs.1
    · exact absurd (List.length_eq_zero_iff.1 hs.2) h1
  · rename_i hs
    refine ⟨fun h1 h2 => absurd ⟨h1, by rw [h2]; rfl⟩ hs, fun _ => ?_⟩
    split at h
    · exact absurd h (by simp)
    · cases h
      dsimp only
      rw [batches_keep_viols]

/-- C110: the iterations that rip up everything; all others only repair -/
theorem c110_ripup_iterations : (schedule.filter (fun c => c.ripupMode == 1)).map (·.iter) = [0, 1, 2, 17, 25, 33, 41, 49, 57] ∧
    ∀ c ∈ schedule, c.ripupMode = 1 ∨ c.ripupMode = 0 := by decide +kernel

/-- C110: the run has 65 iterations, numbered from 0, none beyond the limit; the first begins at the first GCell -/
theorem c110_schedule : schedule.map (·.iter) = List.range 65 ∧ (∀ c ∈ schedule, c.iter ≤ END_ITERATION ∧ 0 < c.size ∧ -c.size < c.offset ∧ c.offset ≤ 0) ∧
    (∀ c ∈ schedule, c.iter = 0 → c.offset = 0 ∧ c.ripupMode = 1) := by decide +kernel

/-! ### offsets -/

/-- along one axis a coordinate is inside its region, unless the region begins with the GCell of the coordinate -/
theorem axis_inside {p : GCellPat} {dl dh : Int} (hf : AxisFits p dl dh) {size : Int} (hc : 0 < size) {x : Int} (h1 : dl ≤ x) (h2 : x ≤ dh) :
    ∃ i : Int, ∀ o : Int, -size < o → o ≤ 0 →
      (∃ k : Nat, o + k * size < p.count ∧
        ((axisRoute p dl dh size (o + k * size)).1 < x ∨ (axisRoute p dl dh size (o + k * size)).1 = dl ∧ x = dl) ∧
        (x < (axisRoute p dl dh size (o + k * size)).2 ∨ (axisRoute p dl dh size (o + k * size)).2 = dh ∧ x = dh)) ∨
      ∃ k : Nat, i = o + k * size := by
  obtain ⟨i, ei, i0, i1, hx⟩ := gcellIdx1_iff hf h1 h2
  refine ⟨i, fun o o1 o2 => ?_⟩
  obtain ⟨j, hj, j1, j2, j3⟩ := loop_owner hc (offset := o) (a := i) (n := p.count) (by omega) i1
  obtain ⟨k, rfl, hk⟩ := (mem_loopFrom _ _ _ _ hc).1 hj
  by_cases he : i = o + k * size
  · exact .inr ⟨k, he⟩
  · refine .inl ⟨k, hk, ?_, ?_⟩
    · unfold axisRoute
      dsimp only
      by_cases hj0 : o + k * size ≤ 0
      · rw [show max 0 (o + k * size) = 0 by omega, span_first hf]
        omega
      · rw [show max 0 (o + k * size) = o + k * size by omega]
        have a1 := span_lo_strict hf (i := o + k * size) (j := i) (by omega) (by omega) i1
        have a2 := (hx i i0 i1).1 (Int.le_refl i)
        omega
    · unfold axisRoute
      dsimp only
      by_cases hl : o + k * size + size - 1 < p.count - 1
      · rw [show min (p.count - 1) (o + k * size + size - 1) = o + k * size + size - 1 by omega, span_next hf (by omega) (by omega)]
        have a1 := (hx (o + k * size + size - 1 + 1) (by omega) (by omega))
        have : ¬ (gcellSpan p dl dh (o + k * size + size - 1 + 1)).1 ≤ x := fun h => by have := a1.2 h; omega
        exact .inl (by omega)
      · rw [show min (p.count - 1) (o + k * size + size - 1) = p.count - 1 by omega, span_last hf]
        omega

theorem offsets_unique {size : Int} (hc : 0 < size) {i o o' : Int} (h : -size < o) (h' : o ≤ 0) (g : -size < o') (g' : o' ≤ 0) {k k' : Nat}
    (e : i = o + k * size) (e' : i = o' + k' * size) : o = o' := by
  rcases Nat.lt_trichotomy k k' with hk | hk | hk
  · have : ((k + 1 : Nat) : Int) * size ≤ (k' : Int) * size := Int.mul_le_mul_of_nonneg_right (by omega) (by omega)
    rw [show ((k + 1 : Nat) : Int) = (k : Int) + 1 by omega, Int.add_mul, Int.one_mul] at this
    omega
  · subst hk; omega
  · have : ((k' + 1 : Nat) : Int) * size ≤ (k : Int) * size := Int.mul_le_mul_of_nonneg_right (by omega) (by omega)
    rw [show ((k' + 1 : Nat) : Int) = (k' : Int) + 1 by omega, Int.add_mul, Int.one_mul] at this
    omega

theorem inside_region {g : GGrid} (hf : g.Fits) {size o : Int} (hc : 0 < size) (ho : -size < o) {k l : Nat} (hk : o + k * size < g.xp.count) (hl : o + l * size < g.yp.count)
    {p : Point}
    (h1 : (axisRoute g.xp g.die.left g.die.right size (o + k * size)).1 < p.x ∨ (axisRoute g.xp g.die.left g.die.right size (o + k * size)).1 = g.die.left ∧ p.x = g.die.left)
    (h2 : p.x < (axisRoute g.xp g.die.left g.die.right size (o + k * size)).2 ∨ (axisRoute g.xp g.die.left g.die.right size (o + k * size)).2 = g.die.right ∧ p.x = g.die.right)
    (h3 : (axisRoute g.yp g.die.bottom g.die.top size (o + l * size)).1 < p.y ∨ (axisRoute g.yp g.die.bottom g.die.top size (o + l * size)).1 = g.die.bottom ∧ p.y = g.die.bottom)
    (h4 : p.y < (axisRoute g.yp g.die.bottom g.die.top size (o + l * size)).2 ∨ (axisRoute g.yp g.die.bottom g.die.top size (o + l * size)).2 = g.die.top ∧ p.y = g.die.top) :
    ∃ W ∈ genWorkers g size o, InsideRegion g W p := by
  have a1 : (0 : Int) ≤ k * size := Int.mul_nonneg (by omega) (by omega)
  have a2 : (0 : Int) ≤ l * size := Int.mul_nonneg (by omega) (by omega)
  refine ⟨mkWorker g size (o + k * size) (o + l * size) k l, (mem_genWorkers g size o hc _).2 ⟨k, l, hk, hl, rfl⟩, ?_⟩
  unfold InsideRegion
  rw [routeBox_eq hf hc (by omega) hk (by omega) hl]
  exact ⟨h1, h2, h3, h4⟩

/-- C111: of any three iterations with regions of the same size and different offsets, at least one has every given point of the die
inside a region -/
theorem c111_three_offsets {g : GGrid} (hf : g.Fits) {size : Int} (hc : 0 < size) {o1 o2 o3 : Int} (r1 : -size < o1 ∧ o1 ≤ 0) (r2 : -size < o2 ∧ o2 ≤ 0)
    (r3 : -size < o3 ∧ o3 ≤ 0) (h12 : o1 ≠ o2) (h13 : o1 ≠ o3) (h23 : o2 ≠ o3) {p : Point} (hp : g.die.Mem p) :
    ∃ o, (o = o1 ∨ o = o2 ∨ o = o3) ∧ ∃ W ∈ genWorkers g size o, InsideRegion g W p := by
  obtain ⟨p1, p2, p3, p4⟩ := die_mem.1 hp
  obtain ⟨i, hx⟩ := axis_inside hf.1 hc p1 p2
  obtain ⟨j, hy⟩ := axis_inside hf.2 hc p3 p4
  -- an offset at which both coordinates are inside
  have key : ∀ o, -size < o ∧ o ≤ 0 → (¬ ∃ k : Nat, i = o + k * size) → (¬ ∃ k : Nat, j = o + k * size) → ∃ W ∈ genWorkers g size o, InsideRegion g W p := by
    intro o ro nx ny
    rcases hx o ro.1 ro.2 with ⟨k, hk, b1, b2⟩ | h
    · rcases hy o ro.1 ro.2 with ⟨l, hl, b3, b4⟩ | h
      · exact inside_region hf hc ro.1 hk hl b1 b2 b3 b4
      · exact absurd h ny
    · exact absurd h nx
  have ux : ∀ {a b : Int}, -size < a ∧ a ≤ 0 → -size < b ∧ b ≤ 0 → a ≠ b → (∃ k : Nat, i = a + k * size) → ¬ ∃ k : Nat, i = b + k * size := by
    rintro a b ra rb hab ⟨k, e⟩ ⟨k', e'⟩
    exact hab (offsets_unique hc ra.1 ra.2 rb.1 rb.2 e e')
  have uy : ∀ {a b : Int}, -size < a ∧ a ≤ 0 → -size < b ∧ b ≤ 0 → a ≠ b → (∃ k : Nat, j = a + k * size) → ¬ ∃ k : Nat, j = b + k * size := by
    rintro a b ra rb hab ⟨k, e⟩ ⟨k', e'⟩
    exact hab (offsets_unique hc ra.1 ra.2 rb.1 rb.2 e e')
  by_cases x1 : ∃ k : Nat, i = o1 + k * size
  · by_cases y2 : ∃ k : Nat, j = o2 + k * size
    · exact ⟨o3, .inr (.inr rfl), key o3 r3 (ux r1 r3 h13 x1) (uy r2 r3 h23 y2)⟩
    · exact ⟨o2, .inr (.inl rfl), key o2 r2 (ux r1 r2 h12 x1) y2⟩
  · by_cases y1 : ∃ k : Nat, j = o1 + k * size
    · by_cases x2 : ∃ k : Nat, i = o2 + k * size
      · exact ⟨o3, .inr (.inr rfl), key o3 r3 (ux r2 r3 h23 x2) (uy r1 r3 h13 y1)⟩
      · exact ⟨o2, .inr (.inl rfl), key o2 r2 x2 (uy r1 r2 h12 y1)⟩
    · exact ⟨o1, .inl rfl, key o1 r1 x1 y1⟩

/-- C111: so every point of the die is inside a region in one of the first three iterations, and in one of any three of the seven iterations
of each repair round -/
theorem c111_point_inside {g : GGrid} (hf : g.Fits) {p : Point} (hp : g.die.Mem p) :
    (∃ c ∈ schedule.take 3, ∃ W ∈ genWorkers g c.size c.offset, InsideRegion g W p) ∧
    ∀ s ∈ [3, 10, 18, 26, 34, 42, 50, 58], ∀ a b c : Nat, a < b → b < c → c < 7 →
      ∃ d ∈ schedule, (d.iter = s + a ∨ d.iter = s + b ∨ d.iter = s + c) ∧ d.ripupMode = 0 ∧ ∃ W ∈ genWorkers g d.size d.offset, InsideRegion g W p := by
  constructor
  · obtain ⟨o, ho, W, hW, hin⟩ := c111_three_offsets hf (size := 7) (by decide) (o1 := 0) (o2 := -2) (o3 := -5) (by decide) (by decide) (by decide)
      (by decide) (by decide) (by decide) hp
    rcases ho with rfl | rfl | rfl
    · exact ⟨⟨0, 7, 0, 3, 8, 0, 1, true⟩, by decide, W, hW, hin⟩
    · exact ⟨⟨1, 7, -2, 3, 8, 8, 1, true⟩, by decide, W, hW, hin⟩
    · exact ⟨⟨2, 7, -5, 3, 8, 8, 1, true⟩, by decide, W, hW, hin⟩
  · intro s hs a b c hab hbc hc7
    obtain ⟨o, ho, W, hW, hin⟩ := c111_three_offsets hf (size := 7) (by decide) (o1 := -(a : Int)) (o2 := -(b : Int)) (o3 := -(c : Int)) (by omega) (by omega) (by omega)
      (by omega) (by omega) (by omega) hp
    have hrow : ∀ t ∈ [3, 10, 18, 26, 34, 42, 50, 58], ∀ i : Fin 7, ∃ d ∈ schedule, d.iter = t + i.val ∧ d.ripupMode = 0 ∧ d.size = 7 ∧ d.offset = -(i.val : Int) := by
      decide +kernel
    rcases ho with rfl | rfl | rfl
    · obtain ⟨d, d1, d2, d3, d4, d5⟩ := hrow s hs ⟨a, by omega⟩
      dsimp only at d2 d5
      exact ⟨d, d1, .inl d2, d3, W, by rw [d4, d5]; exact hW, hin⟩
    · obtain ⟨d, d1, d2, d3, d4, d5⟩ := hrow s hs ⟨b, by omega⟩
      dsimp only at d2 d5
      exact ⟨d, d1, .inr (.inl d2), d3, W, by rw [d4, d5]; exact hW, hin⟩
    · obtain ⟨d, d1, d2, d3, d4, d5⟩ := hrow s hs ⟨c, by omega⟩
      dsimp only at d2 d5
      exact ⟨d, d1, .inr (.inr d2), d3, W, by rw [d4, d5]; exact hW, hin⟩

/-! ### examples -/

/-- a die of 14 by 14 GCells of 1000 units -/
def runGrid : GGrid := ⟨⟨⟨0, 0⟩, ⟨14000, 14000⟩⟩, ⟨0, 1000, 14⟩, ⟨0, 1000, 14⟩⟩
theorem runGrid_fits : runGrid.Fits := by
  constructor <;> refine ⟨?_, ?_, ?_, ?_, ?_⟩ <;> decide

/-- a router that reroutes net 1, leaves two violations in each region in the first iteration, and from iteration 3 on finds one less than
the region starts from -/
def runMk (x y : Int) : DMarker := ⟨4, ⟨⟨x, y⟩, ⟨x + 100, y + 100⟩⟩, false, 0⟩
def runEnv : RunEnv :=
  { E := wbEnv, grid := runGrid, nets := [1]
    router := fun i W D => ⟨fun n => decide (n = 1), [.via ⟨1, 3, ⟨W.routeBox.left + 10, W.routeBox.bottom + 10⟩, ⟨⟨-5, -5⟩, ⟨5, 5⟩⟩⟩],
      List.replicate (if i = 0 then 2 else if i < 3 then startViolations W.drcBox D.markers else startViolations W.drcBox D.markers - 1)
        (runMk (W.routeBox.left + 900) (W.routeBox.bottom + 900))⟩
    clean := fun n os => some (os.filter (fun o => o.net == n)) }
def runStart : RunSt := ⟨⟨[], []⟩, fun _ => false, []⟩

theorem runEnv_ok : runEnv.Ok := by
  refine ⟨?_, ?_, ?_, ?_, ?_⟩
  · intro i W D n h; simpa [runEnv] using h
  · intro i W D o ho; simp only [runEnv, List.mem_singleton] at ho ⊢; subst ho; rfl
  · intro n os os' h o ho
    simp only [runEnv, Option.some.injEq] at h
    subst h
    simpa using (List.mem_filter.1 ho).2
  · intro l; exact List.Perm.refl _
  · intro l x hx; exact hx

theorem runEnv_compact : ∀ i W D, ∀ m ∈ (runEnv.router i W D).best, Compact runEnv.grid 7 m := by
  intro i W D m hm
  simp only [runEnv] at hm
  rw [(List.mem_replicate.1 hm).2]
  constructor <;> simp only [runMk, Box.right, Box.left, Box.top, Box.bottom, DRCSAFEDIST, runEnv, runGrid] <;> omega

/-- the hypotheses hold for a run whose violations go up in the first iteration, then down -/
example : runEnv.Ok ∧ runEnv.grid.Fits ∧ (∀ n, runStart.flag n = false) ∧
    (runCalls runEnv (schedule.take 7) runStart).map (fun S => (S.viols, S.d.markers.length, S.d.objs.length)) = some ([8, 8, 8, 7, 6, 5, 4], 4, 6) :=
  ⟨runEnv_ok, runGrid_fits, fun _ => rfl, by decide +kernel⟩

/-- after ten iterations none is left -/
example : (runCalls runEnv (schedule.take 10) runStart).map (fun S => (S.viols, S.d.markers)) = some ([8, 8, 8, 7, 6, 5, 4, 3, 2, 0], []) := by decide +kernel

end TR
