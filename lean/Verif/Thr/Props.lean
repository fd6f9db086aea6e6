import Verif.Thr.Lemmas
import Verif.Run.ScheduleSpec
/-! # The threads of detailed routing -/
namespace TR

variable {D S F : Type}

/-- **C177 (a parallel loop).** However the steps of the rounds are interleaved, at the end of the loop every round has in its memory what it has when it is executed
alone, and what was collected is, up to order, what the rounds add when executed alone. -/
theorem c177_loop {d : D} {ts : List (ThrTask D S F)} {st : ThrSt S F} (h : ThrLoop d ts st) : st.priv.length = ts.length ∧
    ∃ gs : List (List F), gs.length = ts.length ∧ st.got.Perm gs.flatten ∧
      ∀ (i : Nat) (t : ThrTask D S F) (s : S) (g : List F), ts[i]? = some t → st.priv[i]? = some s → gs[i]? = some g → ThrSolo d t s g := by
  obtain ⟨ns, gs, hi⟩ := thrInv_steps h.1
  refine ⟨hi.priv, gs, hi.glen, hi.got, ?_⟩
  intro i t s g ht hs hg
  have hl : i < ns.length := by rw [hi.nlen]; exact (List.getElem?_eq_some_iff.1 ht).1
  exact ⟨reach_of (hi.each i t s _ g ht hs (List.getElem?_eq_getElem hl) hg), h.2 i t s ht hs⟩

/-- **C177 (no dependence on the schedule).** Two executions of a loop end with the same memories and collect the same, up to order. -/
theorem c177_loop_unique {d : D} {ts : List (ThrTask D S F)} {a b : ThrSt S F} (ha : ThrLoop d ts a) (hb : ThrLoop d ts b) : a.priv = b.priv ∧ a.got.Perm b.got := by
  obtain ⟨la, ga, na, pa, ea⟩ := c177_loop ha
  obtain ⟨lb, gb, nb, pb, eb⟩ := c177_loop hb
  have hsame : ∀ (i : Nat) (hi : i < ts.length), a.priv[i]'(by omega) = b.priv[i]'(by omega) ∧ ga[i]'(by omega) = gb[i]'(by omega) := by
    intro i hi
    exact solo_unique (ea i _ _ _ (List.getElem?_eq_getElem hi) (List.getElem?_eq_getElem (by omega)) (List.getElem?_eq_getElem (by omega)))
      (eb i _ _ _ (List.getElem?_eq_getElem hi) (List.getElem?_eq_getElem (by omega)) (List.getElem?_eq_getElem (by omega)))
  refine ⟨?_, ?_⟩
  · exact List.ext_getElem (by omega) (fun i h1 h2 => (hsame i (by omega)).1)
  · have : ga = gb := List.ext_getElem (by omega) (fun i h1 h2 => (hsame i (by omega)).2)
    subst this
    exact pa.trans pb.symm

/-- **C177 (no schedule gets stuck).** If every round ends when executed alone, every begun execution of the loop can be continued to its end, whatever was done before. -/
theorem c177_loop_ends {d : D} {ts : List (ThrTask D S F)} (h : ∀ t ∈ ts, ∃ s g, ThrSolo d t s g) {st : ThrSt S F} (hs : ThrSteps d ts (thrInit ts) st) :
    ∃ st', ThrSteps d ts st st' ∧ ThrLoop d ts st' := by
  obtain ⟨N, h1, h2⟩ := steps_list ts h
  obtain ⟨ns, gs, hi⟩ := thrInv_steps hs
  obtain ⟨st', h3, h4⟩ := thr_complete N h1 h2 N.sum st ns gs hi (by omega)
  exact ⟨st', h3, thrSteps_trans hs h3, h4⟩

theorem zip_map_right {α β γ : Type} (f : β → γ) : ∀ (l : List α) (m : List β), l.zip (m.map f) = (l.zip m).map (fun p => (p.1, f p.2))
  | [], _ => by simp
  | _ :: _, [] => by simp
  | a :: l, b :: m => by simp [zip_map_right f l m]

theorem foldl_zip_eq {α β γ : Type} (f : γ → α → β → γ) (r : α → β) : ∀ (l : List α) (m : List β) (z : γ), m.length = l.length →
    (∀ (i : Nat) (a : α) (b : β), l[i]? = some a → m[i]? = some b → b = r a) → (l.zip m).foldl (fun z p => f z p.1 p.2) z = l.foldl (fun z a => f z a (r a)) z
  | [], m, z, _, _ => by simp
  | a :: l, [], z, h, _ => by simp at h
  | a :: l, b :: m, z, h, he => by
    have hb := he 0 a b rfl rfl
    subst hb
    simp only [List.zip_cons_cons, List.foldl_cons]
    exact foldl_zip_eq f r l m _ (by simpa using h) (fun i x y hx hy => he (i + 1) x y (by simpa using hx) (by simpa using hy))

theorem thrBatch_run {R : RunEnv} {S : Type} {Q : DrProg S} (hq : DrDescribes R Q) {c : Call} {s s' : RunSt} {ws : List Worker} (h : ThrBatch R Q c s ws s') :
    s' = runBatch R c s ws := by
  obtain ⟨st, hl, hd, hf, hv⟩ := h
  obtain ⟨lp, gs, ng, pg, eg⟩ := c177_loop hl
  rw [List.length_map] at lp ng
  have hsolo : ∀ (i : Nat) (W : Worker) (x : S) (g : List Nat), ws[i]? = some W → st.priv[i]? = some x → gs[i]? = some g → ThrSolo s.d (Q.task c W) x g := by
    intro i W x g hw hx hg
    exact eg i _ x g (by rw [List.getElem?_map, hw]; rfl) hx hg
  have h1 : s'.d = ws.foldl (fun D W => workerEnd R.E (c.cfg W) s.d.markers (R.router c.iter W s.d) D) s.d := by
    rw [hd]
    have : (ws.zip st.priv).foldl (fun D p => workerEnd R.E (c.cfg p.1) s.d.markers (Q.result p.2) D) s.d =
        (ws.zip (st.priv.map Q.result)).foldl (fun D p => workerEnd R.E (c.cfg p.1) s.d.markers p.2 D) s.d := by
      rw [zip_map_right, List.foldl_map]
    rw [this]
    refine foldl_zip_eq (fun D W r => workerEnd R.E (c.cfg W) s.d.markers r D) (fun W => R.router c.iter W s.d) ws _ s.d (by simp [lp]) ?_
    intro i W r hw hr
    rw [List.getElem?_map, Option.map_eq_some_iff] at hr
    obtain ⟨x, hx, rfl⟩ := hr
    have hi : i < gs.length := by rw [ng]; exact (List.getElem?_eq_some_iff.1 hw).1
    exact (hq c W s.d x _ (hsolo i W x _ hw hx (List.getElem?_eq_getElem hi))).1
  have h2 : s'.flag = fun n => s.flag n || ws.any (fun W => c.flags R s.d W n) := by
    funext n
    rw [Bool.eq_iff_iff, hf n, Bool.or_eq_true, List.any_eq_true, pg.mem_iff, List.mem_flatten]
    refine or_congr Iff.rfl ?_
    constructor
    · rintro ⟨g, hg, hn⟩
      obtain ⟨i, hi⟩ := List.mem_iff_getElem?.1 hg
      have hlt : i < ws.length := by rw [← ng]; exact (List.getElem?_eq_some_iff.1 hi).1
      have hw := List.getElem?_eq_getElem hlt
      have hx := List.getElem?_eq_getElem (l := st.priv) (i := i) (by omega)
      exact ⟨_, List.getElem_mem hlt, ((hq c _ s.d _ g (hsolo i _ _ g hw hx hi)).2 n).1 hn⟩
    · rintro ⟨W, hW, hn⟩
      obtain ⟨i, hw⟩ := List.mem_iff_getElem?.1 hW
      have hlt : i < ws.length := (List.getElem?_eq_some_iff.1 hw).1
      have hx := List.getElem?_eq_getElem (l := st.priv) (i := i) (by omega)
      have hg := List.getElem?_eq_getElem (l := gs) (i := i) (by omega)
      exact ⟨_, List.mem_of_getElem? hg, ((hq c W s.d _ _ (hsolo i W _ _ hw hx hg)).2 n).2 hn⟩
  cases s' with
  | mk d fl v =>
    simp only at h1 h2 hv
    subst h1; subst h2; subst hv
    rfl

theorem thrBatches_run {R : RunEnv} {S : Type} {Q : DrProg S} (hq : DrDescribes R Q) {c : Call} {s s' : RunSt} {bs : List (List Worker)} (h : ThrBatches R Q c s bs s') :
    s' = bs.foldl (runBatch R c) s := by
  induction h with
  | nil s => rfl
  | cons hb _ ih => rw [List.foldl_cons, ← thrBatch_run hq hb]; exact ih

theorem thrRepair_run {R : RunEnv} {S : Type} {Q : DrProg S} (hq : DrDescribes R Q) {c : Call} {s : RunSt} {o : Option RunSt} (h : ThrRepair R Q c s o) :
    o = searchRepair R c s := by
  unfold ThrRepair at h
  unfold searchRepair
  split at h
  · rename_i h1; rw [if_pos h1]; exact h
  · rename_i h1
    rw [if_neg h1]
    split at h
    · rename_i h2; rw [if_pos h2]; exact h
    · rename_i h2
      rw [if_neg h2]
      obtain ⟨s1, hb, rfl⟩ := h
      rw [thrBatches_run hq hb]
      rfl

/-- **C177 (detailed routing).** Whatever the number of threads, the assignment of regions to threads and the order of their steps, detailed routing ends with the
design, the marks and the numbers of violations that it has when in every batch the workers are executed one after the other. -/
theorem c177_detailed_routing {R : RunEnv} {S : Type} {Q : DrProg S} (hq : DrDescribes R Q) {s : RunSt} {o : Option RunSt} (h : ThrMain R Q s o) : o = runMain R s := by
  unfold ThrMain at h
  unfold runMain
  generalize schedule = cs at h
  induction h with
  | nil s => rfl
  | exit h1 => rw [runCalls, ← thrRepair_run hq h1]
  | next h1 _ ih => rw [runCalls, ← thrRepair_run hq h1]; exact ih

theorem thrBatch_ex {R : RunEnv} {S : Type} {Q : DrProg S} (he : DrEnds Q) (c : Call) (s : RunSt) (ws : List Worker) : ∃ s', ThrBatch R Q c s ws s' := by
  classical
  obtain ⟨st, _, h2⟩ := c177_loop_ends (ts := ws.map (Q.task c)) (d := s.d) (by
    intro t ht
    obtain ⟨W, _, rfl⟩ := List.mem_map.1 ht
    exact he c W s.d) (.refl _)
  exact ⟨⟨_, fun n => s.flag n || decide (n ∈ st.got), s.viols⟩, st, h2, rfl, fun n => by simp, rfl⟩

theorem thrBatches_ex {R : RunEnv} {S : Type} {Q : DrProg S} (he : DrEnds Q) (c : Call) : ∀ (bs : List (List Worker)) (s : RunSt), ∃ s', ThrBatches R Q c s bs s'
  | [], s => ⟨s, .nil s⟩
  | b :: bs, s => by
    obtain ⟨s1, h1⟩ := thrBatch_ex (R := R) he c s b
    obtain ⟨s2, h2⟩ := thrBatches_ex he c bs s1
    exact ⟨s2, .cons h1 h2⟩

/-- **C177 (an execution exists).** If every worker comes to an end when executed alone, detailed routing with threads does. -/
theorem c177_runs {R : RunEnv} {S : Type} {Q : DrProg S} (he : DrEnds Q) (s : RunSt) : ∃ o, ThrMain R Q s o := by
  have hr : ∀ (c : Call) (s : RunSt), ∃ o, ThrRepair R Q c s o := by
    intro c s
    unfold ThrRepair
    split
    · exact ⟨_, rfl⟩
    · split
      · exact ⟨_, rfl⟩
      · obtain ⟨s1, h1⟩ := thrBatches_ex (R := R) he c (batches BATCHSIZE R.grid c.size c.offset).flatten s
        exact ⟨_, s1, h1, rfl⟩
  unfold ThrMain
  generalize schedule = cs
  induction cs generalizing s with
  | nil => exact ⟨_, .nil s⟩
  | cons c cs ih =>
    obtain ⟨o, ho⟩ := hr c s
    cases o with
    | none => exact ⟨none, .exit ho⟩
    | some s' =>
      obtain ⟨o, h2⟩ := ih s'
      exact ⟨o, .next ho h2⟩

/-! ### an example: two rounds that count, in two steps each -/

/-- a round that adds the shared number twice to its own and reports its number after each step -/
def thrExTask (k : Nat) : ThrTask Nat (Nat × Nat) Nat := ⟨(k, 0), fun d s => if s.2 < 2 then some ((s.1 + d, s.2 + 1), [s.1 + d]) else none⟩

/-- an interleaving: first round, second round twice, first round -/
example : ThrLoop 5 [thrExTask 0, thrExTask 100] ⟨[(10, 2), (110, 2)], [5, 105, 110, 10]⟩ := by
  constructor
  · refine .snoc (.snoc (.snoc (.snoc (.refl _) (.mk _ 0 (thrExTask 0) (0, 0) (5, 1) [5] rfl rfl rfl)) (.mk _ 1 (thrExTask 100) (100, 0) (105, 1) [105] rfl rfl rfl))
      (.mk _ 1 (thrExTask 100) (105, 1) (110, 2) [110] rfl rfl rfl)) (.mk _ 0 (thrExTask 0) (5, 1) (10, 2) [10] rfl rfl rfl)
  · intro i t s ht hs
    match i with
    | 0 => simp at ht hs; subst ht; subst hs; rfl
    | 1 => simp at ht hs; subst ht; subst hs; rfl
    | i + 2 => simp at ht

/-- workers in two steps: the first reads the design, the second marks the nets and ends -/
def thrExProg (R : RunEnv) : DrProg (Option (WorkerResult × Bool)) where
  task c W := ⟨none, fun D s => match s with
    | none => some (some (R.router c.iter W D, false), [])
    | some (r, false) => some (some (r, true), R.nets.filter (fun n => c.flags R D W n))
    | some (_, true) => none⟩
  result s := match s with
    | some (r, _) => r
    | none => ⟨fun _ => false, [], []⟩

/-- the hypotheses of the theorems above can be met for every router that reroutes nets of the design only -/
theorem thrEx_meets {R : RunEnv} (h : R.Ok) : DrDescribes R (thrExProg R) ∧ DrEnds (thrExProg R) := by
  have hs : ∀ (c : Call) (W : Worker) (D : DesignSt), ThrSolo D ((thrExProg R).task c W) (some (R.router c.iter W D, true)) (R.nets.filter (fun n => c.flags R D W n)) := by
    intro c W D
    refine ⟨?_, rfl⟩
    have h0 : ThrReach D ((thrExProg R).task c W) none [] := .start
    have h1 : ThrReach D ((thrExProg R).task c W) (some (R.router c.iter W D, false)) ([] ++ []) := .step h0 rfl
    exact .step h1 rfl
  refine ⟨?_, fun c W D => ⟨_, _, hs c W D⟩⟩
  intro c W D s g hg
  obtain ⟨rfl, rfl⟩ := solo_unique hg (hs c W D)
  refine ⟨rfl, ?_⟩
  intro n
  rw [List.mem_filter]
  refine ⟨fun h => h.2, fun hf => ⟨?_, hf⟩⟩
  unfold Call.flags at hf
  simp only [Bool.and_eq_true] at hf
  exact h.nets _ _ _ _ hf.2

end TR
