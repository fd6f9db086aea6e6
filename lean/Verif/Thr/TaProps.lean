import Verif.Thr.Props
import Verif.TaWork.Props
/-! # The threads of track assignment -/
namespace TR

theorem taChunk_flatten {α : Type} (k : Nat) (acc : List (List α)) (x : α) : (taChunk k acc x).flatten = acc.flatten ++ [x] := by
  unfold taChunk
  cases h : acc.getLast? with
  | none => rw [List.getLast?_eq_none_iff] at h; subst h; simp
  | some b =>
    simp only
    obtain ⟨l, rfl⟩ := List.getLast?_eq_some_iff.1 h
    split
    · simp
    · simp

theorem taChunk_size {α : Type} (k : Nat) (hk : 1 ≤ k) (acc : List (List α)) (x : α) (h : ∀ b ∈ acc, b.length ≤ k) : ∀ b ∈ taChunk k acc x, b.length ≤ k := by
  unfold taChunk
  cases hl : acc.getLast? with
  | none => intro b hb; simp only [List.mem_singleton] at hb; subst hb; simpa using hk
  | some b =>
    simp only
    obtain ⟨l, rfl⟩ := List.getLast?_eq_some_iff.1 hl
    split
    · intro c hc
      rcases List.mem_append.1 hc with hc | hc
      · exact h c hc
      · simp only [List.mem_singleton] at hc; subst hc; simpa using hk
    · intro c hc
      rw [List.dropLast_concat] at hc
      rcases List.mem_append.1 hc with hc | hc
      · exact h c (List.mem_append_left _ hc)
      · simp only [List.mem_singleton] at hc; subst hc
        rw [List.length_append, List.length_singleton]; omega

/-- **C178 (batches).** Every panel is in one batch, in the order of the panels; a batch has at most eight, and with one thread one. -/
theorem c178_batches {α : Type} (threads : Nat) (ps : List α) :
    (taGroups threads ps).flatten = ps ∧ ∀ b ∈ taGroups threads ps, b.length ≤ if threads = 1 then 1 else 8 := by
  unfold taGroups
  split
  · refine ⟨?_, ?_⟩
    · induction ps with
      | nil => rfl
      | cons a ps ih => simp only [List.map_cons, List.flatten_cons, ih]; rfl
    · intro b hb
      obtain ⟨p, _, rfl⟩ := List.mem_map.1 hb
      simp
  · have key : ∀ (ps : List α) (acc : List (List α)), (∀ b ∈ acc, b.length ≤ 8) →
        (ps.foldl (taChunk 8) acc).flatten = acc.flatten ++ ps ∧ ∀ b ∈ ps.foldl (taChunk 8) acc, b.length ≤ 8 := by
      intro ps
      induction ps with
      | nil => intro acc h; simpa using h
      | cons a ps ih =>
        intro acc h
        obtain ⟨h1, h2⟩ := ih (taChunk 8 acc a) (taChunk_size 8 (by omega) acc a h)
        rw [List.foldl_cons]
        refine ⟨?_, h2⟩
        rw [h1, taChunk_flatten]
        simp
    have := key ps [] (by simp)
    simpa using this

theorem mapM_of_each {α β : Type} (f : α → Option β) : ∀ (l : List α) (m : List β), m.length = l.length →
    (∀ (i : Nat) (a : α) (b : β), l[i]? = some a → m[i]? = some b → f a = some b) → l.mapM f = some m
  | [], m, h, _ => by cases m with
    | nil => simp
    | cons _ _ => simp at h
  | a :: l, [], h, _ => by simp at h
  | a :: l, b :: m, h, he => by
    rw [List.mapM_cons, he 0 a b rfl rfl, mapM_of_each f l m (by simpa using h) (fun i x y hx hy => he (i + 1) x y (by simpa using hx) (by simpa using hy))]
    rfl

theorem sum_flatten_nat : ∀ (gs : List (List Nat)), gs.flatten.sum = (gs.map (fun g => g.sum)).sum
  | [] => rfl
  | g :: gs => by simp [sum_flatten_nat gs]

theorem perm_sum_nat {a b : List Nat} (h : a.Perm b) : a.sum = b.sum := by
  induction h with
  | nil => rfl
  | cons x _ ih => simp [ih]
  | swap x y l => simp; omega
  | trans _ _ h1 h2 => rw [h1, h2]

theorem thrTaGroup_run {net : Nat → Nat} {maxRetry : Nat} {S : Type} {T : TaProg S} {out : S → TaPlaces} (hT : TaDescribes net maxRetry T out) {a b : TaPlaces × Nat}
    {ps : List TaPanelIn} (h : ThrTaGroup T out a ps b) : taGroup net maxRetry a ps = some b := by
  obtain ⟨st, hl, h1, h2⟩ := h
  obtain ⟨lp, gs, ng, pg, eg⟩ := c177_loop hl
  rw [List.length_map] at lp ng
  have hm : ps.mapM (panelRun net maxRetry a.1) = some ((st.priv.zip gs).map (fun x => (out x.1, x.2.sum))) := by
    refine mapM_of_each _ _ _ (by simp [lp, ng]) ?_
    intro i p r hp hr
    rw [List.getElem?_map, Option.map_eq_some_iff] at hr
    obtain ⟨x, hx, rfl⟩ := hr
    obtain ⟨hx1, hx2⟩ := List.getElem?_zip_eq_some.1 hx
    exact hT p a.1 x.1 x.2 (eg i _ _ _ (by rw [List.getElem?_map, hp]; rfl) hx1 hx2)
  unfold taGroup
  rw [hm]
  simp only [Option.map_some, Option.some.injEq]
  have e1 : b.2 = a.2 + (List.map (fun r => r.2) (List.map (fun x => (out x.1, x.2.sum)) (st.priv.zip gs))).sum := by
    rw [h2, perm_sum_nat pg, sum_flatten_nat, List.map_map]
    congr 2
    have : gs = (st.priv.zip gs).map (fun x => x.2) := by
      rw [List.map_snd_zip (by omega)]
    conv => lhs; rw [this]
    rw [List.map_map]
    rfl
  have e2 : b.1 = (ps.zip (List.map (fun x => (out x.1, x.2.sum)) (st.priv.zip gs))).foldl (fun o x => panelEnd x.1 x.2.1 o) a.1 := by
    rw [h1]
    have : st.priv = (st.priv.zip gs).map (fun x => x.1) := by rw [List.map_fst_zip (by omega)]
    conv => lhs; rw [this]
    rw [zip_map_right, zip_map_right, List.foldl_map, List.foldl_map]
  rw [← e1, ← e2]

/-- **C178 (any schedule).** However the threads of the panels are interleaved, a pass of track assignment ends with the places of wires and the number of assigned wires that it
has when in each batch the panels are executed one after the other, all from the places at the beginning of the batch. -/
theorem c178_schedules {net : Nat → Nat} {maxRetry : Nat} {S : Type} {T : TaProg S} {out : S → TaPlaces} (hT : TaDescribes net maxRetry T out)
    {a b : TaPlaces × Nat} {gs : List (List TaPanelIn)} (h : ThrTaPass T out a gs b) : taPassOver net maxRetry gs a = some b := by
  unfold taPassOver
  induction h with
  | nil _ => rfl
  | cons h1 _ ih => rw [List.foldlM_cons, thrTaGroup_run hT h1]; exact ih

/-- **C178 (two or more threads).** So the number of threads makes no difference as long as it is not one. -/
theorem c178_threads {net : Nat → Nat} {maxRetry : Nat} {S : Type} {T : TaProg S} {out : S → TaPlaces} (hT : TaDescribes net maxRetry T out)
    {a b b' : TaPlaces × Nat} {ps : List TaPanelIn} {n m : Nat} (hn : n ≠ 1) (hm : m ≠ 1) (h : ThrTaPass T out a (taGroups n ps) b) (h' : ThrTaPass T out a (taGroups m ps) b') :
    b = b' := by
  have h1 := c178_schedules hT h
  have h2 := c178_schedules hT h'
  have e : taGroups n ps = taGroups m ps := by unfold taGroups; rw [if_neg hn, if_neg hm]
  rw [e, h2] at h1
  cases h1; rfl

/-- a panel does not see changes of wires that are neither its own nor in its surroundings -/
theorem panelRun_congr {net : Nat → Nat} {maxRetry : Nat} {pl pl' : TaPlaces} {p : TaPanelIn} (h : ∀ q ∈ p.wires ++ p.ext, pl q = pl' q) :
    panelRun net maxRetry pl p = panelRun net maxRetry pl' p := by
  unfold panelRun
  have : (fun q => if q ∈ p.wires ++ p.ext then pl q else []) = (fun q => if q ∈ p.wires ++ p.ext then pl' q else []) := by
    funext q
    by_cases hq : q ∈ p.wires ++ p.ext
    · rw [if_pos hq, if_pos hq, h q hq]
    · rw [if_neg hq, if_neg hq]
  rw [this]

/-- the panels of a batch one after the other, each from the places that the one before has left -/
def taOneByOne (net : Nat → Nat) (maxRetry : Nat) (ps : List TaPanelIn) (a : TaPlaces × Nat) : Option (TaPlaces × Nat) :=
  (ps.map (fun p => [p])).foldlM (taGroup net maxRetry) a

theorem taGroup_single (net : Nat → Nat) (maxRetry : Nat) (a : TaPlaces × Nat) (p : TaPanelIn) :
    taGroup net maxRetry a [p] = (panelRun net maxRetry a.1 p).map (fun r => (panelEnd p r.1 a.1, a.2 + r.2)) := by
  unfold taGroup
  rw [List.mapM_cons]
  cases h : panelRun net maxRetry a.1 p with
  | none => rfl
  | some r => simp

theorem taGroup_seq {net : Nat → Nat} {maxRetry : Nat} : ∀ (ps : List TaPanelIn) (pl cur : TaPlaces) (n : Nat),
    ps.Pairwise (fun p p' => ∀ q ∈ p'.wires ++ p'.ext, q ∉ p.wires) → (∀ p ∈ ps, ∀ q ∈ p.wires ++ p.ext, cur q = pl q) →
    (ps.map (fun p => [p])).foldlM (taGroup net maxRetry) (cur, n) =
      (ps.mapM (panelRun net maxRetry pl)).map (fun rs => ((ps.zip rs).foldl (fun o x => panelEnd x.1 x.2.1 o) cur, n + (rs.map (fun r => r.2)).sum))
  | [], pl, cur, n, _, _ => by simp
  | p :: ps, pl, cur, n, hp, hc => by
    rw [List.map_cons, List.foldlM_cons, taGroup_single, panelRun_congr (hc p List.mem_cons_self), List.mapM_cons]
    cases h : panelRun net maxRetry pl p with
    | none => rfl
    | some r =>
      obtain ⟨h1, h2⟩ := List.pairwise_cons.1 hp
      have := taGroup_seq (net := net) (maxRetry := maxRetry) ps pl (panelEnd p r.1 cur) (n + r.2) h2 (by
        intro p' hp' q hq
        unfold panelEnd
        rw [if_neg (h1 p' hp' q hq)]
        exact hc p' (List.mem_cons_of_mem _ hp') q hq)
      simp only [Option.map_some, Option.bind_eq_bind, Option.bind_some]
      rw [this]
      cases ps.mapM (panelRun net maxRetry pl) with
      | none => rfl
      | some rs => simp [Nat.add_assoc]

theorem foldlM_flatten_single {net : Nat → Nat} {maxRetry : Nat} : ∀ (gs : List (List TaPanelIn)) (a : TaPlaces × Nat), TaSeparate gs →
    gs.foldlM (taGroup net maxRetry) a = (gs.flatten.map (fun p => [p])).foldlM (taGroup net maxRetry) a
  | [], a, _ => by simp
  | b :: gs, a, h => by
    rw [List.flatten_cons, List.map_append, List.foldlM_append, List.foldlM_cons]
    have e : (b.map (fun p => [p])).foldlM (taGroup net maxRetry) a = taGroup net maxRetry a b := by
      have := taGroup_seq (net := net) (maxRetry := maxRetry) b a.1 a.1 a.2 (h b List.mem_cons_self) (fun _ _ _ _ => rfl)
      exact this
    rw [e]
    cases hg : taGroup net maxRetry a b with
    | none => rfl
    | some a' => exact foldlM_flatten_single gs a' (fun c hc => h c (List.mem_cons_of_mem _ hc))

/-- **C178 (one thread, partial).** With one thread the result is the same as with more, if no panel has in its surroundings a wire that is assigned in an earlier panel of its
batch. -/
theorem c178_one_thread_partial (net : Nat → Nat) (maxRetry : Nat) (n : Nat) (ps : List TaPanelIn) (hs : TaSeparate (taGroups n ps)) (a : TaPlaces × Nat) :
    taPassOver net maxRetry (taGroups n ps) a = taPassOver net maxRetry (taGroups 1 ps) a := by
  unfold taPassOver
  rw [foldlM_flatten_single _ _ hs, (c178_batches n ps).1]
  unfold taGroups
  rw [if_pos rfl]

/-! ### one thread and two threads differ -/

/-- two panels above each other: tracks at 0 and 100, and at 150 and 300; the track at 100 is blocked -/
def thrLow : TaPanelIn := ⟨{ exPanel with locs := fun l => if l = 2 then [0, 100] else [] }, [0], [], [⟨2, ⟨⟨0, 100⟩, ⟨900, 100⟩⟩, .unknown, .short 2⟩], fun _ => ⟨2, 0, 125, 0, none⟩, fun _ => 0⟩
def thrHigh : TaPanelIn := ⟨{ exPanel with locs := fun l => if l = 2 then [150, 300] else [] }, [1], [0], [], fun _ => ⟨2, 125, 325, 0, none⟩, fun _ => 0⟩
def thrWires : TaPlaces := fun q =>
  if q = 0 then [.seg 2 ⟨100, 100⟩ ⟨400, 100⟩ ⟨.extend, 20, .extend, 20, 40⟩] else if q = 1 then [.seg 2 ⟨200, 150⟩ ⟨500, 150⟩ ⟨.extend, 20, .extend, 20, 40⟩] else []

/-- the track of a wire -/
def thrTrack (o : Option (TaPlaces × Nat)) (q : Nat) : Option Int := o.bind (fun r => trackOf true (r.1 q))

/-- **C178 (finding).** With one thread the second wire stays on its track, as the first one has been moved away; with two threads it is moved as well. -/
theorem c178_witness : thrTrack (taPassOver exNet 2 (taGroups 1 [thrLow, thrHigh]) (thrWires, 0)) 0 = some 0 ∧
    thrTrack (taPassOver exNet 2 (taGroups 1 [thrLow, thrHigh]) (thrWires, 0)) 1 = some 150 ∧
    thrTrack (taPassOver exNet 2 (taGroups 2 [thrLow, thrHigh]) (thrWires, 0)) 0 = some 0 ∧
    thrTrack (taPassOver exNet 2 (taGroups 2 [thrLow, thrHigh]) (thrWires, 0)) 1 = some 300 := by decide +kernel

/-- a program that does in one step what a panel does -/
def thrExTa (net : Nat → Nat) (maxRetry : Nat) : TaProg (Option TaPlaces) := fun p =>
  ⟨none, fun pl s => match s, panelRun net maxRetry pl p with
    | none, some r => some (some r.1, [r.2])
    | none, none => some (none, [])
    | some _, _ => none⟩

/-- the hypotheses of the theorems about schedules can be met -/
example (net : Nat → Nat) (maxRetry : Nat) : TaDescribes net maxRetry (thrExTa net maxRetry) (fun s => s.getD (fun _ => [])) := by
  intro p pl s g hg
  cases hr : panelRun net maxRetry pl p with
  | none =>
    have : ∀ s g, ThrReach pl (thrExTa net maxRetry p) s g → s = none := by
      intro s g h
      induction h with
      | start => rfl
      | step _ hs ih => subst ih; simp only [thrExTa, hr, Option.some.injEq, Prod.mk.injEq] at hs; exact hs.1.symm
    have h0 := this s g hg.1
    subst h0
    have := hg.2
    simp [thrExTa, hr] at this
  | some r =>
    have h0 : ThrReach pl (thrExTa net maxRetry p) none [] := .start
    have h1 : ThrReach pl (thrExTa net maxRetry p) (some r.1) ([] ++ [r.2]) := .step h0 (by simp [thrExTa, hr])
    obtain ⟨rfl, rfl⟩ := solo_unique hg ⟨h1, rfl⟩
    simp

/-- panels that are separate: the low panel with one that does not have its wire in its surroundings -/
example : TaSeparate (taGroups 2 [thrLow, { thrHigh with ext := [] }]) := by
  intro b hb
  simp [taGroups, taChunk] at hb
  subst hb
  simp [thrLow, thrHigh]

end TR
