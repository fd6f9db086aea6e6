import Verif.Lay.Spec
import Verif.GC.ShapeProps
import Verif.GC.CornerSpec
/-! # Reading the layers of a technology -/
namespace TR

/-! ### layers and their numbers -/

theorem readLays_aux : ∀ (fs : List LefLay) (ls : List TLay), ls ≠ [] → fs.foldl readLay ls = ls ++ fileLays fs
  | [], ls, _ => by simp [fileLays]
  | f :: t, ls, h => by
    have h0 : ls.length ≠ 0 := by simpa using h
    cases f with
    | routing n => rw [List.foldl_cons]; simp only [readLay, h0, if_false]; rw [readLays_aux t _ (by simp)]; simp [fileLays]
    | cut n => rw [List.foldl_cons]; simp only [readLay, h0, if_false]; rw [readLays_aux t _ (by simp)]; simp [fileLays]
    | masterslice n w => rw [List.foldl_cons]; simp only [readLay]; rw [readLays_aux t _ h]; simp [fileLays]
    | other n => rw [List.foldl_cons]; simp only [readLay]; rw [readLays_aux t _ h]; simp [fileLays]

/-- **C163** the layers of the technology are the routing and cut layers of the file, in its order, after the default layers; those of other
types, MASTERSLICE included, are not among them -/
theorem c163_layers (fs : List LefLay) : readLays fs = defaultLays (fileLays fs) ++ fileLays fs := by
  unfold readLays
  induction fs with
  | nil => rfl
  | cons f t ih =>
    cases f with
    | routing n => rw [List.foldl_cons]; simp only [readLay, List.length_nil, if_true]; rw [readLays_aux t _ (by simp)]; simp [fileLays, defaultLays]
    | cut n => rw [List.foldl_cons]; simp only [readLay, List.length_nil, if_true]; rw [readLays_aux t _ (by simp)]; simp [fileLays, defaultLays]
    | masterslice n w => rw [List.foldl_cons]; simp only [readLay]; rw [ih]; rfl
    | other n => rw [List.foldl_cons]; simp only [readLay]; rw [ih]; rfl

theorem fileLays_kind : ∀ (fs : List LefLay), ∀ l ∈ fileLays fs, l.kind = .routing ∨ l.kind = .cut
  | [], l, h => by cases h
  | .routing n :: t, l, h => by
    simp only [fileLays, List.mem_cons] at h
    rcases h with rfl | h
    · exact .inl rfl
    · exact fileLays_kind t l h
  | .cut n :: t, l, h => by
    simp only [fileLays, List.mem_cons] at h
    rcases h with rfl | h
    · exact .inr rfl
    · exact fileLays_kind t l h
  | .masterslice n w :: t, l, h => fileLays_kind t l h
  | .other n :: t, l, h => fileLays_kind t l h

/-- **C163** if routing and cut layers take turns in the file, then layer 0 is the masterslice, the cut layers have the odd numbers and the
routing layers the even numbers from 2 on: what the rest of the program takes for granted -/
theorem c163_even_routing (fs : List LefLay) (h : TakesTurns (fileLays fs)) (i : Nat) (l : TLay) (hl : (readLays fs)[i]? = some l) :
    (l.kind = .masterslice ↔ i = 0) ∧ (l.kind = .cut ↔ i % 2 = 1) ∧ (l.kind = .routing ↔ i % 2 = 0 ∧ i ≠ 0) := by
  rw [c163_layers] at hl
  have hk := fileLays_kind fs
  generalize hF : fileLays fs = F at h hl hk
  clear hF
  -- the kinds in `F` follow from the first one
  have turn : ∀ j l0 x, F[0]? = some l0 → F[j]? = some x → (x.kind = l0.kind ↔ j % 2 = 0) := by
    intro j
    induction j with
    | zero => intro l0 x h0 h1; rw [h0] at h1; cases h1; simp
    | succ j ih =>
      intro l0 x h0 h1
      obtain ⟨hlt, -⟩ := List.getElem?_eq_some_iff.1 h1
      have hy : F[j]? = some (F[j]'(by omega)) := List.getElem?_eq_getElem (by omega)
      have i1 := ih l0 _ h0 hy
      have i2 := h j _ _ hy h1
      have k0 := hk l0 (List.mem_of_getElem? h0)
      have kx := hk x (List.mem_of_getElem? h1)
      have ky := hk _ (List.mem_of_getElem? hy)
      constructor
      · intro e
        have : ¬ (F[j]'(by omega)).kind = l0.kind := fun e2 => i2 (e2.trans e.symm)
        rw [i1] at this
        omega
      · intro e
        have : ¬ (F[j]'(by omega)).kind = l0.kind := by rw [i1]; omega
        rcases k0 with k0 | k0 <;> rcases kx with kx | kx <;> rcases ky with ky | ky <;> rw [k0, kx] <;> rw [kx, ky] at i2 <;> rw [k0, ky] at this <;> simp at i2 this ⊢
  cases F with
  | nil => simp [defaultLays] at hl
  | cons f t =>
    rcases hk f (by simp) with kf | kf
    · have hd : defaultLays (f :: t) = [⟨"FR_MASTERSLICE", .masterslice⟩, ⟨"FR_VIA", .cut⟩] := by simp [defaultLays, kf]
      rw [hd] at hl
      match i, hl with
      | 0, hl => simp at hl; subst hl; simp
      | 1, hl => simp at hl; subst hl; simp
      | j + 2, hl =>
        have hl' : (f :: t)[j]? = some l := by simpa using hl
        have ht := turn j f l rfl hl'
        have kl := hk l (List.mem_of_getElem? hl')
        rw [kf] at ht
        rcases kl with kl | kl <;> rw [kl] at ht ⊢ <;> simp at ht ⊢ <;> omega
    · have hd : defaultLays (f :: t) = [⟨"FR_MASTERSLICE", .masterslice⟩] := by simp [defaultLays, kf]
      rw [hd] at hl
      match i, hl with
      | 0, hl => simp at hl; subst hl; simp
      | j + 1, hl =>
        have hl' : (f :: t)[j]? = some l := by simpa using hl
        have ht := turn j f l rfl hl'
        have kl := hk l (List.mem_of_getElem? hl')
        rw [kf] at ht
        rcases kl with kl | kl <;> rw [kl] at ht ⊢ <;> simp at ht ⊢ <;> omega

theorem layNamed_aux (ls : List TLay) (n : String) : ∀ (k : Nat) (i : Nat),
    ((List.range k).foldl (fun r i => if (ls[i]?).map TLay.name = some n then some i else r) (none : Option Nat) = some i ↔
      i < k ∧ (ls[i]?).map TLay.name = some n ∧ ∀ j, i < j → j < k → (ls[j]?).map TLay.name ≠ some n) := by
  intro k
  induction k with
  | zero => intro i; simp
  | succ k ih =>
    intro i
    rw [List.range_succ, List.foldl_append, List.foldl_cons, List.foldl_nil]
    by_cases hk : (ls[k]?).map TLay.name = some n
    · rw [if_pos hk]
      constructor
      · intro e; cases e; exact ⟨by omega, hk, fun j h1 h2 => by omega⟩
      · rintro ⟨h1, h2, h3⟩
        by_cases he : i = k
        · rw [he]
        · exact absurd hk (h3 k (by omega) (by omega))
    · rw [if_neg hk, ih]
      constructor
      · rintro ⟨h1, h2, h3⟩
        refine ⟨by omega, h2, fun j h4 h5 => ?_⟩
        by_cases he : j = k
        · rw [he]; exact hk
        · exact h3 j h4 (by omega)
      · rintro ⟨h1, h2, h3⟩
        refine ⟨?_, h2, fun j h4 h5 => h3 j h4 (by omega)⟩
        by_cases he : i = k
        · rw [he] at h2; exact absurd h2 hk
        · omega

/-- **C163** a name stands for the last layer of that name; a name that no layer of the technology has, such as that of a MASTERSLICE layer of the
file, stands for none -/
theorem c163_names (ls : List TLay) (n : String) (i : Nat) :
    (layNamed ls n = some i ↔ (∃ l, ls[i]? = some l ∧ l.name = n) ∧ ∀ j l, i < j → ls[j]? = some l → l.name ≠ n) ∧
    (layNamed ls n = none ↔ ∀ l ∈ ls, l.name ≠ n) := by
  have hsome : ∀ i, layNamed ls n = some i ↔ (∃ l, ls[i]? = some l ∧ l.name = n) ∧ ∀ j l, i < j → ls[j]? = some l → l.name ≠ n := by
    intro i
    unfold layNamed
    rw [layNamed_aux]
    simp only [Option.map_eq_some_iff, ne_eq, not_exists, not_and]
    constructor
    · rintro ⟨h1, h2, h3⟩
      refine ⟨h2, fun j l h4 h5 => h3 j h4 ?_ l h5⟩
      exact (List.getElem?_eq_some_iff.1 h5).1
    · rintro ⟨⟨l, h1, h2⟩, h3⟩
      exact ⟨(List.getElem?_eq_some_iff.1 h1).1, ⟨l, h1, h2⟩, fun j h4 _ x hx => h3 j x h4 hx⟩
  refine ⟨hsome i, ?_⟩
  constructor
  · intro hn l hl he
    -- the last layer of the name would be found
    have : ∀ (k : Nat) (i : Nat), ls.length - i = k → (∃ l, ls[i]? = some l ∧ l.name = n) → ∃ m, layNamed ls n = some m := by
      intro k
      induction k using Nat.strongRecOn with
      | ind k ih =>
        intro i hk hi
        by_cases hj : ∃ j l, i < j ∧ ls[j]? = some l ∧ l.name = n
        · obtain ⟨j, x, h1, h2, h3⟩ := hj
          have := (List.getElem?_eq_some_iff.1 h2).1
          exact ih (ls.length - j) (by omega) j rfl ⟨x, h2, h3⟩
        · exact ⟨i, (hsome i).2 ⟨hi, fun j x h1 h2 h3 => hj ⟨j, x, h1, h2, h3⟩⟩⟩
    obtain ⟨i, hi, e⟩ := List.getElem_of_mem hl
    obtain ⟨m, hm⟩ := this _ i rfl ⟨l, by rw [List.getElem?_eq_getElem hi, e], he⟩
    rw [hn] at hm; cases hm
  · intro h
    cases hc : layNamed ls n with
    | none => rfl
    | some m =>
      obtain ⟨⟨l, h1, h2⟩, -⟩ := (hsome m).1 hc
      exact absurd h2 (h l (List.mem_of_getElem? h1))

/-- **C163** the name of a MASTERSLICE layer of the file is not known afterwards: shapes on it cannot be placed -/
theorem c163_masterslice_lost : ∃ fs : List LefLay, LefLay.masterslice "poly" false ∈ fs ∧ layNamed (readLays fs) "poly" = none ∧
    (readLays fs).length = 4 := ⟨[.masterslice "poly" false, .cut "contact", .routing "m1", .cut "v1"], by decide, by decide, by decide⟩

example : TakesTurns (fileLays [.masterslice "poly" false, .routing "m1", .cut "v1", .other "OVERLAP", .routing "m2"]) := by
  intro i a b h1 h2
  match i, h1, h2 with
  | 0, h1, h2 => simp [fileLays] at h1 h2; rw [← h1, ← h2]; simp
  | 1, h1, h2 => simp [fileLays] at h1 h2; rw [← h1, ← h2]; simp
  | 2, h1, h2 => simp [fileLays] at h2
  | j + 3, h1, h2 => simp [fileLays] at h2
example : readLays [.masterslice "poly" false, .routing "m1", .cut "v1", .other "OVERLAP", .routing "m2"] =
    [⟨"FR_MASTERSLICE", .masterslice⟩, ⟨"FR_VIA", .cut⟩, ⟨"m1", .routing⟩, ⟨"v1", .cut⟩, ⟨"m2", .routing⟩] := by decide

/-! ### width and steps -/

/-- **C164** the minimum width of a routing layer is MINWIDTH if it is not above WIDTH, else WIDTH -/
theorem c164_min_width (w : Int) (m : Option Int) :
    minWidthOf w m ≤ w ∧ (m = none → minWidthOf w m = w) ∧ (∀ x, m = some x → (x ≤ w → minWidthOf w m = x) ∧ (w < x → minWidthOf w m = w)) := by
  unfold minWidthOf
  cases m with
  | none => simp
  | some x =>
    simp only [Option.some.injEq, reduceCtorEq, false_implies, true_and]
    refine ⟨by split <;> omega, ?_⟩
    rintro y rfl
    constructor
    · intro h; rw [if_neg (by omega)]
    · intro h; rw [if_pos h]

theorem readSteps_last (ss : List LefStep) (s : LefStep) : readSteps (ss ++ [s]) = some (stepOf s) := by
  unfold readSteps; rw [List.foldl_append]; rfl

/-- **C164** of the MINSTEP statements of a layer the last one counts; with MAXEDGES the checker reports exactly the groups of more than so many
edges shorter than its length -/
theorem c164_steps_with_max_edges (ss : List LefStep) (s : LefStep) (k : Int) (hk : s.maxEdges = some k) (es : List OEdge) :
    ∃ c, readSteps (ss ++ [s]) = some c ∧ ∃ bs, minStepCheck c es = some bs ∧ ∀ b, b ∈ bs ↔
      ∃ i n, ShortRun es s.len i n ∧ 1 ≤ n ∧ k < (n : Int) ∧ (∃ j, j ≤ n + 1 ∧ (Ring es (i + j)).fixed = false) ∧ StepHull es i n b := by
  refine ⟨_, readSteps_last ss s, ?_⟩
  obtain ⟨bs, e, h⟩ := c59_min_step_iff (stepOf s) es (by simp [stepOf, hk])
  refine ⟨bs, e, fun b => ?_⟩
  rw [h]
  unfold StepViolation
  have : ∀ n : Nat, (∀ m, (stepOf s).maxEdges = some m → m < (n : Int)) ↔ k < (n : Int) := by
    intro n
    simp only [stepOf, hk, Option.some.injEq]
    exact ⟨fun h => h k rfl, fun h m e => e ▸ h⟩
  simp only [this]
  rfl

/-- **C164** if the last MINSTEP statement of a layer is without MAXEDGES, the checker never reports a step on it, whatever its type and length -/
theorem c164_steps_unchecked (ss : List LefStep) (s : LefStep) (hk : s.maxEdges = none) (es : List OEdge) :
    ∃ c, readSteps (ss ++ [s]) = some c ∧ minStepCheck c es = some [] := by
  refine ⟨_, readSteps_last ss s, ?_⟩
  cases ht : s.type with
  | none => exact c59_typed_never _ es .outside (by simp [stepOf, hk, ht])
  | some t => exact c59_typed_never _ es t (by simp [stepOf, hk, ht])

/-- the outline of `exOutline` breaks a MINSTEP of 5 without MAXEDGES and is not reported; with MAXEDGES 1 it is -/
example : (readSteps [⟨5, none, none, some 1⟩]).bind (minStepCheck · exOutline) = some [⟨⟨11, 8⟩, ⟨12, 10⟩⟩] ∧
    (readSteps [⟨5, none, none, some 1⟩, ⟨5, none, none, none⟩]).bind (minStepCheck · exOutline) = some [] := by decide

/-! ### spacing -/

theorem lastWith_snoc {α : Type} {P : α → Prop} {l : List α} {x y : α} :
    LastWith P (l ++ [y]) x ↔ (P y ∧ x = y) ∨ (¬ P y ∧ LastWith P l x) := by
  constructor
  · rintro ⟨a, b, e, hx, hb⟩
    by_cases hnil : b = []
    · subst hnil
      have := List.append_inj' e (by simp)
      simp at this
      rw [this.2]
      exact .inl ⟨hx, rfl⟩
    · obtain ⟨b', z, rfl⟩ : ∃ b' z, b = b' ++ [z] := ⟨b.dropLast, b.getLast hnil, (List.dropLast_concat_getLast hnil).symm⟩
      rw [show a ++ x :: (b' ++ [z]) = (a ++ x :: b') ++ [z] by simp] at e
      have := List.append_inj' e (by simp)
      simp at this
      obtain ⟨e1, rfl⟩ := this
      exact .inr ⟨hb y (by simp), a, b', e1, hx, fun w hw => hb w (by simp [hw])⟩
  · rintro (⟨h, rfl⟩ | ⟨h, a, b, e, hx, hb⟩)
    · exact ⟨l, [], rfl, h, fun _ h => by cases h⟩
    · refine ⟨a, b ++ [y], by rw [e]; simp, hx, fun w hw => ?_⟩
      rw [List.mem_append] at hw
      rcases hw with hw | hw
      · exact hb w hw
      · simp at hw; rw [hw]; exact h

theorem readSpc_min (st : SpcSt) (s : LefSpc) :
    (s.Plain → (readSpc st s).minSpc = some (.prl ⟨[0], [0], [[s.space]]⟩)) ∧ (¬ s.Plain → (readSpc st s).minSpc = st.minSpc) := by
  unfold LefSpc.Plain readSpc
  constructor
  · rintro ⟨h1, h2, h3, h4, h5, h6⟩
    simp [h1, h2, h3, h4, h5, h6]
  · intro h
    cases h1 : s.range <;> cases h2 : s.lengthThreshold <;> cases h3 : s.eol <;> cases h4 : s.samenet <;> cases h5 : s.notchLength <;>
      cases h6 : s.endOfNotch <;> simp [h1, h2, h3, h4, h5, h6] at h ⊢

/-- the rule that a table gives -/
def LefTbl.rule : LefTbl → SpcRule
  | .influence => .fixed 0
  | .parallel ls rows => .prl ⟨rows.map (·.1), ls, rows.map (·.2)⟩
  | .twoWidths rows => .tw ⟨twRows (-(((rows.headD (0, none, [])).2.2.headD 0).natAbs : Int)) rows, rows.map (·.2.2)⟩

theorem readTbl_min (st : SpcSt) (t : LefTbl) :
    (t.Kept → (readTbl st t).minSpc = some t.rule) ∧ (¬ t.Kept → readTbl st t = st) := by
  cases t with
  | influence => exact ⟨fun h => h.elim, fun _ => rfl⟩
  | parallel ls rows => exact ⟨fun _ => rfl, fun h => (h trivial).elim⟩
  | twoWidths rows => exact ⟨fun _ => rfl, fun h => (h trivial).elim⟩

theorem readSpcs_spacing (ss : List LefSpc) :
    (∀ s, LastWith LefSpc.Plain ss s → (ss.foldl readSpc {}).minSpc = some (.prl ⟨[0], [0], [[s.space]]⟩)) ∧
    ((∀ s ∈ ss, ¬ s.Plain) → (ss.foldl readSpc {}).minSpc = none) := by
  have key : ∀ (r : List LefSpc), (∀ s, LastWith LefSpc.Plain r.reverse s → (r.reverse.foldl readSpc {}).minSpc = some (.prl ⟨[0], [0], [[s.space]]⟩)) ∧
      ((∀ s ∈ r.reverse, ¬ s.Plain) → (r.reverse.foldl readSpc {}).minSpc = none) := by
    intro r
    induction r with
    | nil =>
      refine ⟨?_, fun _ => rfl⟩
      rintro s ⟨a, b, e, -⟩
      simp at e
    | cons y t ih =>
      rw [List.reverse_cons]
      simp only [List.foldl_append, List.foldl_cons, List.foldl_nil]
      constructor
      · intro s hs
        rcases lastWith_snoc.1 hs with ⟨h, rfl⟩ | ⟨h, h2⟩
        · exact (readSpc_min _ _).1 h
        · rw [(readSpc_min _ _).2 h]; exact ih.1 s h2
      · intro h
        rw [(readSpc_min _ _).2 (h y (by simp))]
        exact ih.2 (fun s hs => h s (by rw [List.mem_append]; exact .inl hs))
  have := key ss.reverse
  rw [List.reverse_reverse] at this
  exact this

theorem readSpcs_tables (st : SpcSt) (ts : List LefTbl) :
    (∀ t, LastWith LefTbl.Kept ts t → (ts.foldl readTbl st).minSpc = some t.rule) ∧
    ((∀ t ∈ ts, ¬ t.Kept) → ts.foldl readTbl st = st) := by
  have key : ∀ (r : List LefTbl), (∀ t, LastWith LefTbl.Kept r.reverse t → (r.reverse.foldl readTbl st).minSpc = some t.rule) ∧
      ((∀ t ∈ r.reverse, ¬ t.Kept) → r.reverse.foldl readTbl st = st) := by
    intro r
    induction r with
    | nil =>
      refine ⟨?_, fun _ => rfl⟩
      rintro s ⟨a, b, e, -⟩
      simp at e
    | cons y t ih =>
      rw [List.reverse_cons]
      simp only [List.foldl_append, List.foldl_cons, List.foldl_nil]
      constructor
      · intro s hs
        rcases lastWith_snoc.1 hs with ⟨h, rfl⟩ | ⟨h, h2⟩
        · exact (readTbl_min _ _).1 h
        · rw [(readTbl_min _ _).2 h]; exact ih.1 s h2
      · intro h
        rw [(readTbl_min _ _).2 (h y (by simp))]
        exact ih.2 (fun s hs => h s (by rw [List.mem_append]; exact .inl hs))
  have := key ts.reverse
  rw [List.reverse_reverse] at this
  exact this

/-- **C165** a layer whose last SPACING statement without conditions says `s`, and that has no table, requires `s` between any two shapes, whatever
their widths and run length -/
theorem c165_plain (ss : List LefSpc) (ts : List LefTbl) (s : LefSpc) (hs : LastWith LefSpc.Plain ss s) (ht : ∀ t ∈ ts, ¬ t.Kept) :
    ∃ r, (readSpcs ss ts).minSpc = some r ∧ ∀ w1 w2 p, r.req w1 w2 p = some s.space := by
  refine ⟨.prl ⟨[0], [0], [[s.space]]⟩, ?_, ?_⟩
  · unfold readSpcs
    rw [(readSpcs_tables _ ts).2 ht]
    exact (readSpcs_spacing ss).1 s hs
  · intro w1 w2 p
    have hz : ∀ v : Int, tbl2Idx [0] v = 0 := by
      intro v
      have : lowerBound [0] v ≤ 1 := by
        have := (lowerBound_spec (l := [0]) (by simp) v).1
        simpa using this
      unfold tbl2Idx; omega
    simp only [SpcRule.req, Tbl2.find, hz]
    rfl

/-- **C165** a table takes the place of all SPACING statements, wherever they stand in the file, and the last table that of the others: a table of
run lengths requires the entry of the last width and the last length strictly below those of the shapes (or of the first) -/
theorem c165_table (ss : List LefSpc) (ts : List LefTbl) (ls : List Int) (rows : List (Int × List Int))
    (ht : LastWith LefTbl.Kept ts (.parallel ls rows))
    (hl : StrictInc ls ∧ ls ≠ []) (hr : StrictInc (rows.map (·.1)) ∧ rows ≠ []) (hn : ∀ x ∈ rows, x.2.length = ls.length) :
    ∃ r, (readSpcs ss ts).minSpc = some r ∧ ∀ w1 w2 p, ∃ (i j : Nat) (x : Int × List Int) (v : Int),
      KeyFor (rows.map (·.1)) (max w1 w2) i ∧ KeyFor ls p j ∧ rows[i]? = some x ∧ x.2[j]? = some v ∧ r.req w1 w2 p = some v := by
  refine ⟨(LefTbl.parallel ls rows).rule, (readSpcs_tables _ ts).1 _ ht, ?_⟩
  intro w1 w2 p
  have hok : Tbl2.Ok ⟨rows.map (·.1), ls, rows.map (·.2)⟩ :=
    ⟨hr.1, hl.1, by simpa using hr.2, hl.2, by simp, by
      intro l hl
      simp only [List.mem_map] at hl
      obtain ⟨x, hx, rfl⟩ := hl
      exact hn x hx⟩
  obtain ⟨i, j, l, v, h1, h2, h3, h4, h5⟩ := c37_find hok (max w1 w2) p
  simp only [List.getElem?_map, Option.map_eq_some_iff] at h3
  obtain ⟨x, hx, rfl⟩ := h3
  exact ⟨i, j, x, v, h1, h2, hx, h4, h5⟩

theorem twRows_spec : ∀ (rows : List (Int × Option Int × List Int)) (d : Int) (j : Nat) (x : TwRow), (twRows d rows)[j]? = some x →
    ∃ r, rows[j]? = some r ∧ x.width = r.1 ∧
      ((∃ i, i ≤ j ∧ (∃ r, rows[i]? = some r ∧ r.2.1 = some x.prl) ∧ ∀ k r, i < k → k ≤ j → rows[k]? = some r → r.2.1 = none) ∨
       ((∀ k r, k ≤ j → rows[k]? = some r → r.2.1 = none) ∧ x.prl = d))
  | [], d, j, x, h => by simp [twRows] at h
  | r :: t, d, j, x, h => by
    cases hp : r.2.1 with
    | some p =>
      simp only [twRows, hp] at h
      cases j with
      | zero =>
        simp at h; subst h
        exact ⟨r, rfl, rfl, .inl ⟨0, Nat.le_refl _, ⟨r, rfl, hp⟩, fun k r h1 h2 => by omega⟩⟩
      | succ j =>
        simp only [List.getElem?_cons_succ] at h
        obtain ⟨r', h1, h2, h3⟩ := twRows_spec t p j x h
        refine ⟨r', by simpa using h1, h2, ?_⟩
        rcases h3 with ⟨i, hi, ⟨r2, h4, h5⟩, h6⟩ | ⟨h4, h5⟩
        · refine .inl ⟨i + 1, by omega, ⟨r2, by simpa using h4, h5⟩, fun k r3 a b c => ?_⟩
          cases k with
          | zero => omega
          | succ k => exact h6 k r3 (by omega) (by omega) (by simpa using c)
        · refine .inl ⟨0, by omega, ⟨r, rfl, by rw [h5]; exact hp⟩, fun k r3 a b c => ?_⟩
          cases k with
          | zero => omega
          | succ k => exact h4 k r3 (by omega) (by simpa using c)
    | none =>
      simp only [twRows, hp] at h
      cases j with
      | zero =>
        simp at h; subst h
        refine ⟨r, rfl, rfl, .inr ⟨fun k r2 h1 h2 => ?_, rfl⟩⟩
        have : k = 0 := by omega
        subst this
        simp at h2; rw [← h2]; exact hp
      | succ j =>
        simp only [List.getElem?_cons_succ] at h
        obtain ⟨r', h1, h2, h3⟩ := twRows_spec t d j x h
        refine ⟨r', by simpa using h1, h2, ?_⟩
        rcases h3 with ⟨i, hi, ⟨r2, h4, h5⟩, h6⟩ | ⟨h4, h5⟩
        · refine .inl ⟨i + 1, by omega, ⟨r2, by simpa using h4, h5⟩, fun k r3 a b c => ?_⟩
          cases k with
          | zero => omega
          | succ k => exact h6 k r3 (by omega) (by omega) (by simpa using c)
        · refine .inr ⟨fun k r3 a c => ?_, h5⟩
          cases k with
          | zero => simp at c; rw [← c]; exact hp
          | succ k => exact h4 k r3 (by omega) (by simpa using c)

theorem twRows_length : ∀ (rows : List (Int × Option Int × List Int)) (d : Int), (twRows d rows).length = rows.length
  | [], d => rfl
  | r :: t, d => by
    simp only [twRows]
    split <;> simp [twRows_length t]

/-- **C165** a TWOWIDTHS table that counts is stored as written: its rows have the widths written, the run length last written, or minus the
first spacing before that, and its spacings -/
theorem c165_two_widths (ss : List LefSpc) (ts : List LefTbl) (rows : List (Int × Option Int × List Int))
    (ht : LastWith LefTbl.Kept ts (.twoWidths rows)) (h0 : ∀ r, rows[0]? = some r → r.2.2 ≠ []) :
    ∃ t, (readSpcs ss ts).minSpc = some (.tw t) ∧ t.rows.length = rows.length ∧ t.vals = rows.map (·.2.2) ∧
      ∀ j x, t.rows[j]? = some x → ∃ r, rows[j]? = some r ∧ x.width = r.1 ∧ RowPrl rows j x.prl := by
  refine ⟨_, (readSpcs_tables _ ts).1 _ ht, twRows_length _ _, rfl, ?_⟩
  intro j x hx
  obtain ⟨r, h1, h2, h3⟩ := twRows_spec rows _ j x hx
  refine ⟨r, h1, h2, ?_⟩
  rcases h3 with h3 | ⟨h3, h4⟩
  · exact .inl h3
  · refine .inr ⟨h3, ?_⟩
    cases rows with
    | nil => simp at h1
    | cons a t =>
      have hne := h0 a rfl
      cases hl : a.2.2 with
      | nil => exact absurd hl hne
      | cons s l =>
        refine ⟨a, s, rfl, by rw [hl]; rfl, ?_⟩
        rw [h4]
        simp only [List.headD_cons, hl]
        omega

/-- **C165** a layer with neither counts no minimum spacing; rules for line ends are kept all, in order, and of those for one net the last -/
theorem c165_others (ss : List LefSpc) (ts : List LefTbl) :
    ((∀ s ∈ ss, ¬ s.Plain) → (∀ t ∈ ts, ¬ t.Kept) → (readSpcs ss ts).minSpc = none) ∧
    (readSpcs ss ts).eols = ss.filterMap (fun s => if s.range = false ∧ s.lengthThreshold = false then
      s.eol.map (fun e => ⟨s.space, e.1, e.2.1, e.2.2⟩) else none) ∧
    (∀ s pg, LastWith (fun s : LefSpc => s.range = false ∧ s.lengthThreshold = false ∧ s.eol = none ∧ s.samenet ≠ none) ss s → s.samenet = some pg →
      (readSpcs ss ts).samenet = some (s.space, pg)) := by
  have htbl : ∀ st, (ts.foldl readTbl st).eols = st.eols ∧ (ts.foldl readTbl st).samenet = st.samenet := by
    induction ts with
    | nil => intro st; exact ⟨rfl, rfl⟩
    | cons t ts ih =>
      intro st
      rw [List.foldl_cons]
      cases t <;> exact ih _
  refine ⟨fun h1 h2 => ?_, ?_, ?_⟩
  · unfold readSpcs
    rw [(readSpcs_tables _ ts).2 h2]
    exact (readSpcs_spacing ss).2 h1
  · unfold readSpcs
    rw [(htbl _).1]
    have : ∀ (ss : List LefSpc) (st : SpcSt), (ss.foldl readSpc st).eols = st.eols ++ ss.filterMap (fun s =>
        if s.range = false ∧ s.lengthThreshold = false then s.eol.map (fun e => ⟨s.space, e.1, e.2.1, e.2.2⟩) else none) := by
      intro ss
      induction ss with
      | nil => intro st; simp
      | cons s t ih =>
        intro st
        rw [List.foldl_cons, ih, List.filterMap_cons]
        unfold readSpc
        cases h1 : s.range <;> cases h2 : s.lengthThreshold <;> cases h3 : s.eol <;> cases h4 : s.samenet <;> cases h5 : s.notchLength <;>
          cases h6 : s.endOfNotch <;> simp
    rw [this]; rfl
  · unfold readSpcs
    rw [(htbl _).2]
    have key : ∀ (r : List LefSpc) s pg, LastWith (fun s : LefSpc => s.range = false ∧ s.lengthThreshold = false ∧ s.eol = none ∧ s.samenet ≠ none) r.reverse s →
        s.samenet = some pg → (r.reverse.foldl readSpc {}).samenet = some (s.space, pg) := by
      intro r
      induction r with
      | nil => rintro s pg ⟨a, b, e, -⟩; simp at e
      | cons y t ih =>
        intro s pg hs hp
        rw [List.reverse_cons] at hs ⊢
        simp only [List.foldl_append, List.foldl_cons, List.foldl_nil]
        rcases lastWith_snoc.1 hs with ⟨⟨h1, h2, h3, h4⟩, rfl⟩ | ⟨h, h2⟩
        · unfold readSpc; simp [h1, h2, h3, hp]
        · rw [← ih s pg h2 hp]
          unfold readSpc
          cases h1 : y.range <;> cases h2 : y.lengthThreshold <;> cases h3 : y.eol <;> cases h4 : y.samenet <;> cases h5 : y.notchLength <;>
            cases h6 : y.endOfNotch <;> simp [h1, h2, h3, h4] at h ⊢
    intro s pg
    have := key ss.reverse s pg
    rw [List.reverse_reverse] at this
    exact this

example : ((readSpcs [{ space := 5 }, { space := 7, samenet := some true }, { space := 9, eol := some (1, 2, none) }, { space := 6 }] [.influence]).minSpc.bind
    (·.req 100 3 20)) = some 6 := by decide
example : LastWith LefSpc.Plain [{ space := 5 }, { space := 6 }, { space := 7, samenet := some true }] { space := 6 } :=
  ⟨[{ space := 5 }], [{ space := 7, samenet := some true }], rfl, by simp [LefSpc.Plain], by simp [LefSpc.Plain]⟩

end TR
