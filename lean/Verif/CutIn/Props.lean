import Verif.CutIn.Spec
/-! # The spacing rules of a cut layer are stored as they are written -/
namespace TR

theorem rule_said (i : Nat) (x : LefCut) : SaidBy (x.rule i) i x ∧ (x.rule i).second = none := by
  refine ⟨⟨rfl, rfl, rfl, rfl, rfl, rfl, rfl, ?_, ?_, ?_⟩, rfl⟩
  · intro k
    show (if x.adj = 0 then none else some x.adj) = some k ↔ _
    split <;> simp <;> omega
  · show (if x.within = 0 then -1 else x.within) = _ ∧ _ ∨ (if x.within = 0 then -1 else x.within) = -1 ∧ _
    split <;> simp_all
  · show (if x.area = 0 then -1 else x.area) = _ ∧ _ ∨ (if x.area = 0 then -1 else x.area) = -1 ∧ _
    split <;> simp_all

theorem said_unique {c c' : CutSpRule} {i : Nat} {x : LefCut} (h : SaidBy c i x) (h' : SaidBy c' i x) (hs : c.second = c'.second) : c = c' := by
  obtain ⟨i1, s1, cc, sn, sec, st, ad, wi, pg, po, ar⟩ := c
  obtain ⟨i2, s2, cc2, sn2, sec2, st2, ad2, wi2, pg2, po2, ar2⟩ := c'
  simp only [SaidBy] at h h' hs
  obtain ⟨rfl, rfl, rfl, rfl, rfl, rfl, rfl, h8, h9, h10⟩ := h
  obtain ⟨rfl, rfl, rfl, rfl, rfl, rfl, rfl, k8, k9, k10⟩ := h'
  subst hs
  have e1 : ad = ad2 := by
    apply Option.ext
    intro k
    rw [h8, k8]
  have e2 : wi = wi2 := by omega
  have e3 : ar = ar2 := by omega
  subst e1 e2 e3
  rfl

/-- what the lists and maps hold after the first `n` rules -/
structure Stored (cs : List LefCut) (st : CutStore) : Prop where
  cons : ∀ c, c ∈ st.cons ↔ ∃ (i : Nat) (x : LefCut), cs[i]? = some x ∧ x.layer = "" ∧ x.sameNet = false ∧ c = x.rule i
  consSame : ∀ c, c ∈ st.consSame ↔ ∃ (i : Nat) (x : LefCut), cs[i]? = some x ∧ x.layer = "" ∧ x.sameNet = true ∧ c = x.rule i
  map : ∀ n c, (n, c) ∈ st.map ↔ n ≠ "" ∧ ∃ i x, FirstFor cs false n i x ∧ c = x.rule i
  mapSame : ∀ n c, (n, c) ∈ st.mapSame ↔ n ≠ "" ∧ ∃ i x, FirstFor cs true n i x ∧ c = x.rule i

theorem get_snoc {α : Type} (xs : List α) (x y : α) (i : Nat) : (xs ++ [x])[i]? = some y ↔ xs[i]? = some y ∨ (i = xs.length ∧ x = y) := by
  rcases Nat.lt_trichotomy i xs.length with h | h | h
  · rw [List.getElem?_append_left h]
    constructor
    · exact .inl
    · rintro (h' | ⟨rfl, _⟩)
      · exact h'
      · omega
  · subst h
    simp
  · rw [List.getElem?_eq_none (by simp; omega), List.getElem?_eq_none (by omega)]
    simp
    omega

theorem firstFor_snoc (cs : List LefCut) (y : LefCut) (same : Bool) (n : String) (i : Nat) (x : LefCut) :
    FirstFor (cs ++ [y]) same n i x ↔ FirstFor cs same n i x ∨
      (i = cs.length ∧ x = y ∧ y.layer = n ∧ y.sameNet = same ∧ ¬ ∃ j z, FirstFor cs same n j z) := by
  have find : ∀ m, (∃ (j : Nat) (z : LefCut), j < m ∧ cs[j]? = some z ∧ z.layer = n ∧ z.sameNet = same) → ∃ j z, FirstFor cs same n j z := by
    intro m
    induction m with
    | zero => rintro ⟨j, _, h, _⟩; omega
    | succ m ih =>
      rintro ⟨j, z, h1, h2, h3, h4⟩
      by_cases hex : ∃ (j : Nat) (z : LefCut), j < m ∧ cs[j]? = some z ∧ z.layer = n ∧ z.sameNet = same
      · exact ih hex
      · have : j = m := by
          by_cases hj : j = m
          · exact hj
          · exact absurd ⟨j, z, by omega, h2, h3, h4⟩ hex
        subst this
        exact ⟨j, z, h2, h3, h4, fun j' z' hj hz hl hs => hex ⟨j', z', hj, hz, hl, hs⟩⟩
  unfold FirstFor
  constructor
  · rintro ⟨h1, h2, h3, h4⟩
    rcases (get_snoc cs y x i).1 h1 with h | ⟨rfl, rfl⟩
    · exact .inl ⟨h, h2, h3, fun j z hj hz => h4 j z hj ((get_snoc cs y z j).2 (.inl hz))⟩
    · refine .inr ⟨rfl, rfl, h2, h3, ?_⟩
      rintro ⟨j, z, hz, hl, hs, _⟩
      exact h4 j z (List.getElem?_eq_some_iff.1 hz).1 ((get_snoc cs y z j).2 (.inl hz)) hl hs
  · rintro (⟨h1, h2, h3, h4⟩ | ⟨rfl, rfl, h2, h3, h4⟩)
    · refine ⟨(get_snoc cs y x i).2 (.inl h1), h2, h3, fun j z hj hz => ?_⟩
      rcases (get_snoc cs y z j).1 hz with h | ⟨rfl, _⟩
      · exact h4 j z hj h
      · have := (List.getElem?_eq_some_iff.1 h1).1
        omega
    · refine ⟨(get_snoc cs x x cs.length).2 (.inr ⟨rfl, rfl⟩), h2, h3, fun j z hj hz hl hs => h4 ?_⟩
      rcases (get_snoc cs x z j).1 hz with h | ⟨rfl, _⟩
      · exact find (j + 1) ⟨j, z, by omega, h, hl, hs⟩
      · omega

/-- one more rule -/
theorem stored_add {cs : List LefCut} {st : CutStore} (h : Stored cs st) (y : LefCut) : Stored (cs ++ [y]) (st.add y.layer (y.rule cs.length)) := by
  have hs : (y.rule cs.length).sameNet = y.sameNet := rfl
  have plain (same : Bool) (c : CutSpRule) (hy : ¬ (y.layer = "" ∧ y.sameNet = same)) :
      (∃ (i : Nat) (x : LefCut), (cs ++ [y])[i]? = some x ∧ x.layer = "" ∧ x.sameNet = same ∧ c = x.rule i) ↔ ∃ (i : Nat) (x : LefCut), cs[i]? = some x ∧ x.layer = "" ∧ x.sameNet = same ∧ c = x.rule i := by
    constructor
    · rintro ⟨i, x, h1, h2, h3, h4⟩
      rcases (get_snoc cs y x i).1 h1 with h | ⟨rfl, rfl⟩
      · exact ⟨i, x, h, h2, h3, h4⟩
      · exact absurd ⟨h2, h3⟩ hy
    · rintro ⟨i, x, h1, h⟩
      exact ⟨i, x, (get_snoc cs y x i).2 (.inl h1), h⟩
  have plainNew (same : Bool) (c : CutSpRule) (hy : y.layer = "" ∧ y.sameNet = same) :
      (∃ (i : Nat) (x : LefCut), (cs ++ [y])[i]? = some x ∧ x.layer = "" ∧ x.sameNet = same ∧ c = x.rule i) ↔
        (∃ (i : Nat) (x : LefCut), cs[i]? = some x ∧ x.layer = "" ∧ x.sameNet = same ∧ c = x.rule i) ∨ c = y.rule cs.length := by
    constructor
    · rintro ⟨i, x, h1, h2, h3, h4⟩
      rcases (get_snoc cs y x i).1 h1 with h | ⟨rfl, rfl⟩
      · exact .inl ⟨i, x, h, h2, h3, h4⟩
      · exact .inr h4
    · rintro (⟨i, x, h1, h⟩ | rfl)
      · exact ⟨i, x, (get_snoc cs y x i).2 (.inl h1), h⟩
      · exact ⟨cs.length, y, (get_snoc cs y y _).2 (.inr ⟨rfl, rfl⟩), hy.1, hy.2, rfl⟩
  have mapOld (same : Bool) (n : String) (c : CutSpRule) (hy : ¬ (y.layer = n ∧ y.sameNet = same ∧ ¬ ∃ j z, FirstFor cs same n j z)) :
      (n ≠ "" ∧ ∃ i x, FirstFor (cs ++ [y]) same n i x ∧ c = x.rule i) ↔ n ≠ "" ∧ ∃ i x, FirstFor cs same n i x ∧ c = x.rule i := by
    constructor
    · rintro ⟨h0, i, x, h1, h2⟩
      rcases (firstFor_snoc cs y same n i x).1 h1 with h | ⟨_, _, h⟩
      · exact ⟨h0, i, x, h, h2⟩
      · exact absurd h hy
    · rintro ⟨h0, i, x, h1, h2⟩
      exact ⟨h0, i, x, (firstFor_snoc cs y same n i x).2 (.inl h1), h2⟩
  have mapNew (same : Bool) (n : String) (c : CutSpRule) (hy : y.layer = n ∧ y.sameNet = same ∧ ¬ ∃ j z, FirstFor cs same n j z) (hn : n ≠ "") :
      (n ≠ "" ∧ ∃ i x, FirstFor (cs ++ [y]) same n i x ∧ c = x.rule i) ↔ (n ≠ "" ∧ ∃ i x, FirstFor cs same n i x ∧ c = x.rule i) ∨ c = y.rule cs.length := by
    constructor
    · rintro ⟨h0, i, x, h1, h2⟩
      rcases (firstFor_snoc cs y same n i x).1 h1 with h | ⟨rfl, rfl, _⟩
      · exact .inl ⟨h0, i, x, h, h2⟩
      · exact .inr h2
    · rintro (⟨h0, i, x, h1, h2⟩ | rfl)
      · exact ⟨h0, i, x, (firstFor_snoc cs y same n i x).2 (.inl h1), h2⟩
      · exact ⟨hn, cs.length, y, (firstFor_snoc cs y same n _ _).2 (.inr ⟨rfl, rfl, hy⟩), rfl⟩
  have has (same : Bool) (m : List (String × CutSpRule)) (hm : ∀ n c, (n, c) ∈ m ↔ n ≠ "" ∧ ∃ i x, FirstFor cs same n i x ∧ c = x.rule i) (n : String) (hn : n ≠ "") :
      m.any (·.1 = n) = true ↔ ∃ j z, FirstFor cs same n j z := by
    rw [List.any_eq_true]
    constructor
    · rintro ⟨⟨a, c⟩, h1, h2⟩
      simp at h2
      subst h2
      obtain ⟨_, i, x, hf, _⟩ := (hm a c).1 h1
      exact ⟨i, x, hf⟩
    · rintro ⟨j, z, hf⟩
      exact ⟨(n, z.rule j), (hm _ _).2 ⟨hn, j, z, hf, rfl⟩, by simp⟩
  have hf := has false st.map h.map
  have ht := has true st.mapSame h.mapSame
  unfold CutStore.add
  rw [hs]
  by_cases e : y.layer = ""
  · rw [if_pos e]
    have hm (same : Bool) (n : String) (c : CutSpRule) : (n ≠ "" ∧ ∃ i x, FirstFor (cs ++ [y]) same n i x ∧ c = x.rule i) ↔ n ≠ "" ∧ ∃ i x, FirstFor cs same n i x ∧ c = x.rule i := by
      by_cases hn : n = ""
      · simp [hn]
      · exact mapOld same n c (fun h' => hn (h'.1.symm.trans e))
    cases hb : y.sameNet
    · simp only [Bool.false_eq_true, if_false]
      refine ⟨fun c => ?_, fun c => ?_, fun n c => ?_, fun n c => ?_⟩
      · rw [plainNew false c ⟨e, hb⟩, List.mem_append, h.cons, List.mem_singleton]
      · rw [plain true c (by simp [hb]), h.consSame]
      · rw [hm, h.map]
      · rw [hm, h.mapSame]
    · simp only [if_true]
      refine ⟨fun c => ?_, fun c => ?_, fun n c => ?_, fun n c => ?_⟩
      · rw [plain false c (by simp [hb]), h.cons]
      · rw [plainNew true c ⟨e, hb⟩, List.mem_append, h.consSame, List.mem_singleton]
      · rw [hm, h.map]
      · rw [hm, h.mapSame]
  · rw [if_neg e]
    have hp (same : Bool) (c : CutSpRule) := plain same c (fun h' => e h'.1)
    cases hb : y.sameNet
    · rw [if_pos (by decide)]
      by_cases hex : ∃ j z, FirstFor cs false y.layer j z
      · rw [if_pos ((hf y.layer e).2 hex)]
        refine ⟨fun c => ?_, fun c => ?_, fun n c => ?_, fun n c => ?_⟩
        · rw [hp, h.cons]
        · rw [hp, h.consSame]
        · rw [mapOld false n c (by rintro ⟨rfl, _, h'⟩; exact h' hex), h.map]
        · rw [mapOld true n c (by rintro ⟨_, h', _⟩; rw [hb] at h'; cases h'), h.mapSame]
      · rw [if_neg (fun h' => hex ((hf y.layer e).1 h'))]
        refine ⟨fun c => ?_, fun c => ?_, fun n c => ?_, fun n c => ?_⟩
        · rw [hp, h.cons]
        · rw [hp, h.consSame]
        · rw [List.mem_append, List.mem_singleton, h.map, Prod.mk.injEq]
          by_cases hn : n = y.layer
          · subst hn
            rw [mapNew false y.layer c ⟨rfl, hb, hex⟩ e]
            simp
          · rw [mapOld false n c (fun h' => hn h'.1.symm)]
            simp [hn]
        · rw [mapOld true n c (by rintro ⟨_, h', _⟩; rw [hb] at h'; cases h'), h.mapSame]
    · rw [if_neg (by decide)]
      by_cases hex : ∃ j z, FirstFor cs true y.layer j z
      · rw [if_pos ((ht y.layer e).2 hex)]
        refine ⟨fun c => ?_, fun c => ?_, fun n c => ?_, fun n c => ?_⟩
        · rw [hp, h.cons]
        · rw [hp, h.consSame]
        · rw [mapOld false n c (by rintro ⟨_, h', _⟩; rw [hb] at h'; cases h'), h.map]
        · rw [mapOld true n c (by rintro ⟨rfl, _, h'⟩; exact h' hex), h.mapSame]
      · rw [if_neg (fun h' => hex ((ht y.layer e).1 h'))]
        refine ⟨fun c => ?_, fun c => ?_, fun n c => ?_, fun n c => ?_⟩
        · rw [hp, h.cons]
        · rw [hp, h.consSame]
        · rw [mapOld false n c (by rintro ⟨_, h', _⟩; rw [hb] at h'; cases h'), h.map]
        · rw [List.mem_append, List.mem_singleton, h.mapSame, Prod.mk.injEq]
          by_cases hn : n = y.layer
          · subst hn
            rw [mapNew true y.layer c ⟨rfl, hb, hex⟩ e]
            simp
          · rw [mapOld true n c (fun h' => hn h'.1.symm)]
            simp [hn]

theorem store_snoc (cs : List LefCut) (y : LefCut) : storeCuts (cs ++ [y]) = (storeCuts cs).add y.layer (y.rule cs.length) := by
  unfold storeCuts
  rw [List.zipIdx_append, List.foldl_append]
  simp

theorem stored_all (cs : List LefCut) : Stored cs (storeCuts cs) := by
  induction h : cs.length generalizing cs with
  | zero =>
    have : cs = [] := List.length_eq_zero_iff.1 h
    subst this
    constructor <;> intros <;> simp [storeCuts, FirstFor]
  | succ n ih =>
    rcases List.eq_nil_or_concat cs with rfl | ⟨xs, y, rfl⟩
    · simp at h
    · rw [List.concat_eq_append, store_snoc]
      exact stored_add (ih xs (by simpa using h)) y

theorem layerOf_snoc (ls : List String) (m n : String) : layerOf (ls ++ [m]) n = if m = n then some ls.length else layerOf ls n := by
  unfold layerOf
  rw [List.zipIdx_append, List.foldl_append]
  simp

theorem layerOf_some {ls : List String} {n : String} {l : Nat} (h : layerOf ls n = some l) : ls[l]? = some n := by
  induction hl : ls.length generalizing ls l with
  | zero =>
    have : ls = [] := List.length_eq_zero_iff.1 hl
    subst this
    simp [layerOf] at h
  | succ k ih =>
    rcases List.eq_nil_or_concat ls with rfl | ⟨xs, y, rfl⟩
    · simp at hl
    · rw [List.concat_eq_append] at h ⊢
      rw [layerOf_snoc] at h
      rw [get_snoc]
      split at h
      · rename_i e
        cases h
        exact .inr ⟨rfl, e⟩
      · exact .inl (ih h (by simpa using hl))

/-- keys of the maps are different -/
theorem map_keys (cs : List LefCut) : (storeCuts cs).map.Pairwise (fun p q => p.1 ≠ q.1) ∧ (storeCuts cs).mapSame.Pairwise (fun p q => p.1 ≠ q.1) := by
  induction h : cs.length generalizing cs with
  | zero =>
    have : cs = [] := List.length_eq_zero_iff.1 h
    subst this
    exact ⟨.nil, .nil⟩
  | succ n ih =>
    rcases List.eq_nil_or_concat cs with rfl | ⟨xs, y, rfl⟩
    · simp at h
    · rw [List.concat_eq_append, store_snoc]
      obtain ⟨h1, h2⟩ := ih xs (by simpa using h)
      have key (m : List (String × CutSpRule)) (c : CutSpRule) (hm : m.Pairwise (fun p q => p.1 ≠ q.1)) (hk : ¬ m.any (·.1 = y.layer) = true) :
          (m ++ [(y.layer, c)]).Pairwise (fun p q => p.1 ≠ q.1) := by
        rw [List.pairwise_append]
        refine ⟨hm, List.pairwise_singleton .., fun a ha b hb e => hk ?_⟩
        simp only [List.mem_singleton] at hb
        subst hb
        exact List.any_eq_true.2 ⟨a, ha, by simpa using e⟩
      unfold CutStore.add
      split
      · split <;> exact ⟨h1, h2⟩
      · split
        · split
          · exact ⟨h1, h2⟩
          · rename_i hk
            exact ⟨key _ _ h1 hk, h2⟩
        · split
          · exact ⟨h1, h2⟩
          · rename_i hk
            exact ⟨h1, key _ _ h2 hk⟩

theorem table_get (layers : List String) : ∀ (m : List (String × CutSpRule)) (t : List (Option CutSpRule)) (l : Nat) (c : CutSpRule),
    m.Pairwise (fun p q => p.1 ≠ q.1) → t.length = layers.length → (∀ p ∈ m, layerOf layers p.1 = some l → t[l]? = some none) →
    ((m.foldl (cutPut layers) t)[l]? = some (some c) ↔
      t[l]? = some (some c) ∨ ∃ p ∈ m, layerOf layers p.1 = some l ∧ c = { p.2 with second := some (l : Int) })
  | [], t, l, c, _, _, _ => by simp
  | p :: m, t, l, c, hm, ht, hn => by
    obtain ⟨hp, hm⟩ := List.pairwise_cons.1 hm
    rw [List.foldl_cons, cutPut]
    cases hl : layerOf layers p.1 with
    | none =>
      simp only
      rw [table_get layers m t l c hm ht (fun q hq => hn q (List.mem_cons_of_mem _ hq))]
      simp [hl]
    | some k =>
      simp only
      have hk := layerOf_some hl
      have hlt : k < t.length := by rw [ht]; exact (List.getElem?_eq_some_iff.1 hk).1
      rw [table_get layers m _ l c hm (by simpa using ht)]
      · by_cases e : k = l
        · subst e
          have h0 := hn p (List.mem_cons_self ..) hl
          rw [List.getElem?_set_self hlt, h0]
          simp only [Option.some.injEq, List.mem_cons, exists_eq_or_imp, hl, true_and, reduceCtorEq, false_or]
          constructor
          · rintro (h | h)
            · exact .inl h.symm
            · exact .inr h
          · rintro (h | h)
            · exact .inl h.symm
            · exact .inr h
        · rw [List.getElem?_set_ne e]
          simp only [List.mem_cons, exists_eq_or_imp, hl, Option.some.injEq, e, false_and, false_or]
      · intro q hq hq'
        by_cases e : k = l
        · subst e
          have := layerOf_some hq'
          rw [hk] at this
          exact absurd (Option.some.inj this) (hp q hq)
        · rw [List.getElem?_set_ne e]
          exact hn q (List.mem_cons_of_mem _ hq) hq'

theorem cutTable_get (layers : List String) {m : List (String × CutSpRule)} (hm : m.Pairwise (fun p q => p.1 ≠ q.1)) (l : Nat) (c : CutSpRule) :
    (cutTable layers m)[l]? = some (some c) ↔ ∃ p ∈ m, layerOf layers p.1 = some l ∧ c = { p.2 with second := some (l : Int) } := by
  unfold cutTable
  rw [table_get layers m _ l c hm (by simp)]
  · constructor
    · rintro (h | h)
      · rw [List.getElem?_replicate] at h
        split at h <;> cases h
      · exact h
    · exact .inr
  · intro p _ h
    have := (List.getElem?_eq_some_iff.1 (layerOf_some h)).1
    rw [List.getElem?_replicate, if_pos this]

theorem cutTable_length (layers : List String) (m : List (String × CutSpRule)) : (cutTable layers m).length = layers.length := by
  unfold cutTable
  have : ∀ (m : List (String × CutSpRule)) (t : List (Option CutSpRule)), t.length = layers.length →
      (m.foldl (cutPut layers) t).length = layers.length := by
    intro m
    induction m with
    | nil => exact fun t h => h
    | cons p m ih =>
      intro t h
      rw [List.foldl_cons]
      apply ih
      unfold cutPut
      split
      · exact h
      · simpa using h
  exact this m _ (by simp)

theorem ruleFor_iff (cs : List LefCut) (layers : List String) (same : Bool) (l : Nat) (c : CutSpRule) :
    (cutTable layers (if same then (storeCuts cs).mapSame else (storeCuts cs).map))[l]? = some (some c) ↔
      ∃ n, n ≠ "" ∧ layerOf layers n = some l ∧ RuleFor cs same n l c := by
  have hS := stored_all cs
  have hm : ∀ n c, (n, c) ∈ (if same then (storeCuts cs).mapSame else (storeCuts cs).map) ↔ n ≠ "" ∧ ∃ i x, FirstFor cs same n i x ∧ c = x.rule i := by
    cases same
    · exact hS.map
    · exact hS.mapSame
  have hk : (if same then (storeCuts cs).mapSame else (storeCuts cs).map).Pairwise (fun p q => p.1 ≠ q.1) := by
    cases same
    · exact (map_keys cs).1
    · exact (map_keys cs).2
  rw [cutTable_get layers hk]
  constructor
  · rintro ⟨⟨n, r⟩, h1, h2, rfl⟩
    obtain ⟨hn, i, x, hf, rfl⟩ := (hm n r).1 h1
    exact ⟨n, hn, h2, i, x, hf, (rule_said i x).1, rfl⟩
  · rintro ⟨n, hn, hl, i, x, hf, hs, h2⟩
    refine ⟨(n, x.rule i), (hm _ _).2 ⟨hn, i, x, hf, rfl⟩, hl, ?_⟩
    have hr := (rule_said i x).1
    exact said_unique (i := i) (x := x) hs (show SaidBy { x.rule i with second := some (l : Int) } i x from hr) h2

/-- C158: the rules between cuts of the layer itself are the SPACINGs without a layer, as they are written; those for cuts of one net are separate. -/
theorem c158_own_layer (layers : List String) (cs : List LefCut) (base : CutDb) (c : CutSpRule) :
    (c ∈ (cutDbOf layers cs base).cons ↔ ∃ (i : Nat) (x : LefCut), cs[i]? = some x ∧ x.layer = "" ∧ x.sameNet = false ∧ SaidBy c i x ∧ c.second = none) ∧
    (c ∈ (cutDbOf layers cs base).consSame ↔ ∃ (i : Nat) (x : LefCut), cs[i]? = some x ∧ x.layer = "" ∧ x.sameNet = true ∧ SaidBy c i x ∧ c.second = none) := by
  have hS := stored_all cs
  have key (same : Bool) : (∃ (i : Nat) (x : LefCut), cs[i]? = some x ∧ x.layer = "" ∧ x.sameNet = same ∧ c = x.rule i) ↔
      ∃ (i : Nat) (x : LefCut), cs[i]? = some x ∧ x.layer = "" ∧ x.sameNet = same ∧ SaidBy c i x ∧ c.second = none := by
    constructor
    · rintro ⟨i, x, h1, h2, h3, rfl⟩
      exact ⟨i, x, h1, h2, h3, (rule_said i x).1, rfl⟩
    · rintro ⟨i, x, h1, h2, h3, h4, h5⟩
      exact ⟨i, x, h1, h2, h3, said_unique h4 (rule_said i x).1 h5⟩
  exact ⟨(hS.cons c).trans (key false), (hS.consSame c).trans (key true)⟩

theorem reset_get (t ts : List (Option CutSpRule)) (l : Nat) (c : CutSpRule) :
    (resetSame t ts)[l]? = some (some c) ↔ ts[l]? = some (some c) ∧ ∃ d, t[l]? = some (some d) := by
  unfold resetSame
  rw [List.getElem?_map, List.getElem?_zipIdx]
  cases h : ts[l]? with
  | none => simp
  | some v =>
    cases h' : t[l]? with
    | none => simp [h']
    | some w => cases w <;> simp [h']

/-- C158: the rules between two layers: for each second layer that exists the first SPACING for it that is not only for one net, together with the first
one for cuts of one net. Later SPACINGs for the same two layers, and those for a layer that does not exist, are left out. -/
theorem c158_two_layers (layers : List String) (cs : List LefCut) (base : CutDb) (c : CutSpRule) (s : Option CutSpRule) :
    (c, s) ∈ (cutDbOf layers cs base).inter ↔ ∃ (n : String) (l : Nat), n ≠ "" ∧ layerOf layers n = some l ∧ RuleFor cs false n l c ∧
      ∀ c', s = some c' ↔ RuleFor cs true n l c' := by
  have hf := ruleFor_iff cs layers false
  have ht := ruleFor_iff cs layers true
  simp only [Bool.false_eq_true, if_false] at hf
  simp only [if_true] at ht
  have hin : (c, s) ∈ (cutDbOf layers cs base).inter ↔ ∃ l : Nat, (cutTable layers (storeCuts cs).map)[l]? = some (some c) ∧
      s = (resetSame (cutTable layers (storeCuts cs).map) (cutTable layers (storeCuts cs).mapSame))[l]?.getD none := by
    show (c, s) ∈ List.filterMap _ _ ↔ _
    rw [List.mem_filterMap]
    constructor
    · rintro ⟨⟨o, l⟩, h1, h2⟩
      rw [List.mem_zipIdx_iff_getElem?] at h1
      cases o with
      | none => cases h2
      | some d =>
        simp only [Option.map_some, Option.some.injEq, Prod.mk.injEq] at h2
        obtain ⟨rfl, rfl⟩ := h2
        exact ⟨l, h1, rfl⟩
    · rintro ⟨l, h1, rfl⟩
      exact ⟨(some c, l), List.mem_zipIdx_iff_getElem?.2 h1, rfl⟩
  have hsame (l : Nat) (n : String) (hn : n ≠ "") (hl : layerOf layers n = some l) (c' : CutSpRule) :
      (∃ m, m ≠ "" ∧ layerOf layers m = some l ∧ RuleFor cs true m l c') ↔ RuleFor cs true n l c' := by
    constructor
    · rintro ⟨m, _, hm, h⟩
      have e : m = n := by
        have := layerOf_some hm
        rw [layerOf_some hl] at this
        exact (Option.some.inj this).symm
      exact e ▸ h
    · exact fun h => ⟨n, hn, hl, h⟩
  have hval (o : Option (Option CutSpRule)) (c' : CutSpRule) : o.getD none = some c' ↔ o = some (some c') := by
    cases o <;> simp
  rw [hin]
  constructor
  · rintro ⟨l, h1, rfl⟩
    obtain ⟨n, hn, hl, hr⟩ := (hf l c).1 h1
    refine ⟨n, l, hn, hl, hr, fun c' => ?_⟩
    rw [hval, reset_get, ht, hsame l n hn hl]
    exact ⟨fun h => h.1, fun h => ⟨h, c, h1⟩⟩
  · rintro ⟨n, l, hn, hl, hr, h⟩
    have h1 := (hf l c).2 ⟨n, hn, hl, hr⟩
    refine ⟨l, h1, ?_⟩
    apply Option.ext
    intro c'
    rw [hval, reset_get, ht, hsame l n hn hl, h]
    exact ⟨fun h => ⟨h, c, h1⟩, fun h => h.1⟩

/-- C158: a SPACING for cuts of one net counts only if there is one for any two nets and the same layer; otherwise it is lost. -/
theorem c158_same_net_alone (layers : List String) (cs : List LefCut) (base : CutDb) (l : Nat) :
    (cutDbOf layers cs base).interSame l = true ↔ ∃ n, n ≠ "" ∧ layerOf layers n = some l ∧ (∃ c, RuleFor cs false n l c) ∧ ∃ c, RuleFor cs true n l c := by
  have hf := ruleFor_iff cs layers false
  have ht := ruleFor_iff cs layers true
  simp only [Bool.false_eq_true, if_false] at hf
  simp only [if_true] at ht
  show (decide (0 ≤ (l : Int)) && ((resetSame (cutTable layers (storeCuts cs).map) (cutTable layers (storeCuts cs).mapSame))[(l : Int).toNat]?.getD none).isSome) = true ↔ _
  simp only [Int.toNat_natCast, Bool.and_eq_true, decide_eq_true_eq, Option.isSome_iff_exists]
  have hval (o : Option (Option CutSpRule)) (c' : CutSpRule) : o.getD none = some c' ↔ o = some (some c') := by
    cases o <;> simp
  constructor
  · rintro ⟨_, c, h⟩
    rw [hval, reset_get] at h
    obtain ⟨h1, d, h2⟩ := h
    obtain ⟨n, hn, hl, hr⟩ := (ht l c).1 h1
    obtain ⟨m, _, hm, hr'⟩ := (hf l d).1 h2
    have e : m = n := by
      have := layerOf_some hm
      rw [layerOf_some hl] at this
      exact (Option.some.inj this).symm
    exact ⟨n, hn, hl, ⟨d, e ▸ hr'⟩, c, hr⟩
  · rintro ⟨n, hn, hl, ⟨d, hd⟩, c, hc⟩
    refine ⟨by omega, c, ?_⟩
    rw [hval, reset_get]
    exact ⟨(ht l c).2 ⟨n, hn, hl, hc⟩, d, (hf l d).2 ⟨n, hn, hl, hd⟩⟩

/-- C158: rules with sensible numbers whose second layer is another layer meet the conditions under which the cut checks are proved (C62, C63). -/
theorem c158_rules_ok (layers : List String) (cs : List LefCut) (base : CutDb)
    (h : ∀ x ∈ cs, 0 ≤ x.spacing ∧ 0 ≤ x.within ∧ (x.adj ≠ 0 → 0 < x.within) ∧ ∀ l, layerOf layers x.layer = some l → (l : Int) ≠ base.layer) :
    (cutDbOf layers cs base).RulesOk := by
  have ok {c : CutSpRule} {i : Nat} {x : LefCut} (hx : x ∈ cs) (hs : SaidBy c i x) : c.Ok := by
    obtain ⟨_, h2, _, _, _, _, _, h8, h9, _⟩ := hs
    obtain ⟨k1, _, k3, _⟩ := h x hx
    refine ⟨by omega, fun k hk => ?_⟩
    have := (h8 k).1 hk
    have := k3 (by omega)
    omega
  constructor
  · intro c hc
    rcases List.mem_append.1 hc with hc | hc
    · obtain ⟨i, x, hx, _, _, hs, h2⟩ := (c158_own_layer layers cs base c).1.1 hc
      exact ⟨ok (List.mem_of_getElem? hx) hs, h2⟩
    · obtain ⟨i, x, hx, _, _, hs, h2⟩ := (c158_own_layer layers cs base c).2.1 hc
      exact ⟨ok (List.mem_of_getElem? hx) hs, h2⟩
  · rintro ⟨c, s⟩ hp
    obtain ⟨n, l, _, hl, ⟨i, x, hf, hs, h2⟩, hsame⟩ := (c158_two_layers layers cs base c s).1 hp
    have hx := List.mem_of_getElem? hf.1
    refine ⟨ok hx hs, ⟨l, h2, ?_⟩, fun c' hc' => ?_⟩
    · exact (h x hx).2.2.2 l (by rw [hf.2.1]; exact hl)
    · obtain ⟨j, y, hf', hs', _⟩ := (hsame c').1 hc'
      exact ok (List.mem_of_getElem? hf'.1) hs'

/-! ## an example: two layers of cuts, four rules -/

def exSpacings : List LefCut :=
  [{ spacing := 200 }, { spacing := 150, sameNet := true }, { spacing := 300, layer := "V2" }, { spacing := 280, layer := "V2" },
   { spacing := 100, layer := "V2", sameNet := true, stack := true }, { spacing := 90, layer := "V3", sameNet := true }]

def exCutBase : CutDb := ⟨1, fun _ => 0, fun _ => ⟨0, false, false⟩, fun _ => [], [], [], [], fun _ => false⟩

example : (cutDbOf ["M1", "V1", "M2", "V2", "M3", "V3"] exSpacings exCutBase).RulesOk := c158_rules_ok _ _ _ (by
  intro x hx
  simp only [exSpacings, List.mem_cons, List.not_mem_nil, or_false] at hx
  rcases hx with rfl | rfl | rfl | rfl | rfl | rfl <;> refine ⟨by decide, by decide, by decide, fun l hl e => ?_⟩ <;>
    rw [show l = 1 by change (l : Int) = 1 at e; omega] at hl <;> revert hl <;> decide +kernel)
example : (cutDbOf ["M1", "V1", "M2", "V2", "M3", "V3"] exSpacings exCutBase).inter.map (fun p => (p.1.id, p.1.second, p.2.map (·.id))) = [(2, some 3, some 4)] := by decide +kernel
example : (cutDbOf ["M1", "V1", "M2", "V2", "M3", "V3"] exSpacings exCutBase).interSame 3 = true ∧
    (cutDbOf ["M1", "V1", "M2", "V2", "M3", "V3"] exSpacings exCutBase).interSame 5 = false := by decide +kernel
example : (cutDbOf ["M1", "V1", "M2", "V2", "M3", "V3"] exSpacings exCutBase).cons.map (·.id) = [0] ∧
    (cutDbOf ["M1", "V1", "M2", "V2", "M3", "V3"] exSpacings exCutBase).consSame.map (·.id) = [1] := by decide +kernel

end TR
