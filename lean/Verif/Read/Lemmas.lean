import Verif.Read.Spec
namespace TR

theorem readRecs_append (E : REnv) (B : RBlock) (a b : List DefRec) :
    readRecs E B (a ++ b) = (readRecs E B a).bind (fun B' => readRecs E B' b) := by
  induction a generalizing B with
  | nil => rfl
  | cons r a ih =>
    simp only [List.cons_append, readRecs]
    cases h : readRec E B r with
    | none => rfl
    | some B1 => simp only [Option.bind_some]; exact ih B1

/-- induction over the prefixes of the file -/
theorem readRecs_inv (E : REnv) {P : List DefRec → RBlock → Prop} (B0 : RBlock) (h0 : P [] B0)
    (step : ∀ pre r B B', P pre B → readRec E B r = some B' → P (pre ++ [r]) B') (rs : List DefRec) (B : RBlock)
    (h : readRecs E B0 rs = some B) : P rs B := by
  suffices H : ∀ post pre B1, P pre B1 → readRecs E B1 post = some B → P (pre ++ post) B by
    simpa using H rs [] B0 h0 h
  intro post
  induction post with
  | nil => intro pre B1 hp hr; simp only [readRecs, Option.some.injEq] at hr; subst hr; simpa using hp
  | cons r post ih =>
    intro pre B1 hp hr
    simp only [readRecs] at hr
    cases h1 : readRec E B1 r with
    | none => rw [h1] at hr; cases hr
    | some B2 =>
      rw [h1] at hr
      have := ih (pre ++ [r]) B2 (step pre r B1 B2 hp h1) hr
      simpa using this

theorem lastIdx_some (name : α → String) (l : List α) (n : String) (i : Nat) :
    lastIdx (fun a => name a == n) l = some i ↔ LastAt name l n i := by
  induction l generalizing i with
  | nil => simp [lastIdx, LastAt]
  | cons a l ih =>
    simp only [lastIdx]
    cases h : lastIdx (fun a => name a == n) l with
    | some j =>
      have hj := (ih j).1 h
      simp only [Option.some.injEq]
      constructor
      · intro e; subst e
        obtain ⟨b, h1, h2, h3⟩ := hj
        refine ⟨b, by simpa using h1, h2, ?_⟩
        intro k c hk hc
        cases k with
        | zero => omega
        | succ k => exact h3 k c (by omega) (by simpa using hc)
      · intro hi
        obtain ⟨b, h1, h2, h3⟩ := hi
        cases i with
        | zero =>
          obtain ⟨c, hc1, hc2, _⟩ := hj
          exact absurd hc2 (h3 (j + 1) c (by omega) (by simpa using hc1))
        | succ i =>
          have : lastIdx (fun a => name a == n) l = some i :=
            (ih i).2 ⟨b, by simpa using h1, h2, fun k c hk hc => h3 (k + 1) c (by omega) (by simpa using hc)⟩
          rw [h] at this
          simp only [Option.some.injEq] at this
          omega
    | none =>
      have hn : ∀ (k : Nat) (b : α), l[k]? = some b → name b ≠ n := by
        intro k b hk hb
        -- the last one exists
        have : ∃ i, LastAt name l n i := by
          clear ih h
          induction l generalizing k b with
          | nil => simp at hk
          | cons x l ih2 =>
            by_cases hx : ∃ i, LastAt name l n i
            · obtain ⟨i, c, h1, h2, h3⟩ := hx
              refine ⟨i + 1, c, by simpa using h1, h2, ?_⟩
              intro m d hm hd
              cases m with
              | zero => omega
              | succ m => exact h3 m d (by omega) (by simpa using hd)
            · have hno : ∀ (m : Nat) (d : α), l[m]? = some d → name d ≠ n := by
                intro m d hm hd
                exact hx (ih2 m d hm hd)
              cases k with
              | zero =>
                simp only [List.getElem?_cons_zero, Option.some.injEq] at hk
                subst hk
                refine ⟨0, x, by simp, hb, ?_⟩
                intro m d hm hd
                cases m with
                | zero => omega
                | succ m => exact hno m d (by simpa using hd)
              | succ k => exact absurd hb (hno k b (by simpa using hk))
        obtain ⟨i, hi⟩ := this
        rw [(ih i).2 hi] at h; cases h
      by_cases ha : name a = n
      · simp only [ha, beq_self_eq_true, if_true, Option.some.injEq]
        constructor
        · intro e; subst e
          refine ⟨a, by simp, ha, ?_⟩
          intro k c hk hc
          cases k with
          | zero => omega
          | succ k => exact hn k c (by simpa using hc)
        · intro ⟨b, h1, h2, _⟩
          cases i with
          | zero => rfl
          | succ i => exact absurd h2 (hn i b (by simpa using h1))
      · have : (name a == n) = false := by simpa using ha
        simp only [this, Bool.false_eq_true, if_false]
        constructor
        · intro h; cases h
        · intro ⟨b, h1, h2, _⟩
          cases i with
          | zero => simp only [List.getElem?_cons_zero, Option.some.injEq] at h1; subst h1; exact absurd h2 ha
          | succ i => exact absurd h2 (hn i b (by simpa using h1))

theorem lastIdx_none (name : α → String) (l : List α) (n : String) :
    lastIdx (fun a => name a == n) l = none ↔ ∀ a ∈ l, name a ≠ n := by
  induction l with
  | nil => simp [lastIdx]
  | cons a l ih =>
    simp only [lastIdx]
    cases h : lastIdx (fun a => name a == n) l with
    | some j =>
      rw [h] at ih
      simp only [reduceCtorEq, false_iff, List.mem_cons] at ih ⊢
      intro hh; exact ih (fun x hx => hh x (Or.inr hx))
    | none =>
      rw [h] at ih
      have := ih.1 rfl
      by_cases ha : name a = n
      · simp [ha]
      · have e : (name a == n) = false := by simpa using ha
        simp only [e, Bool.false_eq_true, if_false, List.mem_cons, forall_eq_or_imp, true_iff]
        exact ⟨ha, this⟩

theorem findIdx_firstAt (name : α → String) (l : List α) (n : String) (i : Nat) :
    l.findIdx? (fun a => name a == n) = some i ↔ FirstAt name l n i := by
  rw [List.findIdx?_eq_some_iff_getElem]
  constructor
  · rintro ⟨h, h1, h2⟩
    refine ⟨l[i], List.getElem?_eq_getElem h, by simpa using h1, ?_⟩
    intro j b hj hb
    have hjl : j < l.length := by omega
    rw [List.getElem?_eq_getElem hjl] at hb
    simp only [Option.some.injEq] at hb
    subst hb
    have := h2 j hj
    simpa using this
  · rintro ⟨a, h1, h2, h3⟩
    obtain ⟨h, e⟩ := List.getElem?_eq_some_iff.1 h1
    refine ⟨h, by rw [e]; simpa using h2, ?_⟩
    intro j hj
    have := h3 j l[j] hj (List.getElem?_eq_getElem (by omega))
    simpa using this

theorem cellNamed_iff (lib : List RCell) (n : String) (c : RCell) : cellNamed lib n = some c ↔ CellIs lib n c := by
  unfold cellNamed CellIs
  rw [Option.bind_eq_some_iff]
  constructor
  · rintro ⟨i, h1, h2⟩; exact ⟨i, (lastIdx_some RCell.name lib n i).1 h1, h2⟩
  · rintro ⟨i, h1, h2⟩; exact ⟨i, (lastIdx_some RCell.name lib n i).2 h1, h2⟩

theorem LastAt.unique {name : α → String} {l : List α} {n : String} {i j : Nat} (h1 : LastAt name l n i)
    (h2 : LastAt name l n j) : i = j := by
  have a := (lastIdx_some name l n i).2 h1
  have b := (lastIdx_some name l n j).2 h2
  rw [a] at b; simpa using b

end TR
