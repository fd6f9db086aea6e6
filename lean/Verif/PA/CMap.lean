/-! # Ordered maps from coordinates to costs

`std::map<frCoord, int>` as used by pin access (src/pa/FlexPA.h:75 and the functions of src/pa/FlexPA_prep.cpp that take such a map), as a list of
pairs with increasing keys. -/
namespace TR

abbrev CMap := List (Int × Nat)

/-- `m[k] = v` -/
def cSet (k : Int) (v : Nat) : CMap → CMap
  | [] => [(k, v)]
  | (a, w) :: m => if k < a then (k, v) :: (a, w) :: m else if k = a then (k, v) :: m else (a, w) :: cSet k v m

/-- `m.find(k)` -/
def cFind (m : CMap) (k : Int) : Option Nat := (m.find? (fun e => e.1 == k)).map (·.2)

/-- `m.insert(make_pair(k, v))`: no effect when the key is present -/
def cInsert (k : Int) (v : Nat) (m : CMap) : CMap := if (cFind m k).isSome then m else cSet k v m

/-- insert, or take the minimum when the key is present — src/pa/FlexPA_prep.cpp:135-145, 260-266. -/
def cCap (k : Int) (v : Nat) (m : CMap) : CMap :=
  match cFind m k with
  | none => cSet k v m
  | some w => cSet k (min w v) m

/-- the keys increase -/
def CMap.Sorted (m : CMap) : Prop := m.Pairwise (fun a b => a.1 < b.1)

theorem cSet_mem_keys (k : Int) (v : Nat) (m : CMap) (e : Int × Nat) (h : e ∈ cSet k v m) : e = (k, v) ∨ e ∈ m := by
  induction m with
  | nil => simpa [cSet] using h
  | cons a m ih =>
    obtain ⟨x, w⟩ := a
    simp only [cSet] at h
    split at h
    · simpa using h
    · split at h
      · rcases List.mem_cons.1 h with h | h
        · exact Or.inl h
        · exact Or.inr (List.mem_cons_of_mem _ h)
      · rcases List.mem_cons.1 h with h | h
        · exact Or.inr (by simp [h])
        · rcases ih h with h | h
          · exact Or.inl h
          · exact Or.inr (List.mem_cons_of_mem _ h)

theorem cSet_sorted (k : Int) (v : Nat) (m : CMap) (h : CMap.Sorted m) : CMap.Sorted (cSet k v m) := by
  induction m with
  | nil => simp [cSet, CMap.Sorted]
  | cons a m ih =>
    obtain ⟨x, w⟩ := a
    have h' := List.pairwise_cons.1 h
    simp only [cSet]
    split
    · rename_i hk
      refine List.pairwise_cons.2 ⟨?_, h⟩
      intro e he
      rcases List.mem_cons.1 he with he | he
      · rw [he]; exact hk
      · have := h'.1 e he; simp only at this ⊢; omega
    · split
      · rename_i _ hk
        subst hk
        exact List.pairwise_cons.2 ⟨h'.1, h'.2⟩
      · refine List.pairwise_cons.2 ⟨?_, ih h'.2⟩
        intro e he
        rcases cSet_mem_keys _ _ _ _ he with he | he
        · rw [he]; simp only; omega
        · exact h'.1 e he

theorem cFind_cons (x : Int) (w : Nat) (m : CMap) (j : Int) :
    cFind ((x, w) :: m) j = if x = j then some w else cFind m j := by
  unfold cFind
  by_cases h : x = j
  · simp [List.find?, h]
  · have : (x == j) = false := by simpa using h
    simp [List.find?, this, h]

theorem cFind_lt (m : CMap) (j : Int) (h : ∀ e ∈ m, j < e.1) : cFind m j = none := by
  unfold cFind
  have : m.find? (fun e => e.1 == j) = none := by
    rw [List.find?_eq_none]
    intro e he
    have := h e he
    simp only [beq_iff_eq]; omega
  rw [this]; rfl

theorem cFind_cSet (k : Int) (v : Nat) (m : CMap) (h : CMap.Sorted m) (j : Int) :
    cFind (cSet k v m) j = if j = k then some v else cFind m j := by
  induction m with
  | nil =>
    simp only [cSet, cFind_cons]
    by_cases hj : j = k
    · simp [hj]
    · rw [if_neg (fun h => hj h.symm), if_neg hj]
  | cons a m ih =>
    obtain ⟨x, w⟩ := a
    have h' := List.pairwise_cons.1 h
    simp only [cSet]
    split
    · simp only [cFind_cons]
      by_cases hj : j = k
      · simp [hj]
      · rw [if_neg (fun h => hj h.symm), if_neg hj]
    · split
      · rename_i _ hk
        subst hk
        simp only [cFind_cons]
        by_cases hj : j = k
        · simp [hj]
        · rw [if_neg (fun h => hj h.symm), if_neg hj, if_neg (fun h => hj h.symm)]
      · rename_i h1 h2
        rw [cFind_cons, ih h'.2, cFind_cons]
        by_cases hj : j = k
        · rw [if_neg (by omega), if_pos hj, if_pos hj]
        · rw [if_neg hj, if_neg hj]

theorem cMem_iff (m : CMap) (h : CMap.Sorted m) (j : Int) (w : Nat) : (j, w) ∈ m ↔ cFind m j = some w := by
  induction m with
  | nil => simp [cFind]
  | cons a m ih =>
    obtain ⟨x, y⟩ := a
    have h' := List.pairwise_cons.1 h
    rw [cFind_cons, List.mem_cons, ih h'.2]
    by_cases hx : x = j
    · subst hx
      rw [if_pos rfl, cFind_lt m x (fun e he => h'.1 e he)]
      simp [eq_comm]
    · rw [if_neg hx]
      constructor
      · rintro (h | h)
        · cases h; exact absurd rfl hx
        · exact h
      · exact Or.inr

theorem cInsert_sorted (k : Int) (v : Nat) (m : CMap) (h : CMap.Sorted m) : CMap.Sorted (cInsert k v m) := by
  unfold cInsert; split
  · exact h
  · exact cSet_sorted _ _ _ h

theorem cFind_cInsert (k : Int) (v : Nat) (m : CMap) (h : CMap.Sorted m) (j : Int) :
    cFind (cInsert k v m) j = if j = k then some ((cFind m k).getD v) else cFind m j := by
  unfold cInsert
  split
  · rename_i hs
    by_cases hj : j = k
    · subst hj
      obtain ⟨w, hw⟩ := Option.isSome_iff_exists.1 hs
      simp [hw]
    · simp [hj]
  · rename_i hs
    rw [cFind_cSet _ _ _ h]
    have : cFind m k = none := by simpa using hs
    simp [this]

theorem cCap_sorted (k : Int) (v : Nat) (m : CMap) (h : CMap.Sorted m) : CMap.Sorted (cCap k v m) := by
  unfold cCap; split <;> exact cSet_sorted _ _ _ h

/-- the value with which `cCap` leaves the key -/
def capVal (o : Option Nat) (v : Nat) : Nat :=
  match o with
  | none => v
  | some w => min w v

theorem cFind_cCap (k : Int) (v : Nat) (m : CMap) (h : CMap.Sorted m) (j : Int) :
    cFind (cCap k v m) j = if j = k then some (capVal (cFind m k) v) else cFind m j := by
  unfold cCap
  cases hf : cFind m k with
  | none => simp only [cFind_cSet _ _ _ h, capVal]
  | some w => simp only [cFind_cSet _ _ _ h, capVal]

end TR
