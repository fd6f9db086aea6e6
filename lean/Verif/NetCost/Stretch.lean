import Verif.NetCost.Model
import Verif.Track.Props
/-! Which nodes the walk along a grid line visits. -/
namespace TR

theorem strictInc_get {l : List Int} (h : StrictInc l) {i j : Nat} (hij : i < j) {a b : Int} (ha : l[i]? = some a) (hb : l[j]? = some b) : a < b := by
  obtain ⟨h1, rfl⟩ := List.getElem?_eq_some_iff.1 ha
  obtain ⟨h2, rfl⟩ := List.getElem?_eq_some_iff.1 hb
  exact List.pairwise_iff_getElem.1 h i j h1 h2 hij

theorem coordIf_some {cs : List Int} {i c : Int} : coordIf cs i = some c ↔ 0 ≤ i ∧ cs[i.toNat]? = some c := by
  unfold coordIf
  by_cases h : i < 0
  · rw [if_pos h]; constructor
    · intro e; cases e
    · rintro ⟨h', _⟩; omega
  · rw [if_neg h]; constructor
    · intro e; exact ⟨by omega, e⟩
    · exact fun e => e.2

theorem coordIf_lt {cs : List Int} (hs : StrictInc cs) {i j a b : Int} (hi : coordIf cs i = some a) (hj : coordIf cs j = some b) :
    (i < j ↔ a < b) ∧ (i = j ↔ a = b) := by
  rw [coordIf_some] at hi hj
  have key : ∀ {i j : Int} {a b : Int}, 0 ≤ i → 0 ≤ j → cs[i.toNat]? = some a → cs[j.toNat]? = some b → i < j → a < b := by
    intro i j a b h0 h1 ha hb hij
    exact strictInc_get hs (by omega) ha hb
  rcases Int.lt_trichotomy i j with h | h | h
  · have := key hi.1 hj.1 hi.2 hj.2 h; omega
  · subst h; have := hi.2.symm.trans hj.2; cases this; omega
  · have := key hj.1 hi.1 hj.2 hi.2 h; omega

/-- the node that follows in the direction of the walk -/
def onward (fwd : Bool) (i : Int) : Int := if fwd then i + 1 else i - 1

/-- `k` is `i` or further on -/
def beyond (fwd : Bool) (i k : Int) : Prop := if fwd then i ≤ k else k ≤ i

/-- the length of the way from `a` to `b` in the direction of the walk -/
def way (fwd : Bool) (a b : Int) : Int := if fwd then b - a else a - b

theorem aheadLen_eq (cs : List Int) (fwd : Bool) (i : Int) (a : Int) (ha : coordIf cs i = some a) :
    aheadLen cs fwd i = (coordIf cs (onward fwd i)).map (way fwd a) := by
  unfold aheadLen onward way
  cases fwd
  · simp only [Bool.false_eq_true, if_false]
    rw [show i - 1 + 1 = i by omega, ha]
    cases coordIf cs (i - 1) <;> rfl
  · simp only [if_true]
    rw [ha]
    cases coordIf cs (i + 1) <;> rfl

theorem aheadLen_none (cs : List Int) (fwd : Bool) (i : Int) (ha : coordIf cs i = none) : aheadLen cs fwd i = none := by
  unfold aheadLen
  cases fwd
  · simp only [Bool.false_eq_true, if_false]
    rw [show i - 1 + 1 = i by omega, ha]
  · simp only [if_true]
    rw [ha]
    cases coordIf cs (i + 1) <;> rfl

theorem way_pos {cs : List Int} (hs : StrictInc cs) {fwd : Bool} {i a b : Int} (ha : coordIf cs i = some a) (hb : coordIf cs (onward fwd i) = some b) :
    0 < way fwd a b := by
  have h := coordIf_lt hs ha hb
  have h' := coordIf_lt hs hb ha
  unfold onward way at *
  cases fwd
  · simp only [Bool.false_eq_true, if_false] at *; have := h'.1.1 (by omega); omega
  · simp only [if_true] at *; have := h.1.1 (by omega); omega

theorem stretch_mem {cs : List Int} (hs : StrictInc cs) (fwd : Bool) (bloat : Int) : ∀ (fuel : Nat) (i len c : Int) (l : List Int),
    coordIf cs (onward fwd i) = some c → stretch cs fwd bloat fuel i len = some l →
    ∀ k, k ∈ l ↔ beyond fwd i k ∧ ∃ a, coordIf cs (onward fwd k) = some a ∧ len + way fwd c a ≤ bloat := by
  intro fuel
  induction fuel with
  | zero => intro i len c l _ h; cases h
  | succ fuel ih =>
    intro i len c l hc h k
    rw [stretch] at h
    have hbey : beyond fwd i k → ∀ a, coordIf cs (onward fwd k) = some a → 0 ≤ way fwd c a := by
      intro hb a ha
      have h1 := coordIf_lt hs hc ha
      have h2 := coordIf_lt hs ha hc
      unfold beyond onward way at *
      cases fwd
      · simp only [Bool.false_eq_true, if_false] at *
        rcases Int.lt_or_eq_of_le hb with hb | hb
        · have := h2.1.1 (by omega); omega
        · have := h2.2.1 (by omega); omega
      · simp only [if_true] at *
        rcases Int.lt_or_eq_of_le hb with hb | hb
        · have := h1.1.1 (by omega); omega
        · have := h1.2.1 (by omega); omega
    by_cases hl : len > bloat
    · rw [if_pos hl] at h
      cases h
      constructor
      · intro h; cases h
      · rintro ⟨h1, a, ha, h2⟩
        have := hbey h1 a ha; omega
    · rw [if_neg hl] at h
      dsimp only at h
      rw [show (if fwd = true then i + 1 else i - 1) = onward fwd i from rfl, aheadLen_eq cs fwd _ c hc] at h
      cases hc' : coordIf cs (onward fwd (onward fwd i)) with
      | none => rw [hc'] at h; cases h
      | some c' =>
        rw [hc'] at h
        have hw := way_pos hs hc hc'
        simp only [Option.map_some] at h
        rw [if_neg (by omega), Option.map_eq_some_iff] at h
        obtain ⟨l', hl', rfl⟩ := h
        have h1 := ih (onward fwd i) _ c' l' hc' hl' k
        rw [List.mem_cons, h1]
        constructor
        · rintro (rfl | ⟨h2, a, ha, h3⟩)
          · refine ⟨?_, c, hc, ?_⟩
            · unfold beyond; cases fwd <;> simp
            · unfold way; cases fwd <;> simp <;> omega
          · refine ⟨?_, a, ha, ?_⟩
            · unfold beyond onward at *; cases fwd <;> simp at * <;> omega
            · unfold way at *; cases fwd <;> simp at * <;> omega
        · rintro ⟨h2, a, ha, h3⟩
          by_cases hk : k = i
          · exact Or.inl hk
          · refine Or.inr ⟨?_, a, ha, ?_⟩
            · unfold beyond onward at *; cases fwd <;> simp at * <;> omega
            · unfold way at *; cases fwd <;> simp at * <;> omega

theorem stretch_some {cs : List Int} (hs : StrictInc cs) (fwd : Bool) (bloat : Int) : ∀ (fuel : Nat) (i len c : Int),
    coordIf cs (onward fwd i) = some c → (if fwd then (cs.length : Int) - i else i) ≤ fuel → 0 < fuel →
    ((stretch cs fwd bloat fuel i len).isSome = true ↔ ∃ k a, coordIf cs k = some a ∧ beyond fwd (onward fwd i) k ∧ bloat < len + way fwd c a) := by
  intro fuel
  induction fuel with
  | zero => intro i len c _ _ h; omega
  | succ fuel ih =>
    intro i len c hc hf _
    rw [stretch]
    by_cases hl : len > bloat
    · rw [if_pos hl]
      simp only [Option.isSome_some, true_iff]
      refine ⟨onward fwd i, c, hc, ?_, ?_⟩
      · unfold beyond; cases fwd <;> simp
      · unfold way; cases fwd <;> simp <;> omega
    · rw [if_neg hl]
      dsimp only
      rw [show (if fwd = true then i + 1 else i - 1) = onward fwd i from rfl, aheadLen_eq cs fwd _ c hc]
      cases hc' : coordIf cs (onward fwd (onward fwd i)) with
      | none =>
        simp only [Option.map_none, Option.isSome_none, Bool.false_eq_true, false_iff]
        rintro ⟨k, a, ha, hb, hlt⟩
        have hk : k = onward fwd i := by
          obtain ⟨h0, h1⟩ := coordIf_some.1 hc
          obtain ⟨h2, h3⟩ := coordIf_some.1 ha
          have h4 := (List.getElem?_eq_some_iff.1 h1).1
          have h5 := (List.getElem?_eq_some_iff.1 h3).1
          unfold coordIf at hc'
          unfold beyond onward at *
          cases fwd
          · simp only [Bool.false_eq_true, if_false] at *
            split at hc'
            · omega
            · rw [List.getElem?_eq_none_iff] at hc'; omega
          · simp only [if_true] at *
            split at hc'
            · omega
            · rw [List.getElem?_eq_none_iff] at hc'; omega
        subst hk
        rw [hc] at ha; cases ha
        unfold way at hlt; cases fwd <;> simp at hlt <;> omega
      | some c' =>
        have hw := way_pos hs hc hc'
        simp only [Option.map_some]
        rw [if_neg (by omega), Option.isSome_map]
        have hfu : (if fwd then (cs.length : Int) - onward fwd i else onward fwd i) ≤ fuel ∧ 0 < fuel := by
          obtain ⟨h0, h1⟩ := coordIf_some.1 hc'
          have h4 := (List.getElem?_eq_some_iff.1 h1).1
          unfold onward at *
          cases fwd <;> simp at * <;> omega
        rw [ih (onward fwd i) _ c' hc' hfu.1 hfu.2]
        constructor
        · rintro ⟨k, a, ha, hb, hlt⟩
          refine ⟨k, a, ha, ?_, ?_⟩
          · unfold beyond onward at *; cases fwd <;> simp at * <;> omega
          · unfold way at *; cases fwd <;> simp at * <;> omega
        · rintro ⟨k, a, ha, hb, hlt⟩
          by_cases hk : k = onward fwd i
          · subst hk; rw [hc] at ha; cases ha
            unfold way at hlt; cases fwd <;> simp at hlt <;> omega
          · refine ⟨k, a, ha, ?_, ?_⟩
            · unfold beyond onward at *; cases fwd <;> simp at * <;> omega
            · unfold way at *; cases fwd <;> simp at * <;> omega

/-- beside the border nothing is defined -/
theorem stretch_border {cs : List Int} (fwd : Bool) (bloat : Int) (h0 : 0 ≤ bloat) (fuel : Nat) (i : Int) (h : coordIf cs (onward fwd i) = none) :
    stretch cs fwd bloat fuel i 0 = none := by
  cases fuel with
  | zero => rfl
  | succ fuel =>
    rw [stretch, if_neg (by omega)]
    dsimp only
    rw [show (if fwd = true then i + 1 else i - 1) = onward fwd i from rfl, aheadLen_none cs fwd _ h]

end TR
