import Verif.Setup.TextSpec
/-! Words, lines and numerals. -/
namespace TR

theorem wordsGo_blank {s : Txt} (hs : IsBlank s) (rest prev : Txt) : wordsGo (s ++ rest) none prev = wordsGo rest none prev := by
  induction s with
  | nil => rfl
  | cons c s ih =>
    rw [List.cons_append, wordsGo, if_pos (hs c (by simp))]
    exact ih (fun x hx => hs x (by simp [hx]))

theorem wordsGo_in {w : Txt} (hw : ∀ c ∈ w, isSp c = false) (rest cur prev : Txt) :
    wordsGo (w ++ rest) (some cur) prev = wordsGo rest (some (cur ++ w)) prev := by
  induction w generalizing cur with
  | nil => simp
  | cons c w ih =>
    rw [List.cons_append, wordsGo, if_neg (by simp [hw c (by simp)]), ih (fun x hx => hw x (by simp [hx]))]
    simp

theorem wordsGo_word {w : Txt} (hw : IsWord w) (rest prev : Txt) :
    wordsGo (w ++ rest) none prev = wordsGo rest (some w) prev := by
  obtain ⟨hne, hc⟩ := hw
  match w, hne with
  | c :: w, _ =>
    rw [List.cons_append, wordsGo, if_neg (by simp [hc c (by simp)]), wordsGo_in (fun x hx => hc x (by simp [hx]))]
    rfl

theorem wordsGo_spelled {line : Txt} {ws : List Txt} (h : Spelled line ws) (prev : Txt) : wordsGo line none prev = ws := by
  induction h generalizing prev with
  | @last s w hs hw =>
    rw [wordsGo_blank hs]
    have := wordsGo_word hw [] prev
    rw [List.append_nil] at this
    rw [this, wordsGo]
  | @more s w line c ws hs hw hc _ ih =>
    rw [List.append_assoc, wordsGo_blank hs, wordsGo_word hw, wordsGo, if_pos hc, ih]

theorem wordsGo_blanks {s : Txt} (hs : IsBlank s) (prev : Txt) : wordsGo s none prev = [prev] := by
  have := wordsGo_blank hs [] prev
  rw [List.append_nil] at this
  rw [this, wordsGo]

theorem Spelled.ne_nil {line : Txt} {ws : List Txt} (h : Spelled line ws) : ws ≠ [] := by cases h <;> simp

theorem wordsGo_trailing {line s : Txt} {ws : List Txt} (h : Spelled line ws) (hs : IsBlank s) (hne : s ≠ []) (prev : Txt) :
    wordsGo (line ++ s) none prev = ws ++ [ws.getLast h.ne_nil] := by
  induction h generalizing prev with
  | @last b w hb hw =>
    rw [List.append_assoc, wordsGo_blank hb, wordsGo_word hw]
    match s, hne with
    | c :: s, _ =>
      rw [wordsGo, if_pos (hs c (by simp)), wordsGo_blanks (fun x hx => hs x (by simp [hx]))]
      rfl
  | @more b w line c ws hb hw hc hl ih =>
    have : b ++ w ++ c :: line ++ s = b ++ (w ++ (c :: (line ++ s))) := by simp
    rw [this, wordsGo_blank hb, wordsGo_word hw, wordsGo, if_pos hc, ih]
    rw [List.getLast_cons hl.ne_nil]
    rfl

/-- every line is blank, spelled, or spelled with blanks after it -/
theorem line_cases (line : Txt) : IsBlank line ∨ (∃ ws, Spelled line ws) ∨
    ∃ l s ws, Spelled l ws ∧ IsBlank s ∧ s ≠ [] ∧ line = l ++ s := by
  induction line with
  | nil => left; intro c hc; cases hc
  | cons c line ih =>
    cases hc : isSp c with
    | true =>
      rcases ih with h | ⟨ws, h⟩ | ⟨l, s, ws, h, h2, h3, rfl⟩
      · left
        intro x hx
        rcases List.mem_cons.1 hx with rfl | hx
        · exact hc
        · exact h x hx
      · right; left
        have hb : ∀ s, IsBlank s → IsBlank (c :: s) := by
          intro s hs x hx
          rcases List.mem_cons.1 hx with rfl | hx
          · exact hc
          · exact hs x hx
        cases h with
        | last hs hw => exact ⟨_, .last (hb _ hs) hw⟩
        | more hs hw h1 h2 => exact ⟨_, .more (hb _ hs) hw h1 h2⟩
      · right; right
        have hb : ∀ s, IsBlank s → IsBlank (c :: s) := by
          intro s hs x hx
          rcases List.mem_cons.1 hx with rfl | hx
          · exact hc
          · exact hs x hx
        refine ⟨c :: l, s, ws, ?_, h2, h3, rfl⟩
        cases h with
        | last hs hw => exact .last (hb _ hs) hw
        | more hs hw h1 h2 => exact .more (hb _ hs) hw h1 h2
    | false =>
      have w1 : ∀ w, IsWord w → IsWord (c :: w) := by
        rintro w ⟨_, h2⟩
        refine ⟨by simp, fun x hx => ?_⟩
        rcases List.mem_cons.1 hx with rfl | hx
        · exact hc
        · exact h2 x hx
      have w0 : IsWord [c] := ⟨by simp, fun x hx => by simp at hx; subst hx; exact hc⟩
      have b0 : IsBlank [] := fun x hx => by cases hx
      -- put `c` in front of a spelled line
      have cons : ∀ l ws, Spelled l ws → ∃ ws', Spelled (c :: l) ws' := by
        intro l ws h
        cases h with
        | @last s w hs hw =>
          match s with
          | [] => exact ⟨_, Spelled.last b0 (w1 _ hw)⟩
          | e :: s =>
            refine ⟨_, Spelled.more (line := s ++ w) (c := e) b0 w0 (hs e (by simp)) (.last (fun x hx => hs x (by simp [hx])) hw)⟩
        | @more s w l' e ws hs hw h1 h2 =>
          match s with
          | [] => exact ⟨_, Spelled.more (s := []) b0 (w1 _ hw) h1 h2⟩
          | f :: s =>
            refine ⟨_, Spelled.more (line := s ++ w ++ e :: l') (c := f) b0 w0 (hs f (by simp)) (.more (fun x hx => hs x (by simp [hx])) hw h1 h2)⟩
      rcases ih with h | ⟨ws, h⟩ | ⟨l, s, ws, h, h2, h3, rfl⟩
      · by_cases hl : line = []
        · subst hl; exact .inr (.inl ⟨_, Spelled.last b0 w0⟩)
        · exact .inr (.inr ⟨[c], line, _, Spelled.last b0 w0, h, hl, rfl⟩)
      · exact .inr (.inl (cons _ _ h))
      · obtain ⟨ws', h'⟩ := cons _ _ h
        exact .inr (.inr ⟨c :: l, s, ws', h', h2, h3, rfl⟩)

theorem linesOf_cut {a : Txt} (ha : '\n' ∉ a) (b cur : Txt) : linesOf (a ++ '\n' :: b) cur = (cur ++ a) :: linesOf b [] := by
  induction a generalizing cur with
  | nil => simp [linesOf]
  | cons c a ih =>
    rw [List.cons_append, linesOf, if_neg (by intro e; subst e; simp at ha), ih (by intro h; exact ha (by simp [h]))]
    simp

theorem IsWord.no_newline {w : Txt} (h : IsWord w) : '\n' ∉ w := by
  intro hm
  have := h.2 _ hm
  simp [isSp] at this

/-! ### numerals -/

theorem digitVal_digitChar {d : Nat} (h : d < 10) : digitVal (digitChar d) = some d := by
  have : ∀ d : Fin 10, digitVal (digitChar d.val) = some d.val := by decide
  exact this ⟨d, h⟩

theorem digitChar_plain {d : Nat} (h : d < 10) : isSp (digitChar d) = false ∧ digitChar d ≠ '-' ∧ digitChar d ≠ '+' := by
  have : ∀ d : Fin 10, isSp (digitChar d.val) = false ∧ digitChar d.val ≠ '-' ∧ digitChar d.val ≠ '+' := by decide
  exact this ⟨d, h⟩

theorem showGo_spec : ∀ (f n : Nat), n < f → ∃ ds : List Nat, ds ≠ [] ∧ (∀ d ∈ ds, d < 10) ∧ showGo f n = ds.map digitChar ∧
    ds.foldl (fun a d => a * 10 + d) 0 = n
  | 0, n, h => by omega
  | f + 1, n, h => by
    unfold showGo
    by_cases hn : n < 10
    · rw [if_pos hn]
      exact ⟨[n], by simp, by simpa using hn, rfl, by simp⟩
    · rw [if_neg hn]
      obtain ⟨ds, h1, h2, h3, h4⟩ := showGo_spec f (n / 10) (by omega)
      refine ⟨ds ++ [n % 10], by simp, ?_, by rw [h3]; simp, ?_⟩
      · intro d hd
        rcases List.mem_append.1 hd with hd | hd
        · exact h2 d hd
        · simp at hd; omega
      · rw [List.foldl_append, h4]
        simp only [List.foldl_cons, List.foldl_nil]
        omega

/-- a text that does not begin with a digit -/
def NoDigit (t : Txt) : Prop := ∀ c r, t = c :: r → digitVal c = none

theorem readNat_stop {t : Txt} (h : NoDigit t) (acc : Option Nat) : readNat t acc = acc := by
  cases t with
  | nil => rfl
  | cons c r => rw [readNat, h c r rfl]

theorem readNat_digits : ∀ (ds : List Nat) (acc : Option Nat) (t : Txt), NoDigit t → (∀ d ∈ ds, d < 10) → ds ≠ [] →
    readNat (ds.map digitChar ++ t) acc = some (ds.foldl (fun a d => a * 10 + d) (acc.getD 0))
  | [d], acc, t, ht, h, _ => by
    simp only [List.map_cons, List.map_nil, List.cons_append, List.nil_append, readNat]
    rw [digitVal_digitChar (h d (by simp))]
    dsimp only
    rw [readNat_stop ht]
    simp
  | d :: e :: ds, acc, t, ht, h, _ => by
    have ih := readNat_digits (e :: ds) (some (acc.getD 0 * 10 + d)) t ht (fun x hx => h x (by simp at hx ⊢; exact .inr hx)) (by simp)
    rw [List.map_cons, List.cons_append, readNat, digitVal_digitChar (h d (by simp))]
    dsimp only
    rw [ih]
    rfl

theorem showNat_spec (n : Nat) : ∃ ds : List Nat, ds ≠ [] ∧ (∀ d ∈ ds, d < 10) ∧ showNat n = ds.map digitChar ∧
    ds.foldl (fun a d => a * 10 + d) 0 = n := showGo_spec (n + 1) n (by omega)

theorem readNat_show (n : Nat) {t : Txt} (ht : NoDigit t) : readNat (showNat n ++ t) none = some n := by
  obtain ⟨ds, h1, h2, h3, h4⟩ := showNat_spec n
  rw [h3, readNat_digits ds none t ht h2 h1]
  simpa using h4

theorem showNat_word (n : Nat) : IsWord (showNat n) := by
  obtain ⟨ds, h1, h2, h3, h4⟩ := showNat_spec n
  rw [h3]
  refine ⟨by simpa using h1, ?_⟩
  intro c hc
  obtain ⟨d, hd, rfl⟩ := List.mem_map.1 hc
  exact (digitChar_plain (h2 d hd)).1

theorem showInt_word (i : Int) : IsWord (showInt i) := by
  unfold showInt
  split
  · obtain ⟨_, h⟩ := showNat_word i.natAbs
    refine ⟨by simp, ?_⟩
    intro c hc
    rcases List.mem_cons.1 hc with rfl | hc
    · rfl
    · exact h c hc
  · exact showNat_word _

/-- what is written is read back, whatever follows it -/
theorem stoi_show_then {i : Int} (h : FitsInt i) {t : Txt} (ht : NoDigit t) : stoi (showInt i ++ t) = some i := by
  have key : ∀ v : Option Int, v = some i → (match v with
      | some n => if -2147483648 ≤ n ∧ n ≤ 2147483647 then some n else none
      | none => none) = some i := by
    rintro _ rfl
    exact if_pos h
  unfold stoi showInt
  apply key
  by_cases hi : i < 0
  · rw [if_pos hi]
    show (readNat (showNat i.natAbs ++ t) none).map _ = _
    rw [readNat_show _ ht, Option.map_some]
    congr 1
    omega
  · rw [if_neg hi]
    obtain ⟨ds, h1, h2, h3, h4⟩ := showNat_spec i.natAbs
    match ds, h1 with
    | d :: ds, _ =>
      have hr := readNat_show i.natAbs ht
      rw [h3] at hr ⊢
      rw [List.map_cons, List.cons_append] at hr ⊢
      obtain ⟨_, p2, p3⟩ := digitChar_plain (h2 d (by simp))
      have e : (i.natAbs : Int) = i := by omega
      split
      · rename_i heq; exact absurd (List.cons.inj heq).1 p2
      · rename_i heq; exact absurd (List.cons.inj heq).1 p3
      · rw [hr]; simp [e]

theorem stoi_show {i : Int} (h : FitsInt i) : stoi (showInt i) = some i := by
  have := stoi_show_then h (t := []) (fun c r e => by cases e)
  rwa [List.append_nil] at this

end TR
