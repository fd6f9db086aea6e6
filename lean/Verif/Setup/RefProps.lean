import Verif.Setup.RefModel
import Verif.Setup.TextLemmas
/-! C107: the reference DEF. -/
namespace TR

/-! ### specification -/

/-- a text of lines, each ended by a newline -/
def textOf (lines : List Txt) : Txt := lines.flatMap (fun l => l ++ ['\n'])

/-- the first word of the line is `w` -/
def FirstWord (line w : Txt) : Prop :=
  ∃ s rest, IsBlank s ∧ IsWord w ∧ line = s ++ w ++ rest ∧ (rest = [] ∨ ∃ c r, rest = c :: r ∧ isSp c = true)

/-- header of a DEF section, `KEYWORD n ;` -/
def header (kw : String) (n : Int) : Txt := kw.toList ++ [' '] ++ showInt n ++ " ;".toList

/-- a rectangle and a via in DEF -/
def rectLine (layer : Txt) (b : Box) : Txt :=
  "  + RECT ".toList ++ layer ++ " ( ".toList ++ showInt b.left ++ [' '] ++ showInt b.bottom ++ " ) ( ".toList ++
    showInt b.right ++ [' '] ++ showInt b.top ++ " )".toList
def viaLines (v : GenVia) : List Txt :=
  ["- ".toList ++ v.name, rectLine v.layer1 v.box1, rectLine v.cut v.cutBox, rectLine v.layer2 v.box2, "  ;".toList]

/-! ### lemmas -/

theorem linesOf_textOf (lines : List Txt) (h : ∀ l ∈ lines, '\n' ∉ l) : linesOf (textOf lines) [] = lines ++ [[]] := by
  induction lines with
  | nil => rfl
  | cons l lines ih =>
    have : textOf (l :: lines) = l ++ '\n' :: textOf lines := by simp [textOf]
    rw [this, linesOf_cut (h l (by simp)), ih (fun x hx => h x (by simp [hx]))]
    rfl

theorem getLines_textOf (lines : List Txt) (h : ∀ l ∈ lines, '\n' ∉ l) : getLines (textOf lines) = lines := by
  unfold getLines
  rw [linesOf_textOf lines h]
  simp

theorem skipSp_spec (t : Txt) : ∃ s, IsBlank s ∧ t = s ++ skipSp t := by
  induction t with
  | nil => exact ⟨[], fun x hx => (by cases hx), rfl⟩
  | cons c t ih =>
    unfold skipSp
    split
    · rename_i hc
      obtain ⟨s, h1, h2⟩ := ih
      refine ⟨c :: s, ?_, by rw [List.cons_append, ← h2]⟩
      intro x hx
      rcases List.mem_cons.1 hx with rfl | hx
      · exact hc
      · exact h1 x hx
    · exact ⟨[], fun x hx => (by cases hx), rfl⟩

theorem takeWord_spec (t : Txt) : t = (takeWord t).1 ++ (takeWord t).2 ∧ (∀ c ∈ (takeWord t).1, isSp c = false) ∧
    ((takeWord t).2 = [] ∨ ∃ c r, (takeWord t).2 = c :: r ∧ isSp c = true) := by
  induction t with
  | nil => simp [takeWord]
  | cons c t ih =>
    obtain ⟨h1, h2, h3⟩ := ih
    unfold takeWord
    split
    · rename_i hc
      exact ⟨rfl, by simp, .inr ⟨c, t, rfl, hc⟩⟩
    · rename_i hc
      refine ⟨by dsimp only; rw [List.cons_append, ← h1], ?_, h3⟩
      intro x hx
      rcases List.mem_cons.1 hx with rfl | hx
      · simpa using hc
      · exact h2 x hx

theorem headOf_first {line a : Txt} {b : Int} (h : headOf line = some (a, b)) : FirstWord line a := by
  unfold headOf at h
  dsimp only at h
  split at h
  · cases h
  · rename_i hne
    cases hi : takeInt (takeWord (skipSp line)).2 with
    | none => rw [hi] at h; cases h
    | some x =>
      rw [hi] at h
      simp only [Option.map_some, Option.some.injEq, Prod.mk.injEq] at h
      obtain ⟨s, hs, e⟩ := skipSp_spec line
      obtain ⟨t1, t2, t3⟩ := takeWord_spec (skipSp line)
      rw [h.1] at t1 t2 hne
      exact ⟨s, _, hs, ⟨hne, t2⟩, by rw [List.append_assoc, ← t1, ← e], t3⟩

theorem skipSp_word {w : Txt} (hw : IsWord w) (t : Txt) : skipSp (w ++ t) = w ++ t := by
  obtain ⟨h1, h2⟩ := hw
  match w, h1 with
  | c :: w, _ => rw [List.cons_append, skipSp, if_neg (by simp [h2 c (by simp)])]

theorem takeWord_word {w : Txt} (hw : ∀ c ∈ w, isSp c = false) {t : Txt} {c : Char} (hc : isSp c = true) :
    takeWord (w ++ c :: t) = (w, c :: t) := by
  induction w with
  | nil => simp [takeWord, hc]
  | cons d w ih =>
    rw [List.cons_append, takeWord, if_neg (by simp [hw d (by simp)]), ih (fun x hx => hw x (by simp [hx]))]

theorem headOf_header {kw : String} (hk : IsWord kw.toList) {n : Int} (hn : FitsInt n) : headOf (header kw n) = some (kw.toList, n) := by
  have e : header kw n = kw.toList ++ ' ' :: (showInt n ++ " ;".toList) := by simp [header]
  have hnd : NoDigit " ;".toList := by
    intro c r e
    have : " ;".toList = [' ', ';'] := by decide
    rw [this] at e
    cases e
    decide
  unfold headOf
  rw [e, skipSp_word hk, takeWord_word hk.2 rfl]
  dsimp only
  rw [if_neg hk.1]
  unfold takeInt
  rw [skipSp, if_pos (show isSp ' ' = true from rfl), skipSp_word (showInt_word n), stoi_show_then hn hnd]
  rfl

theorem flatMap_plain {lines : List Txt} {f : Txt → Txt} (h : ∀ l ∈ lines, f l = l ++ ['\n']) : lines.flatMap f = textOf lines := by
  unfold textOf
  rw [List.flatMap_def, List.flatMap_def, List.map_congr_left h]

theorem textOf_append (a b : List Txt) : textOf (a ++ b) = textOf a ++ textOf b := by simp [textOf]
theorem textOf_cons (l : Txt) (b : List Txt) : textOf (l :: b) = l ++ '\n' :: textOf b := by simp [textOf]
theorem textOf_nil : textOf [] = [] := rfl

theorem rectText_line (layer : Txt) (b : Box) : rectText layer b = rectLine layer b ++ ['\n'] := by
  have e1 : " ) ( ".toList = " )".toList ++ " ( ".toList := by decide
  have e2 : " )\n".toList = " )".toList ++ ['\n'] := by decide
  unfold rectText rectLine
  rw [e1, e2]
  simp only [List.append_assoc]

theorem viaText_lines (v : GenVia) : viaText v = textOf (viaLines v) := by
  have e : "  ;\n".toList = "  ;".toList ++ ['\n'] := by decide
  unfold viaText viaLines
  rw [e]
  simp only [textOf_cons, textOf_nil, rectText_line, List.append_assoc, List.cons_append, List.nil_append]

theorem viaText_all (gens : List GenVia) : gens.flatMap viaText = textOf (gens.flatMap viaLines) := by
  induction gens with
  | nil => rfl
  | cons v gens ih => rw [List.flatMap_cons, List.flatMap_cons, textOf_append, viaText_lines, ih]

theorem header_text (kw : String) (n : Int) (t : Txt) : ('\n' :: kw.toList) ++ [' '] ++ showInt n ++ " ;\n".toList ++ t =
    textOf [[], header kw n] ++ t := by
  have e : " ;\n".toList = " ;".toList ++ ['\n'] := by decide
  rw [e]
  simp [textOf, header]

/-! ### C107 -/

/-- C107: if the input has a VIAS section, the generated vias are added to it: the header counts them, they
follow it, and all other lines stay as they are. -/
theorem c107_extends_vias (gens : List GenVia) (pre post : List Txt) (n : Int) (hn : FitsInt n)
    (hlines : ∀ l ∈ pre ++ post, '\n' ∉ l) (hother : ∀ l ∈ pre ++ post, ¬ FirstWord l "VIAS".toList) :
    writeRefDef gens (textOf (pre ++ [header "VIAS" n] ++ post)) =
      textOf (pre ++ [[], header "VIAS" (n + gens.length)] ++ gens.flatMap viaLines ++ post) := by
  have hkw : IsWord "VIAS".toList := by unfold IsWord; decide
  have hh := headOf_header hkw hn
  have hnl : '\n' ∉ header "VIAS" n := by
    unfold header
    simp only [List.mem_append, not_or]
    exact ⟨⟨⟨by decide, by decide⟩, (showInt_word n).no_newline⟩, by decide⟩
  unfold writeRefDef
  rw [getLines_textOf _ (by
    intro l hl
    simp only [List.mem_append, List.mem_singleton] at hl hlines
    rcases hl with (hl | rfl) | hl
    · exact hlines l (.inl hl)
    · exact hnl
    · exact hlines l (.inr hl))]
  dsimp only
  have hany : (pre ++ [header "VIAS" n] ++ post).any (fun l => (headOf l).any (fun h => h.1 == "VIAS".toList)) = true := by
    rw [List.any_eq_true]
    exact ⟨header "VIAS" n, by simp, by rw [hh]; simp⟩
  rw [hany]
  have plain : ∀ l ∈ pre ++ post, refLine true gens l = l ++ ['\n'] := by
    intro l hl
    unfold refLine
    split
    · rename_i a b hab
      rw [if_pos rfl, if_neg]
      rintro rfl
      exact hother l hl (headOf_first hab)
    · rfl
  rw [List.flatMap_append, List.flatMap_append, flatMap_plain (fun l hl => plain l (List.mem_append_left _ hl)),
    flatMap_plain (fun l hl => plain l (List.mem_append_right _ hl)), List.flatMap_cons, List.flatMap_nil]
  conv => lhs; unfold refLine
  rw [hh]
  dsimp only
  rw [if_pos rfl, if_pos rfl, textOf_append, textOf_append, textOf_append, viaText_all]
  have e : "\nVIAS ".toList = ('\n' :: "VIAS".toList) ++ [' '] := by decide
  rw [e, header_text]
  simp

/-- C107: without a VIAS section in the input, one with the generated vias is inserted before the components, and
all lines stay as they are. -/
theorem c107_inserts_vias (gens : List GenVia) (pre post : List Txt) (n : Int) (hn : FitsInt n)
    (hlines : ∀ l ∈ pre ++ post, '\n' ∉ l)
    (hother : ∀ l ∈ pre ++ post, ¬ FirstWord l "VIAS".toList ∧ ¬ FirstWord l "COMPONENTS".toList) :
    writeRefDef gens (textOf (pre ++ [header "COMPONENTS" n] ++ post)) =
      textOf (pre ++ [[], header "VIAS" gens.length] ++ gens.flatMap viaLines ++ ["END VIAS".toList, []] ++
        [header "COMPONENTS" n] ++ post) := by
  have hkw : IsWord "COMPONENTS".toList := by unfold IsWord; decide
  have hh := headOf_header hkw hn
  have hnl : '\n' ∉ header "COMPONENTS" n := by
    unfold header
    simp only [List.mem_append, not_or]
    exact ⟨⟨⟨by decide, by decide⟩, (showInt_word n).no_newline⟩, by decide⟩
  unfold writeRefDef
  rw [getLines_textOf _ (by
    intro l hl
    simp only [List.mem_append, List.mem_singleton] at hl hlines
    rcases hl with (hl | rfl) | hl
    · exact hlines l (.inl hl)
    · exact hnl
    · exact hlines l (.inr hl))]
  dsimp only
  have hany : (pre ++ [header "COMPONENTS" n] ++ post).any (fun l => (headOf l).any (fun h => h.1 == "VIAS".toList)) = false := by
    rw [List.any_eq_false]
    intro l hl
    cases hb : headOf l with
    | none => simp
    | some ab =>
      obtain ⟨a, b⟩ := ab
      simp only [Option.any_some, beq_iff_eq]
      rintro rfl
      simp only [List.mem_append, List.mem_singleton] at hl hother
      rcases hl with (hl | rfl) | hl
      · exact (hother l (.inl hl)).1 (headOf_first hb)
      · rw [hh] at hb
        simp only [Option.some.injEq, Prod.mk.injEq] at hb
        exact absurd hb.1 (by decide)
      · exact (hother l (.inr hl)).1 (headOf_first hb)
  rw [hany]
  have plain : ∀ l ∈ pre ++ post, refLine false gens l = l ++ ['\n'] := by
    intro l hl
    unfold refLine
    split
    · rename_i a b hab
      rw [if_neg (by simp), if_neg]
      rintro rfl
      exact (hother l hl).2 (headOf_first hab)
    · rfl
  rw [List.flatMap_append, List.flatMap_append, flatMap_plain (fun l hl => plain l (List.mem_append_left _ hl)),
    flatMap_plain (fun l hl => plain l (List.mem_append_right _ hl)), List.flatMap_cons, List.flatMap_nil]
  conv => lhs; unfold refLine
  rw [hh]
  dsimp only
  rw [if_neg (by simp), if_pos rfl, viaText_all]
  have e : "\nVIAS ".toList = ('\n' :: "VIAS".toList) ++ [' '] := by decide
  have e2 : "END VIAS\n\n".toList = textOf ["END VIAS".toList, []] := by decide
  rw [e, e2]
  simp only [List.append_assoc, textOf_append, textOf_cons, textOf_nil, header]
  have e3 : " ;\n".toList = " ;".toList ++ ['\n'] := by decide
  rw [e3]
  simp

/-- a via, a header on two lines, and a design without components -/
def exRVia : GenVia := ⟨"g".toList, "m1".toList, "v1".toList, "m2".toList, ⟨⟨-5, -3⟩, ⟨5, 3⟩⟩, ⟨⟨-2, -2⟩, ⟨2, 2⟩⟩, ⟨⟨-3, -5⟩, ⟨3, 5⟩⟩⟩

example : writeRefDef [exRVia] "DESIGN a ;\nVIAS 1 ;\n- b\n  ;\nEND VIAS\nCOMPONENTS 0 ;".toList =
  "DESIGN a ;\n\nVIAS 2 ;\n- g\n  + RECT m1 ( -5 -3 ) ( 5 3 )\n  + RECT v1 ( -2 -2 ) ( 2 2 )\n  + RECT m2 ( -3 -5 ) ( 3 5 )\n  ;\n- b\n  ;\nEND VIAS\nCOMPONENTS 0 ;\n".toList := by decide +kernel

/-- the hypotheses hold for that file -/
example : (∀ l ∈ ["DESIGN a ;".toList] ++ ["- b".toList, "  ;".toList, "END VIAS".toList], '\n' ∉ l) ∧ FitsInt 1 := by
  unfold FitsInt; decide

/-- C107: a header on two lines is not recognised: a second VIAS section is written. -/
theorem c107_split_header : ∃ gens file, writeRefDef gens file =
    "VIAS\n1 ;\n- b\n  ;\nEND VIAS\n\nVIAS 1 ;\n".toList ++ gens.flatMap viaText ++ "END VIAS\n\nCOMPONENTS 0 ;\n".toList ∧ gens ≠ [] :=
  ⟨[exRVia], "VIAS\n1 ;\n- b\n  ;\nEND VIAS\nCOMPONENTS 0 ;\n".toList, by decide +kernel, by simp⟩

/-- C107: without a VIAS section and without a line that begins the components, the generated vias are not written
at all. -/
theorem c107_no_components (gens : List GenVia) (lines : List Txt) (hlines : ∀ l ∈ lines, '\n' ∉ l)
    (h : ∀ l ∈ lines, ¬ FirstWord l "VIAS".toList ∧ ¬ FirstWord l "COMPONENTS".toList) :
    writeRefDef gens (textOf lines) = textOf lines := by
  unfold writeRefDef
  rw [getLines_textOf _ hlines]
  dsimp only
  apply flatMap_plain
  intro l hl
  unfold refLine
  split
  · rename_i a b hab
    have hf := headOf_first hab
    have h1 : a ≠ "VIAS".toList := by rintro rfl; exact (h l hl).1 hf
    have h2 : a ≠ "COMPONENTS".toList := by rintro rfl; exact (h l hl).2 hf
    rw [if_neg h1, if_neg h2]
    split <;> rfl
  · rfl

end TR
