import Verif.Setup.TextLemmas
import Verif.GCell.Props
/-! C105, C106: reading and writing guide files. -/
namespace TR

theorem outside_iff (d : GNames) (k : Int) : d.outside k = false ↔ d.Allowed k := by
  unfold GNames.outside GNames.Allowed
  simp only [Bool.or_eq_false_iff, Bool.and_eq_false_iff, decide_eq_false_iff_not, Decidable.not_not]
  omega

/-- guides read earlier come first -/
def ReadOut.after (acc : List (Txt × SGuide)) : ReadOut → ReadOut
  | .ok gs => .ok (acc ++ gs)
  | o => o

theorem after_after (a b : List (Txt × SGuide)) (o : ReadOut) : (o.after b).after a = o.after (a ++ b) := by
  cases o <;> simp [ReadOut.after]

theorem readLines_acc (d : GNames) : ∀ (lines : List Txt) (net : Option Txt) (acc : List (Txt × SGuide)),
    readLines d lines net acc = (readLines d lines net []).after acc
  | [], net, acc => by simp [readLines, ReadOut.after]
  | line :: rest, net, acc => by
    unfold readLines
    by_cases h1 : line = ['('] ∨ line = []
    · rw [if_pos h1, if_pos h1, readLines_acc]
    · rw [if_neg h1, if_neg h1]
      by_cases h2 : line = [')']
      · rw [if_pos h2, if_pos h2, readLines_acc]
      · rw [if_neg h2, if_neg h2]
        split
        · split
          · rw [readLines_acc]
          · rfl
        · split
          · rfl
          · split
            · rfl
            · split
              · cases net with
                | none => rfl
                | some n =>
                  dsimp only
                  rw [readLines_acc d rest _ (acc ++ _), readLines_acc d rest _ ([] ++ _), after_after]
                  rfl
              · rfl
        · rfl

/-- the names a reasonable design uses: no net with the empty name, and no layer whose name begins like a number -/
structure GNames.Sane (d : GNames) : Prop where
  noEmpty : d.net [] = false
  layers : ∀ l, d.layer l ≠ none → stoi l = none

theorem spelled_nil {ws : List Txt} (h : Spelled [] ws) : False := by
  generalize e : ([] : Txt) = l at h
  cases h with
  | last _ hw => exact hw.1 (List.append_eq_nil_iff.1 e.symm).2
  | more => simp at e

/-- one line -/
theorem readLines_line (d : GNames) (hd : d.Sane) (line : Txt) (rest : List Txt) (net : Option Txt) (gs : List (Txt × SGuide)) :
    readLines d (line :: rest) net [] = .ok gs ↔
      ((line = [] ∨ line = ['('] ∨ line = [')']) ∧ readLines d rest net [] = .ok gs) ∨
      (¬ (line = ['('] ∨ line = [')']) ∧ ∃ n, Spelled line [n] ∧ d.net n = true ∧ readLines d rest (some n) [] = .ok gs) ∨
      ∃ a b c e l n k x1 y1 x2 y2 gs', Spelled line [a, b, c, e, l] ∧ d.layer l = some k ∧ d.Allowed k ∧
        stoi a = some x1 ∧ stoi b = some y1 ∧ stoi c = some x2 ∧ stoi e = some y2 ∧ net = some n ∧
        readLines d rest (some n) [] = .ok gs' ∧ gs = (n, ⟨k, Box.mk4 x1 y1 x2 y2⟩) :: gs' := by
  have huniq : ∀ {l : Txt} {ws ws' : List Txt}, Spelled l ws → Spelled l ws' → ws = ws' := by
    intro l ws ws' h1 h2
    rw [← wordsGo_spelled h1 [], wordsGo_spelled h2 []]
  have hparen : ∀ c : Char, isSp c = false → Spelled [c] [[c]] := fun c hc =>
    Spelled.last (s := []) (fun x hx => by cases hx) ⟨by simp, fun x hx => by simp at hx; subst hx; exact hc⟩
  conv => lhs; unfold readLines
  by_cases h1 : line = ['('] ∨ line = []
  · rw [if_pos h1]
    constructor
    · intro h; left; exact ⟨by rcases h1 with h1 | h1 <;> simp [h1], h⟩
    · rintro (⟨_, h⟩ | ⟨hp, n, hs, _⟩ | ⟨a, b, c, e, l, n, k, x1, y1, x2, y2, gs', hs, _⟩)
      · exact h
      · rcases h1 with rfl | rfl
        · exact absurd (.inl rfl) hp
        · exact (spelled_nil hs).elim
      · rcases h1 with rfl | rfl
        · cases huniq (hparen '(' rfl) hs
        · exact (spelled_nil hs).elim
  · rw [if_neg h1]
    by_cases h2 : line = [')']
    · rw [if_pos h2]
      constructor
      · intro h; left; exact ⟨by simp [h2], h⟩
      · rintro (⟨_, h⟩ | ⟨hp, _⟩ | ⟨a, b, c, e, l, n, k, x1, y1, x2, y2, gs', hs, _⟩)
        · exact h
        · exact absurd (.inr h2) hp
        · subst h2; cases huniq (hparen ')' rfl) hs
    · rw [if_neg h2]
      simp only [not_or] at h1
      simp only [h1.1, h1.2, h2, or_self, false_and, false_or, not_false_eq_true, true_and]
      -- what the words are
      have hw : (∃ ws, Spelled line ws ∧ wordsOf line = ws) ∨ ((∀ ws, ¬ Spelled line ws) ∧
          (wordsOf line = [[]] ∨ ∃ ws w, wordsOf line = ws ++ [w] ++ [w])) := by
        rcases line_cases line with h | ⟨ws, h⟩ | ⟨l, s, ws, h, hs, hne, rfl⟩
        · right
          refine ⟨?_, .inl (wordsGo_blanks h [])⟩
          intro ws hsp
          have hmem : ∃ c ∈ line, isSp c = false := by
            cases hsp with
            | @last s w _ hw => 
              obtain ⟨hw1, hw2⟩ := hw
              match w, hw1 with
              | c :: w, _ => exact ⟨c, by simp, hw2 c (by simp)⟩
            | @more s w l c ws _ hw _ _ =>
              obtain ⟨hw1, hw2⟩ := hw
              match w, hw1 with
              | c :: w, _ => exact ⟨c, by simp, hw2 c (by simp)⟩
          obtain ⟨c, hc1, hc2⟩ := hmem
          rw [h c hc1] at hc2
          cases hc2
        · exact .inl ⟨ws, h, wordsGo_spelled h []⟩
        · right
          have key := wordsGo_trailing h hs hne []
          refine ⟨?_, .inr ⟨ws.dropLast, ws.getLast h.ne_nil, ?_⟩⟩
          · -- the last character of a spelled line is not blank
            intro ws' hsp
            have hlast : ∀ {l ws}, Spelled l ws → ∃ p c, l = p ++ [c] ∧ isSp c = false := by
              intro l ws h
              induction h with
              | @last s w hs hw =>
                refine ⟨s ++ w.dropLast, w.getLast hw.1, ?_, hw.2 _ (List.getLast_mem _)⟩
                rw [List.append_assoc, List.dropLast_concat_getLast]
              | @more s w l c ws hs hw hc _ ih =>
                obtain ⟨p, x, e, hx⟩ := ih
                exact ⟨s ++ w ++ c :: p, x, by rw [e]; simp, hx⟩
            obtain ⟨p, c, e, hc⟩ := hlast hsp
            have hsl : s = s.dropLast ++ [s.getLast hne] := (List.dropLast_concat_getLast hne).symm
            rw [hsl, ← List.append_assoc] at e
            have e2 := (List.append_inj' e rfl).2
            simp only [List.cons.injEq, and_true] at e2
            have := hs _ (List.getLast_mem hne)
            rw [e2, hc] at this
            cases this
          · unfold wordsOf
            rw [key, List.dropLast_concat_getLast]
      rcases hw with ⟨ws, hs, hw⟩ | ⟨hno, hw⟩
      · rw [hw]
        constructor
        · intro h
          split at h
          · rename_i n
            split at h
            · rename_i hn
              exact .inl ⟨n, hs, hn, h⟩
            · cases h
          · rename_i a b c e l
            right
            split at h
            · cases h
            · rename_i k hk
              split at h
              · cases h
              · rename_i ho
                split at h
                · rename_i x1 y1 x2 y2 s1 s2 s3 s4
                  split at h
                  · cases h
                  · rename_i n
                    rw [readLines_acc] at h
                    cases hr : readLines d rest (some n) [] with
                    | ok gs' =>
                      rw [hr] at h
                      simp only [ReadOut.after, ReadOut.ok.injEq, List.nil_append, List.cons_append] at h
                      exact ⟨a, b, c, e, l, n, k, x1, y1, x2, y2, gs', hs, hk, (outside_iff d k).1 (by simpa using ho), s1, s2, s3, s4, rfl, hr, h.symm⟩
                    | stopped => rw [hr] at h; cases h
                    | thrown => rw [hr] at h; cases h
                    | nullNet => rw [hr] at h; cases h
                · cases h
          · cases h
        · rintro (⟨n, hs', hn, hr⟩ | ⟨a, b, c, e, l, n, k, x1, y1, x2, y2, gs', hs', hk, ho, s1, s2, s3, s4, hnet, hr, hgs⟩)
          · cases huniq hs hs'
            dsimp only
            rw [if_pos hn]; exact hr
          · cases huniq hs hs'
            subst hnet
            dsimp only
            rw [hk]
            dsimp only
            rw [if_neg (by simp [(outside_iff d k).2 ho]), s1, s2, s3, s4]
            dsimp only
            rw [readLines_acc, hr, hgs]
            rfl
      · simp only [hno, false_and, exists_false, or_false, iff_false]
        intro h
        rcases hw with hw | ⟨ws, w, hw⟩
        · rw [hw] at h
          simp [hd.noEmpty] at h
        · rw [hw] at h
          have hl : (ws ++ [w] ++ [w]).length = ws.length + 2 := by simp
          split at h
          · rename_i hn; rw [hn] at hl; simp at hl
          · rename_i a b c e l hn
            have : e = l := by
              have e1 : ws ++ [w] ++ [w] = [a, b, c] ++ [e] ++ [l] := hn
              have e2 := List.append_inj' e1 rfl
              have e3 := List.append_inj' e2.1 rfl
              have e4 := e2.2; have e5 := e3.2
              simp only [List.cons.injEq, and_true] at e4 e5
              rw [← e4, ← e5]
            subst this
            split at h
            · cases h
            · rename_i k hk
              split at h
              · cases h
              · rw [hd.layers e (by rw [hk]; simp)] at h
                split at h
                · rename_i h0; cases h0
                · cases h
          · cases h

/-- C105: what is read is what the file says. The file is read without an error exactly if each of its lines is
empty, a single parenthesis, the name of a net of the design, or four numbers and an allowed layer after the name
of some net; and the guides are those of the lines, each for the net named last. -/
theorem c105_meaning (d : GNames) (hd : d.Sane) (file : Txt) (gs : List (Txt × SGuide)) :
    readGuide d file = .ok gs ↔ FileMeans d (linesOf file []) none gs := by
  unfold readGuide
  generalize none = net
  generalize linesOf file [] = lines
  induction lines generalizing net gs with
  | nil =>
    constructor
    · intro h
      simp only [readLines, ReadOut.ok.injEq] at h
      subst h
      exact .done
    · intro h; cases h; rfl
  | cons line rest ih =>
    rw [readLines_line d hd]
    constructor
    · rintro (⟨h1, h2⟩ | ⟨h1, n, h2, h3, h4⟩ | ⟨a, b, c, e, l, n, k, x1, y1, x2, y2, gs', hs, hk, ho, s1, s2, s3, s4, rfl, hr, rfl⟩)
      · exact .skip h1 ((ih _ _).1 h2)
      · exact .name h1 h2 h3 ((ih _ _).1 h4)
      · exact .guide hs hk ho s1 s2 s3 s4 ((ih _ _).1 hr)
    · intro h
      cases h with
      | skip h1 h2 => exact .inl ⟨h1, (ih _ _).2 h2⟩
      | name h1 h2 h3 h4 => exact .inr (.inl ⟨h1, _, h2, h3, (ih _ _).2 h4⟩)
      | guide hs hk ho s1 s2 s3 s4 hr =>
        exact .inr (.inr ⟨_, _, _, _, _, _, _, _, _, _, _, _, hs, hk, ho, s1, s2, s3, s4, rfl, (ih _ _).2 hr, rfl⟩)

/-! ### well-formed files -/

def rowLine (r : GRow) : Txt :=
  showInt r.x1 ++ ' ' :: (showInt r.y1 ++ ' ' :: (showInt r.x2 ++ ' ' :: (showInt r.y2 ++ ' ' :: r.layer)))

theorem rowText_line (r : GRow) : rowText r.x1 r.y1 r.x2 r.y2 r.layer = rowLine r ++ ['\n'] := by
  simp [rowText, rowLine]

theorem rowLine_spelled (r : GRow) (h : IsWord r.layer) :
    Spelled (rowLine r) [showInt r.x1, showInt r.y1, showInt r.x2, showInt r.y2, r.layer] := by
  have b0 : IsBlank [] := fun x hx => by cases hx
  exact .more (s := []) b0 (showInt_word _) rfl (.more (s := []) b0 (showInt_word _) rfl
    (.more (s := []) b0 (showInt_word _) rfl (.more (s := []) b0 (showInt_word _) rfl (.last (s := []) b0 h))))

theorem rowLine_no_newline (r : GRow) (h : IsWord r.layer) : '\n' ∉ rowLine r := by
  unfold rowLine
  simp only [List.mem_append, List.mem_cons, not_or]
  exact ⟨(showInt_word _).no_newline, by decide, (showInt_word _).no_newline, by decide, (showInt_word _).no_newline, by decide,
    (showInt_word _).no_newline, by decide, h.no_newline⟩

theorem linesOf_rows (rows : List GRow) (h : ∀ r ∈ rows, IsWord r.layer) (rest : Txt) :
    linesOf (rows.flatMap (fun r => rowText r.x1 r.y1 r.x2 r.y2 r.layer) ++ rest) [] = rows.map rowLine ++ linesOf rest [] := by
  induction rows with
  | nil => rfl
  | cons r rows ih =>
    rw [List.flatMap_cons, rowText_line, List.append_assoc, List.append_assoc]
    have : ['\n'] ++ (List.flatMap (fun r => rowText r.x1 r.y1 r.x2 r.y2 r.layer) rows ++ rest) =
      '\n' :: (List.flatMap (fun r => rowText r.x1 r.y1 r.x2 r.y2 r.layer) rows ++ rest) := rfl
    rw [this, linesOf_cut (rowLine_no_newline r (h r (by simp))), ih (fun x hx => h x (by simp [hx]))]
    rfl

theorem linesOf_file (nets : List (Txt × List GRow)) (h : ∀ n ∈ nets, IsWord n.1 ∧ ∀ r ∈ n.2, IsWord r.layer) :
    linesOf (fileText nets) [] = nets.flatMap (fun n => n.1 :: ['('] :: (n.2.map rowLine ++ [[')']])) ++ [[]] := by
  induction nets with
  | nil => rfl
  | cons n nets ih =>
    obtain ⟨h1, h2⟩ := h n (by simp)
    have e : fileText (n :: nets) = n.1 ++ '\n' :: ('(' :: '\n' ::
      (n.2.flatMap (fun r => rowText r.x1 r.y1 r.x2 r.y2 r.layer) ++ (')' :: '\n' :: fileText nets))) := by
      simp [fileText]
    have e1 : '(' :: '\n' :: (n.2.flatMap (fun r => rowText r.x1 r.y1 r.x2 r.y2 r.layer) ++ (')' :: '\n' :: fileText nets)) =
      ['('] ++ '\n' :: (n.2.flatMap (fun r => rowText r.x1 r.y1 r.x2 r.y2 r.layer) ++ (')' :: '\n' :: fileText nets)) := rfl
    have e2 : ')' :: '\n' :: fileText nets = [')'] ++ '\n' :: fileText nets := rfl
    rw [e, linesOf_cut h1.no_newline, e1, linesOf_cut (by decide), linesOf_rows _ h2, e2, linesOf_cut (by decide),
      ih (fun x hx => h x (by simp [hx]))]
    simp

theorem readLines_rows (d : GNames) (n : Txt) (rows : List GRow) (rest : List Txt) (acc : List (Txt × SGuide))
    (h : ∀ r ∈ rows, IsWord r.layer ∧ (∃ k, d.layer r.layer = some k ∧ d.Allowed k) ∧
      FitsInt r.x1 ∧ FitsInt r.y1 ∧ FitsInt r.x2 ∧ FitsInt r.y2) :
    readLines d (rows.map rowLine ++ rest) (some n) acc = readLines d rest (some n)
      (acc ++ rows.map (fun r => (n, ⟨(d.layer r.layer).getD 0, Box.mk4 r.x1 r.y1 r.x2 r.y2⟩))) := by
  induction rows generalizing acc with
  | nil => simp
  | cons r rows ih =>
    obtain ⟨h1, ⟨k, h2, h3⟩, f1, f2, f3, f4⟩ := h r (by simp)
    have hs := rowLine_spelled r h1
    have hw : wordsOf (rowLine r) = _ := wordsGo_spelled hs []
    have hn1 : ¬ (rowLine r = ['('] ∨ rowLine r = []) := by
      rintro (e | e)
      · rw [e] at hw; exact absurd (congrArg List.length hw) (by simp [wordsOf, wordsGo, isSp])
      · rw [e] at hw; exact absurd (congrArg List.length hw) (by simp [wordsOf, wordsGo])
    have hn2 : ¬ rowLine r = [')'] := by
      intro e; rw [e] at hw; exact absurd (congrArg List.length hw) (by simp [wordsOf, wordsGo, isSp])
    rw [List.map_cons, List.cons_append, readLines, if_neg hn1, if_neg hn2, hw]
    dsimp only
    rw [h2]
    dsimp only
    rw [if_neg (by simp [(outside_iff d k).2 h3]), stoi_show f1, stoi_show f2, stoi_show f3, stoi_show f4]
    dsimp only
    rw [ih _ (fun x hx => h x (by simp [hx]))]
    simp [h2]

/-- C105: a file in the usual format, with known nets and allowed layers, is read completely: the guides of every
net, in order. -/
theorem c105_reads_file (d : GNames) (nets : List (Txt × List GRow))
    (h : ∀ n ∈ nets, NetNameOk n.1 ∧ d.net n.1 = true ∧ ∀ r ∈ n.2, IsWord r.layer ∧ (∃ k, d.layer r.layer = some k ∧ d.Allowed k) ∧
      FitsInt r.x1 ∧ FitsInt r.y1 ∧ FitsInt r.x2 ∧ FitsInt r.y2) :
    readGuide d (fileText nets) = .ok (nets.flatMap (fun n => n.2.map (fun r =>
      (n.1, ⟨(d.layer r.layer).getD 0, Box.mk4 r.x1 r.y1 r.x2 r.y2⟩)))) := by
  unfold readGuide
  rw [linesOf_file nets (fun n hn => ⟨(h n hn).1.1, fun r hr => ((h n hn).2.2 r hr).1⟩)]
  suffices ∀ (net : Option Txt) (acc : List (Txt × SGuide)),
      readLines d (nets.flatMap (fun n => n.1 :: ['('] :: (n.2.map rowLine ++ [[')']])) ++ [[]]) net acc =
        .ok (acc ++ nets.flatMap (fun n => n.2.map (fun r => (n.1, ⟨(d.layer r.layer).getD 0, Box.mk4 r.x1 r.y1 r.x2 r.y2⟩)))) by
    rw [this]; rfl
  induction nets with
  | nil => intro net acc; simp [readLines]
  | cons n nets ih =>
    intro net acc
    obtain ⟨⟨hw, hp1, hp2⟩, hn, hr⟩ := h n (by simp)
    have hs : Spelled n.1 [n.1] := Spelled.last (s := []) (fun x hx => by cases hx) hw
    have hwd : wordsOf n.1 = [n.1] := wordsGo_spelled hs []
    have hn1 : ¬ (n.1 = ['('] ∨ n.1 = []) := by
      rintro (e | e)
      · exact hp1 e
      · exact hw.1 e
    simp only [List.flatMap_cons, List.cons_append, List.append_assoc]
    rw [readLines, if_neg hn1, if_neg hp2, hwd]
    dsimp only
    rw [if_pos hn, readLines.eq_def]
    dsimp only
    rw [if_pos (.inl rfl), readLines_rows d n.1 n.2 _ _ hr]
    rw [List.nil_append, readLines.eq_def]
    dsimp only
    rw [if_neg (by decide), if_pos rfl, ih (fun x hx => h x (by simp [hx]))]
    simp

/-! ### traps -/

/-- C105: a blank at the end of a line, or the carriage return of a file with Windows line ends, makes the file
unreadable: the last word is counted twice. -/
theorem c105_trailing_blank (d : GNames) (line s : Txt) (ws : List Txt) (rest : List Txt) (net : Option Txt) (acc : List (Txt × SGuide))
    (h : Spelled line ws) (hs : IsBlank s) (hne : s ≠ []) (h1 : ws.length = 1 ∨ ws.length = 5) :
    readLines d ((line ++ s) :: rest) net acc = .stopped := by
  have hw : wordsOf (line ++ s) = ws ++ [ws.getLast h.ne_nil] := wordsGo_trailing h hs hne []
  have hlen : (wordsOf (line ++ s)).length = ws.length + 1 := by rw [hw]; simp
  have hne1 : ∀ c : Char, isSp c = false → line ++ s ≠ [c] := by
    intro c hc e
    have : s.getLast hne ∈ [c] := by rw [← e]; exact List.mem_append_right _ (List.getLast_mem hne)
    have h2 := hs _ (List.getLast_mem hne)
    simp at this
    rw [this, hc] at h2
    cases h2
  unfold readLines
  rw [if_neg (by
    rintro (e | e)
    · exact hne1 _ rfl e
    · exact hne (List.append_eq_nil_iff.1 e).2), if_neg (hne1 _ rfl)]
  split
  · rename_i hh
    have : (1 : Nat) = ws.length + 1 := by rw [← hlen, hh]; rfl
    omega
  · rename_i hh
    have : (5 : Nat) = ws.length + 1 := by rw [← hlen, hh]; rfl
    omega
  · rfl

/-- C105: a guide before the first net: the null net is used. -/
theorem c105_guide_before_net : ∃ d file, readGuide d file = .nullNet :=
  ⟨⟨fun _ => true, fun _ => some 2, 2, 20, 2⟩, "0 0 10 10 m1".toList, by decide +kernel⟩

/-! ### C106: written guides are read back -/

theorem mapM_some {α β : Type} {f : α → Option β} {g : α → β} {l : List α} (h : ∀ a ∈ l, f a = some (g a)) : l.mapM f = some (l.map g) := by
  induction l with
  | nil => rfl
  | cons a l ih =>
    rw [List.mapM_cons, h a (by simp), ih (fun x hx => h x (by simp [hx]))]
    rfl

/-- the guide as a row: from the lower left corner of the first GCell to the upper right corner of the last one -/
def rowOf (g : GGrid) (nameOf : Int → Txt) (w : WGuide) : GRow :=
  let b := g.box ((g.idx w.bp).getD ⟨0, 0⟩)
  let e := g.box ((g.idx w.ep).getD ⟨0, 0⟩)
  if w.bLayer ≠ w.eLayer then ⟨b.left, b.bottom, b.right, b.top, nameOf w.bLayer ++ ['.', '5']⟩
  else ⟨b.left, b.bottom, e.right, e.top, nameOf w.bLayer⟩

theorem writeGuideFile_eq (g : GGrid) (hf : g.Fits) (nameOf : Int → Txt) (nets : List (Txt × List WGuide)) :
    writeGuideFile g nameOf nets = some (fileText (nets.map (fun n => (n.1, n.2.map (rowOf g nameOf))))) := by
  have hrow : ∀ w : WGuide, guideText g nameOf w = some (rowText (rowOf g nameOf w).x1 (rowOf g nameOf w).y1
      (rowOf g nameOf w).x2 (rowOf g nameOf w).y2 (rowOf g nameOf w).layer) := by
    intro w
    obtain ⟨b, hb, _⟩ := c21_index_in_range_and_contains g hf w.bp
    obtain ⟨e, he, _⟩ := c21_index_in_range_and_contains g hf w.ep
    unfold guideText rowOf
    rw [hb, he]
    dsimp only [Option.getD_some]
    split <;> rfl
  have hnet : ∀ n : Txt × List WGuide, netText g nameOf n = some (n.1 ++ ['\n', '(', '\n'] ++
      (n.2.map (rowOf g nameOf)).flatMap (fun r => rowText r.x1 r.y1 r.x2 r.y2 r.layer) ++ [')', '\n']) := by
    intro n
    unfold netText
    rw [mapM_some (fun w _ => hrow w), Option.map_some]
    simp [List.flatMap_def, List.map_map, Function.comp_def]
  unfold writeGuideFile
  rw [mapM_some (fun n _ => hnet n), Option.map_some]
  simp [fileText, List.flatMap_def, List.map_map, Function.comp_def]

/-- C106: the guide file that is written can be read back if no net has a guide across layers: every guide comes
back for its net, in order, on its layer, and covers the GCells of both its ends. -/
theorem c106_round_trip (d : GNames) (g : GGrid) (hf : g.Fits) (nameOf : Int → Txt) (nets : List (Txt × List WGuide))
    (hdie : FitsInt g.die.left ∧ FitsInt g.die.right ∧ FitsInt g.die.bottom ∧ FitsInt g.die.top)
    (h : ∀ n ∈ nets, NetNameOk n.1 ∧ d.net n.1 = true ∧ ∀ w ∈ n.2, w.bLayer = w.eLayer ∧ d.Allowed w.bLayer ∧
      IsWord (nameOf w.bLayer) ∧ d.layer (nameOf w.bLayer) = some w.bLayer) :
    ∃ (file : Txt) (boxOf : WGuide → Box), writeGuideFile g nameOf nets = some file ∧
      readGuide d file = .ok (nets.flatMap (fun n => n.2.map (fun w => (n.1, ⟨w.bLayer, boxOf w⟩)))) ∧
      ∀ w, ∃ b e, g.idx w.bp = some b ∧ g.idx w.ep = some e ∧
        (b.x ≤ e.x → b.y ≤ e.y → w.bLayer = w.eLayer →
          boxOf w = ⟨⟨(g.box b).left, (g.box b).bottom⟩, ⟨(g.box e).right, (g.box e).top⟩⟩ ∧
          BoxSubset (g.box b) (boxOf w) ∧ BoxSubset (g.box e) (boxOf w)) := by
  refine ⟨_, fun w => Box.mk4 (rowOf g nameOf w).x1 (rowOf g nameOf w).y1 (rowOf g nameOf w).x2 (rowOf g nameOf w).y2,
    writeGuideFile_eq g hf nameOf nets, ?_, ?_⟩
  · have hfit : ∀ c, g.InRange c → FitsInt (g.box c).left ∧ FitsInt (g.box c).right ∧ FitsInt (g.box c).bottom ∧ FitsInt (g.box c).top := by
      intro c hc
      have hx := span_in_die hf.1 hc.1 hc.2.1
      have hy := span_in_die hf.2 hc.2.2.1 hc.2.2.2
      have lx := span_lt hf.1 hc.1 (Int.le_refl _) hc.2.1
      have ly := span_lt hf.2 hc.2.2.1 (Int.le_refl _) hc.2.2.2
      rw [box_eq hf hc]
      unfold FitsInt at *
      simp only [Box.left, Box.right, Box.bottom, Box.top] at *
      omega
    rw [c105_reads_file]
    · rw [List.flatMap_map]
      congr 1
      have : ∀ n ∈ nets, (List.map (fun r : GRow => (n.1, (⟨(d.layer r.layer).getD 0, Box.mk4 r.x1 r.y1 r.x2 r.y2⟩ : SGuide))) (n.2.map (rowOf g nameOf))) =
        n.2.map (fun w => (n.1, ⟨w.bLayer, Box.mk4 (rowOf g nameOf w).x1 (rowOf g nameOf w).y1 (rowOf g nameOf w).x2 (rowOf g nameOf w).y2⟩)) := by
        intro n hn
        rw [List.map_map]
        refine List.map_congr_left (fun w hw => ?_)
        obtain ⟨e1, e2, e3, e4⟩ := (h n hn).2.2 w hw
        have : (rowOf g nameOf w).layer = nameOf w.bLayer := by simp [rowOf, e1]
        simp only [Function.comp_apply, this, e4, Option.getD_some]
      rw [List.flatMap_def, List.flatMap_def, List.map_congr_left this]
    · intro n hn
      obtain ⟨m, hm, rfl⟩ := List.mem_map.1 hn
      obtain ⟨h1, h2, h3⟩ := h m hm
      refine ⟨h1, h2, ?_⟩
      intro r hr
      obtain ⟨w, hw, rfl⟩ := List.mem_map.1 hr
      obtain ⟨e1, e2, e3, e4⟩ := h3 w hw
      obtain ⟨b, hb, hbr, _⟩ := c21_index_in_range_and_contains g hf w.bp
      obtain ⟨e, he, her, _⟩ := c21_index_in_range_and_contains g hf w.ep
      have : rowOf g nameOf w = ⟨(g.box b).left, (g.box b).bottom, (g.box e).right, (g.box e).top, nameOf w.bLayer⟩ := by
        unfold rowOf
        rw [hb, he]
        simp [e1]
      rw [this]
      obtain ⟨p1, p2, p3, p4⟩ := hfit b hbr
      obtain ⟨q1, q2, q3, q4⟩ := hfit e her
      exact ⟨e3, ⟨_, e4, e2⟩, p1, p3, q2, q4⟩
  · intro w
    obtain ⟨b, hb, hbr, _⟩ := c21_index_in_range_and_contains g hf w.bp
    obtain ⟨e, he, her, _⟩ := c21_index_in_range_and_contains g hf w.ep
    refine ⟨b, e, hb, he, ?_⟩
    intro hx hy hl
    have : rowOf g nameOf w = ⟨(g.box b).left, (g.box b).bottom, (g.box e).right, (g.box e).top, nameOf w.bLayer⟩ := by
      unfold rowOf
      rw [hb, he]
      simp [hl]
    dsimp only
    rw [this]
    dsimp only
    have x1 := span_lt hf.1 hbr.1 hx her.2.1
    have y1 := span_lt hf.2 hbr.2.2.1 hy her.2.2.2
    have x2 := span_lo_mono hf.1 hbr.1 hx her.2.1
    have y2 := span_lo_mono hf.2 hbr.2.2.1 hy her.2.2.2
    have x3 := span_hi_mono hf.1 hbr.1 hx her.2.1
    have y3 := span_hi_mono hf.2 hbr.2.2.1 hy her.2.2.2
    rw [box_eq hf hbr, box_eq hf her, Box.mk4_eq]
    simp only [Box.left, Box.right, Box.bottom, Box.top, Int.min_eq_left (Int.le_of_lt x1), Int.min_eq_left (Int.le_of_lt y1),
      Int.max_eq_right (Int.le_of_lt x1), Int.max_eq_right (Int.le_of_lt y1), true_and]
    constructor
    all_goals
      rintro p ⟨h1, h2, h3, h4⟩
      refine ⟨?_, ?_, ?_, ?_⟩
      all_goals
        dsimp only [Box.left, Box.right, Box.bottom, Box.top] at *
        omega

theorem FileMeans.line {d : GNames} {lines : List Txt} {net : Option Txt} {gs : List (Txt × SGuide)} (h : FileMeans d lines net gs) :
    ∀ line ∈ lines, line = [] ∨ line = ['('] ∨ line = [')'] ∨ (∃ n, Spelled line [n]) ∨
      ∃ a b c e l, Spelled line [a, b, c, e, l] ∧ d.layer l ≠ none := by
  induction h with
  | done => intro line hl; cases hl
  | skip h1 _ ih =>
    intro line hl
    rcases List.mem_cons.1 hl with rfl | hl
    · rcases h1 with h1 | h1 | h1 <;> simp [h1]
    · exact ih _ hl
  | name _ h2 _ _ ih =>
    intro line hl
    rcases List.mem_cons.1 hl with rfl | hl
    · exact .inr (.inr (.inr (.inl ⟨_, h2⟩)))
    · exact ih _ hl
  | guide hs hk _ _ _ _ _ _ ih =>
    intro line hl
    rcases List.mem_cons.1 hl with rfl | hl
    · exact .inr (.inr (.inr (.inr ⟨_, _, _, _, _, hs, by rw [hk]; simp⟩)))
    · exact ih _ hl

/-- C106: with a guide across layers the written file cannot be read back: the name of its layer is written with
`.5` after it, and no layer has that name. -/
theorem c106_via_guide_unreadable (d : GNames) (hd : d.Sane) (g : GGrid) (hf : g.Fits) (nameOf : Int → Txt) (nets : List (Txt × List WGuide))
    (hnames : ∀ n ∈ nets, IsWord n.1 ∧ ∀ w ∈ n.2, IsWord (nameOf w.bLayer))
    (n : Txt × List WGuide) (hn : n ∈ nets) (w : WGuide) (hw : w ∈ n.2) (hv : w.bLayer ≠ w.eLayer)
    (hno : d.layer (nameOf w.bLayer ++ ['.', '5']) = none) :
    ∃ file, writeGuideFile g nameOf nets = some file ∧ ∀ gs, readGuide d file ≠ .ok gs := by
  refine ⟨_, writeGuideFile_eq g hf nameOf nets, fun gs h => ?_⟩
  have hword : ∀ u : WGuide, IsWord (nameOf u.bLayer) → IsWord (rowOf g nameOf u).layer := by
    intro u hu
    unfold rowOf
    dsimp only
    split
    · refine ⟨by simp, ?_⟩
      intro c hc
      rcases List.mem_append.1 hc with hc | hc
      · exact hu.2 c hc
      · simp at hc
        rcases hc with rfl | rfl <;> rfl
    · exact hu
  rw [c105_meaning d hd, linesOf_file] at h
  · have hs := rowLine_spelled (rowOf g nameOf w) (hword w ((hnames n hn).2 w hw))
    have hmem : rowLine (rowOf g nameOf w) ∈ (nets.map (fun n => (n.1, n.2.map (rowOf g nameOf)))).flatMap
        (fun n => n.1 :: ['('] :: (n.2.map rowLine ++ [[')']])) ++ [[]] := by
      refine List.mem_append_left _ (List.mem_flatMap.2 ⟨_, List.mem_map.2 ⟨n, hn, rfl⟩, ?_⟩)
      refine List.mem_cons_of_mem _ (List.mem_cons_of_mem _ (List.mem_append_left _ ?_))
      exact List.mem_map.2 ⟨_, List.mem_map.2 ⟨w, hw, rfl⟩, rfl⟩
    have hwd := wordsGo_spelled hs []
    have hone : ∀ ws, Spelled (rowLine (rowOf g nameOf w)) ws → ws = _ := fun ws h => (wordsGo_spelled h []).symm.trans hwd
    rcases h.line _ hmem with e | e | e | ⟨m, e⟩ | ⟨a, b, c, x, l, e, hl⟩
    · rw [e] at hwd; exact absurd (congrArg List.length hwd) (by simp [wordsGo])
    · rw [e] at hwd; exact absurd (congrArg List.length hwd) (by simp [wordsGo, isSp])
    · rw [e] at hwd; exact absurd (congrArg List.length hwd) (by simp [wordsGo, isSp])
    · exact absurd (congrArg List.length (hone _ e)) (by simp)
    · have := hone _ e
      simp only [List.cons.injEq, and_true] at this
      apply hl
      rw [this.2.2.2.2]
      unfold rowOf
      dsimp only
      rw [if_pos hv]
      exact hno
  · intro m hm
    obtain ⟨m', hm', rfl⟩ := List.mem_map.1 hm
    refine ⟨(hnames m' hm').1, ?_⟩
    intro r hr
    obtain ⟨u, hu, rfl⟩ := List.mem_map.1 hr
    exact hword u ((hnames m' hm').2 u hu)

/-! ### instances -/

def exNames : GNames := ⟨fun n => n == "n1".toList || n == "n2".toList, fun l => if l = "m1".toList then some 2 else if l = "m2".toList then some 4 else none, 2, 10, 2⟩
def exWGrid : GGrid := ⟨⟨⟨0, 0⟩, ⟨1000, 1000⟩⟩, ⟨0, 100, 10⟩, ⟨0, 100, 10⟩⟩
def exNameOf (l : Int) : Txt := if l = 2 then "m1".toList else "m2".toList
def exWNets : List (Txt × List WGuide) := [("n1".toList, [⟨⟨50, 50⟩, ⟨450, 50⟩, 2, 2⟩]), ("n2".toList, [⟨⟨150, 150⟩, ⟨150, 950⟩, 4, 4⟩])]

example : writeGuideFile exWGrid exNameOf exWNets = some "n1\n(\n0 0 500 100 m1\n)\nn2\n(\n100 100 200 1000 m2\n)\n".toList := by decide +kernel
example : readGuide exNames "n1\n(\n0 0 500 100 m1\n)\n\nn2\n(\n100 1000  200 -100 m2\n)\n".toList =
  .ok [("n1".toList, ⟨2, ⟨⟨0, 0⟩, ⟨500, 100⟩⟩⟩), ("n2".toList, ⟨4, ⟨⟨100, -100⟩, ⟨200, 1000⟩⟩⟩)] := by decide +kernel
example : readGuide exNames "n1\r\n(\r\n".toList = .stopped := by decide +kernel
example : readGuide exNames "n1\n(\n0 0 500 100 m1.5\n)\n".toList = .stopped := by decide +kernel
example : readGuide exNames "n1\n(\n0 0 5x 99999999999 m1\n)\n".toList = .thrown := by decide +kernel

/-- the hypotheses of C105 and C106 hold for these names and this grid -/
example : exNames.Sane := by
  refine ⟨by decide, ?_⟩
  intro l hl
  unfold exNames at hl
  dsimp only at hl
  split at hl
  · rename_i h; rw [h]; decide
  · split at hl
    · rename_i h; rw [h]; decide
    · exact absurd rfl hl
example : exWGrid.Fits := by unfold GGrid.Fits AxisFits; decide

end TR
