import Verif.Lay.Props
/-! # Reading LEF58_MINSTEP and LEF58_CORNERSPACING -/
namespace TR

/-! ### LEF58_MINSTEP -/

theorem step_other : ∀ (ws : List String) (rest : List LTok) (st : Step58St),
    (∀ w ∈ ws, w ≠ "MINSTEP" ∧ w ≠ "MAXEDGES" ∧ w ≠ "MINADJACENTLENGTH" ∧ w ≠ "NOBETWEENEOL" ∧ w ≠ ";") →
    step58Loop (ws.map kw ++ rest) st = step58Loop rest { st with skip := st.skip || !decide (ws = []) }
  | [], rest, st, _ => by simp
  | w :: ws, rest, st, h => by
    obtain ⟨h1, h2, h3, h4, h5⟩ := h w (by simp)
    have hw : stepWord w = .other := by simp [stepWord, h1, h2, h3, h4, h5]
    simp only [List.map_cons, List.cons_append]
    rw [step58Loop.eq_def]
    simp only [kw, hw]
    rw [step_other ws rest { st with skip := true } (fun w hw => h w (by simp [hw]))]; simp

theorem step_minstep (n : Num58) (rest : List LTok) (st : Step58St) :
    step58Loop (kw "MINSTEP" :: n.tok :: rest) st = step58Loop rest { st with skip := false, len := n.dbu } := by
  rw [step58Loop.eq_def]; simp only [kw, show stepWord "MINSTEP" = .minstep from by decide, Num58.tok]

theorem step_maxEdges (o : Option Num58) (rest : List LTok) (st : Step58St) :
    step58Loop (optNum "MAXEDGES" o ++ rest) st = step58Loop rest { st with maxEdges := (o.map Num58.int).or st.maxEdges } := by
  cases o with
  | none => simp [optNum]
  | some n =>
    simp only [optNum, List.cons_append, List.nil_append]
    rw [step58Loop.eq_def]; simp only [kw, show stepWord "MAXEDGES" = .maxEdges from by decide, Num58.tok]; rfl

theorem step_minAdj (o : Option Num58) (rest : List LTok) (st : Step58St) :
    step58Loop (optNum "MINADJACENTLENGTH" o ++ rest) st = step58Loop rest { st with minAdj := (o.map Num58.dbu).or st.minAdj } := by
  cases o with
  | none => simp [optNum]
  | some n =>
    simp only [optNum, List.cons_append, List.nil_append]
    rw [step58Loop.eq_def]; simp only [kw, show stepWord "MINADJACENTLENGTH" = .minAdj from by decide, Num58.tok]; rfl

theorem step_eol (o : Option Num58) (rest : List LTok) (st : Step58St) :
    step58Loop (optNum "NOBETWEENEOL" o ++ rest) st = step58Loop rest { st with eol := (o.map Num58.dbu).or st.eol } := by
  cases o with
  | none => simp [optNum]
  | some n =>
    simp only [optNum, List.cons_append, List.nil_append]
    rw [step58Loop.eq_def]; simp only [kw, show stepWord "NOBETWEENEOL" = .noBetween from by decide, Num58.tok]; rfl

/-- the variables after a statement -/
def Step58Text.next (s : Step58Text) (st : Step58St) : Step58St :=
  ⟨s.len.dbu, (s.maxEdges.map Num58.int).or st.maxEdges, (s.minAdj.map Num58.dbu).or st.minAdj, (s.eol.map Num58.dbu).or st.eol, !decide (s.other = [])⟩

theorem step_one (s : Step58Text) (hs : s.Ok) (rest : List LTok) (st : Step58St) :
    step58Loop (s.toks ++ rest) st =
      (if s.other = [] then [⟨s.len.dbu, (s.next st).maxEdges, (s.next st).minAdj, (s.next st).eol⟩] else []) ++ step58Loop rest (s.next st) := by
  unfold Step58Text.toks
  simp only [List.append_assoc, List.cons_append]
  rw [step_minstep, step_maxEdges, step_minAdj, step_eol, step_other _ _ _ hs]
  simp only [List.nil_append]
  rw [step58Loop.eq_def]
  simp only [kw, show stepWord ";" = .semi from by decide, Bool.false_or]
  by_cases h : s.other = []
  · simp [h, Step58Text.next]
  · simp [h, Step58Text.next]

/-- what is carried over -/
def carry {α β : Type} (f : α → Option β) (v : Option β) (l : List α) : Option β := l.foldl (fun a x => (f x).or a) v

theorem step_list : ∀ (l : List Step58Text) (st : Step58St), (∀ s ∈ l, s.Ok) → ∀ r, r ∈ step58Loop (l.flatMap Step58Text.toks) st ↔
    ∃ i s, l[i]? = some s ∧ s.other = [] ∧ r = ⟨s.len.dbu, carry (fun s : Step58Text => s.maxEdges.map Num58.int) st.maxEdges (l.take (i + 1)),
      carry (fun s : Step58Text => s.minAdj.map Num58.dbu) st.minAdj (l.take (i + 1)), carry (fun s : Step58Text => s.eol.map Num58.dbu) st.eol (l.take (i + 1))⟩
  | [], st, _, r => by simp [step58Loop]
  | s :: t, st, h, r => by
    rw [List.flatMap_cons, step_one s (h s (by simp)), List.mem_append, step_list t _ (fun x hx => h x (by simp [hx]))]
    constructor
    · rintro (h1 | ⟨i, x, h1, h2, h3⟩)
      · by_cases ho : s.other = []
        · rw [if_pos ho, List.mem_singleton] at h1
          exact ⟨0, s, rfl, ho, by rw [h1]; simp [carry, Step58Text.next]⟩
        · rw [if_neg ho] at h1; cases h1
      · exact ⟨i + 1, x, by simpa using h1, h2, by rw [h3]; simp [carry, Step58Text.next]⟩
    · rintro ⟨i, x, h1, h2, h3⟩
      cases i with
      | zero =>
        simp at h1; subst h1
        left; rw [if_pos h2, h3]; simp [carry, Step58Text.next]
      | succ i =>
        right
        exact ⟨i, x, by simpa using h1, h2, by rw [h3]; simp [carry, Step58Text.next]⟩

theorem carry_last {α β : Type} (f : α → Option β) : ∀ (l : List α) (i : Nat) (d v : Option β), i < l.length →
    (carry f d (l.take (i + 1)) = v ↔
      ((∃ j, j ≤ i ∧ (∃ x, l[j]? = some x ∧ f x = v) ∧ v.isSome = true ∧ ∀ k x, j < k → k ≤ i → l[k]? = some x → f x = none) ∨
       (v = d ∧ ∀ k x, k ≤ i → l[k]? = some x → f x = none)))
  | [], i, d, v, h => by simp at h
  | a :: t, i, d, v, h => by
    have hc : carry f d ((a :: t).take (i + 1)) = carry f ((f a).or d) (t.take i) := by simp [carry]
    rw [hc]
    cases i with
    | zero =>
      have hz : carry f ((f a).or d) (t.take 0) = (f a).or d := by simp [carry]
      rw [hz]
      cases hf : f a with
      | none =>
        simp only [Option.none_or]
        constructor
        · intro e
          refine .inr ⟨e.symm, fun k x hk hx => ?_⟩
          have : k = 0 := by omega
          subst this
          simp at hx; rw [← hx]; exact hf
        · rintro (⟨j, hj, ⟨x, hx, e⟩, hv, -⟩ | ⟨e, -⟩)
          · have : j = 0 := by omega
            subst this
            simp at hx; subst hx; rw [hf] at e; subst e; cases hv
          · exact e.symm
      | some b =>
        simp only [Option.some_or]
        constructor
        · intro e
          exact .inl ⟨0, Nat.le_refl _, ⟨a, rfl, by rw [hf, e]⟩, by rw [← e]; rfl, fun k x h1 h2 => by omega⟩
        · rintro (⟨j, hj, ⟨x, hx, e⟩, hv, -⟩ | ⟨-, e⟩)
          · have : j = 0 := by omega
            subst this
            simp at hx; subst hx; rw [← hf, e]
          · have := e 0 a (by omega) rfl
            rw [hf] at this; cases this
    | succ i =>
      have ih := carry_last f t i ((f a).or d) v (by simpa using h)
      rw [ih]
      constructor
      · rintro (⟨j, hj, ⟨x, hx, e⟩, hv, hn⟩ | ⟨e, hn⟩)
        · refine .inl ⟨j + 1, by omega, ⟨x, by simpa using hx, e⟩, hv, fun k y h1 h2 h3 => ?_⟩
          cases k with
          | zero => omega
          | succ k => exact hn k y (by omega) (by omega) (by simpa using h3)
        · cases hf : f a with
          | none =>
            rw [hf, Option.none_or] at e
            refine .inr ⟨e, fun k y h2 h3 => ?_⟩
            cases k with
            | zero => simp at h3; rw [← h3]; exact hf
            | succ k => exact hn k y (by omega) (by simpa using h3)
          | some b =>
            rw [hf, Option.some_or] at e
            refine .inl ⟨0, by omega, ⟨a, rfl, by rw [hf, e]⟩, by rw [e]; rfl, fun k y h1 h2 h3 => ?_⟩
            cases k with
            | zero => omega
            | succ k => exact hn k y (by omega) (by simpa using h3)
      · rintro (⟨j, hj, ⟨x, hx, e⟩, hv, hn⟩ | ⟨e, hn⟩)
        · cases j with
          | zero =>
            simp at hx; subst hx
            refine .inr ⟨?_, fun k y h2 h3 => hn (k + 1) y (by omega) (by omega) (by simpa using h3)⟩
            rw [e]
            cases v with
            | none => cases hv
            | some _ => rfl
          | succ j =>
            exact .inl ⟨j, by omega, ⟨x, by simpa using hx, e⟩, hv, fun k y h1 h2 h3 => hn (k + 1) y (by omega) (by omega) (by simpa using h3)⟩
        · refine .inr ⟨?_, fun k y h2 h3 => hn (k + 1) y (by omega) (by simpa using h3)⟩
          rw [hn 0 a (by omega) rfl, Option.none_or]; exact e

/-- **C166** the rules that a text of LEF58_MINSTEP adds are those of its statements without words that the program does not know; each of
MAXEDGES, MINADJACENTLENGTH and NOBETWEENEOL is the last one given in the text so far, in the statement itself or in any before it -/
theorem c166_rules (l : List Step58Text) (hl : ∀ s ∈ l, s.Ok) (r : Step58R) :
    r ∈ step58Loop (l.flatMap Step58Text.toks) {} ↔ ∃ i, Step58Adds l i r := by
  rw [step_list l {} hl]
  constructor
  · rintro ⟨i, s, h1, h2, rfl⟩
    have hi := (List.getElem?_eq_some_iff.1 h1).1
    exact ⟨i, ⟨s, h1, h2, rfl⟩, (carry_last _ l i none _ hi).1 rfl, (carry_last _ l i none _ hi).1 rfl, (carry_last _ l i none _ hi).1 rfl⟩
  · rintro ⟨i, ⟨s, h1, h2, h3⟩, h4, h5, h6⟩
    have hi := (List.getElem?_eq_some_iff.1 h1).1
    refine ⟨i, s, h1, h2, ?_⟩
    have e1 := (carry_last (fun s : Step58Text => s.maxEdges.map Num58.int) l i none _ hi).2 h4
    have e2 := (carry_last (fun s : Step58Text => s.minAdj.map Num58.dbu) l i none _ hi).2 h5
    have e3 := (carry_last (fun s : Step58Text => s.eol.map Num58.dbu) l i none _ hi).2 h6
    cases r
    simp only at h3 e1 e2 e3
    simp only [h3, ← e1, ← e2, ← e3]

/-- an option once given is given from then on -/
def KeepsGiving (l : List Step58Text) : Prop := l.Pairwise (fun a b =>
  (a.maxEdges.isSome = true → b.maxEdges.isSome = true) ∧ (a.minAdj.isSome = true → b.minAdj.isSome = true) ∧ (a.eol.isSome = true → b.eol.isSome = true))

theorem step_says : ∀ (l : List Step58Text) (st : Step58St), (∀ s ∈ l, s.Ok) → KeepsGiving l →
    (∀ s ∈ l, (st.maxEdges.isSome = true → s.maxEdges.isSome = true) ∧ (st.minAdj.isSome = true → s.minAdj.isSome = true) ∧
      (st.eol.isSome = true → s.eol.isSome = true)) →
    step58Loop (l.flatMap Step58Text.toks) st = (l.filter (fun s => s.other.isEmpty)).map Step58Text.says
  | [], st, _, _, _ => rfl
  | s :: t, st, hl, hk, hst => by
    obtain ⟨g1, g2, g3⟩ := hst s (by simp)
    have orn : ∀ {α : Type} (a : Option Num58) (f : Num58 → α) (b : Option α), (b.isSome = true → a.isSome = true) → (a.map f).or b = a.map f := by
      intro α a f b h
      cases a with
      | some _ => rfl
      | none =>
        cases b with
        | none => rfl
        | some _ => simp at h
    have e1 := orn s.maxEdges Num58.int st.maxEdges g1
    have e2 := orn s.minAdj Num58.dbu st.minAdj g2
    have e3 := orn s.eol Num58.dbu st.eol g3
    rw [List.flatMap_cons, step_one s (hl s (by simp))]
    unfold KeepsGiving at hk
    rw [List.pairwise_cons] at hk
    rw [step_says t _ (fun x hx => hl x (by simp [hx])) hk.2 (by
      intro x hx
      have := hk.1 x hx
      simp only [Step58Text.next, e1, e2, e3, Option.isSome_map]
      exact this)]
    by_cases ho : s.other = []
    · rw [if_pos ho, List.filter_cons_of_pos (by simp [ho])]
      simp [Step58Text.says, Step58Text.next, e1, e2, e3]
    · rw [if_neg ho, List.filter_cons_of_neg (by simpa using ho)]
      simp

/-- **C166** (part) a text in which no option given before is left out later, such as a text of one statement, is read as written: its statements
without unknown words, in order, each with its own values. Missing: texts where a statement leaves out an option given before -/
theorem c166_read_partial (l : List Step58Text) (hl : ∀ s ∈ l, s.Ok) (hk : KeepsGiving l) :
    step58Loop (l.flatMap Step58Text.toks) {} = (l.filter (fun s => s.other.isEmpty)).map Step58Text.says :=
  step_says l {} hl hk (fun s _ => ⟨(by intro h; cases h), (by intro h; cases h), (by intro h; cases h)⟩)

def num58 (s : String) (n : Int) : Num58 := ⟨s, n, n⟩

/-- **C166** in general a text is not read as written: in `MINSTEP 5 MAXEDGES 1 ; MINSTEP 9 NOBETWEENEOL 7 ;` the second statement gets the MAXEDGES of
the first -/
theorem c166_carried_over : ∃ l : List Step58Text, (∀ s ∈ l, s.Ok) ∧ (∀ s ∈ l, s.other = []) ∧
    step58Loop (l.flatMap Step58Text.toks) {} ≠ l.map Step58Text.says ∧
    ⟨9, some 1, none, some 7⟩ ∈ step58Loop (l.flatMap Step58Text.toks) {} :=
  ⟨[{ len := num58 "5" 5, maxEdges := some (num58 "1" 1) }, { len := num58 "9" 9, eol := some (num58 "7" 7) }],
    (by intro s hs; simp at hs; rcases hs with rfl | rfl <;> (intro w hw; cases hw)), by decide, by decide, by decide⟩

example : KeepsGiving [{ len := num58 "5" 5 }, { len := num58 "9" 9, maxEdges := some (num58 "1" 1), other := ["XYZ"] }, { len := num58 "3" 3, maxEdges := some (num58 "2" 2), eol := some (num58 "7" 7) }] ∧
    step58Loop ([{ len := num58 "5" 5 }, { len := num58 "9" 9, maxEdges := some (num58 "1" 1), other := ["XYZ"] },
      { len := num58 "3" 3, maxEdges := some (num58 "2" 2), eol := some (num58 "7" 7) }].flatMap Step58Text.toks) {} = [⟨5, none, none, none⟩, ⟨3, some 2, none, some 7⟩] := by
  refine ⟨?_, by decide⟩
  unfold KeepsGiving
  simp

/-! ### LEF58_CORNERSPACING -/

theorem free_word {n : Num58} (h : n.Free) : cornWord n.text = .other := by
  unfold Num58.Free at h
  simp only [List.mem_cons, List.not_mem_nil, or_false, not_or] at h
  obtain ⟨h1, h2, h3, h4, h5, h6, h7, h8, h9, h10, h11, h12, h13⟩ := h
  simp [cornWord, h1, h2, h3, h4, h5, h6, h7, h8, h9, h10, h11, h12, h13]

/-- the numbers of a row -/
def CornLine.nums (l : CornLine) : List Int := l.width.dbu :: l.space.dbu :: (match l.second with | none => [] | some t => [t.dbu])

theorem corn_line (notch : Bool) (l : CornLine) (hw : l.width.Free) (hs : l.space.Free) (h2 : ∀ n, l.second = some n → n.Free) (rest : List LTok)
    (st : CornSt) (hc : st.corner = true) :
    cspLoop notch (l.toks ++ rest) st = (match cornRow st with
      | none => .error
      | some st' => cspLoop notch rest { st' with cur := l.nums }) := by
  have key : ∀ st', cornRow st = some st' → st'.corner = true ∧ st'.mode = .width ∧ st'.cur = [] := by
    intro st' h
    unfold cornRow at h
    split at h
    · cases h; exact ⟨hc, rfl, rfl⟩
    · split at h
      · cases h; exact ⟨hc, rfl, rfl⟩
      · split at h
        · cases h
        · cases h; exact ⟨hc, rfl, rfl⟩
  unfold CornLine.toks
  simp only [List.cons_append, List.append_assoc, List.nil_append]
  rw [cspLoop.eq_def]
  simp only [kw, show cornWord "WIDTH" = .width from by decide, hc]
  cases hr : cornRow st with
  | none => simp
  | some st1 =>
    obtain ⟨c1, m1, u1⟩ := key st1 hr
    simp only [reduceCtorEq, and_false, if_false, and_self, if_true, or_self]
    rw [cspLoop.eq_def]
    simp only [Num58.tok, free_word hw, m1, reduceCtorEq, and_false, if_false, if_true, or_self, cornNum, Option.map_some]
    rw [cspLoop.eq_def]
    simp only [show cornWord "SPACING" = .spacing from by decide, reduceCtorEq, and_false, if_false, if_true, or_self, m1, cornNum]
    rw [cspLoop.eq_def]
    simp only [free_word hs, reduceCtorEq, and_false, if_false, if_true, or_self, m1, cornNum, Option.map_some]
    cases h : l.second with
    | none => simp [CornLine.nums, h, u1]
    | some n =>
      simp only [List.cons_append, List.nil_append]
      rw [cspLoop.eq_def]
      simp only [free_word (h2 n h), reduceCtorEq, and_false, if_false, if_true, or_self, m1, cornNum, Option.map_some]
      simp [CornLine.nums, h, u1]

/-- reading rows that have all the same number of spacings, after one of them -/
theorem corn_lines (notch : Bool) (rest : List LTok) (k : Nat) (hk : k = 2 ∨ k = 3) : ∀ (ls : List CornLine) (st : CornSt),
    (∀ l ∈ ls, l.width.Free ∧ l.space.Free ∧ ∀ n, l.second = some n → n.Free) → (∀ l ∈ ls, l.nums.length = k) →
    st.corner = true → st.cur.length = k → (st.entries = 0 ∨ st.entries = k) → ls ≠ [] →
    cspLoop notch (ls.flatMap CornLine.toks ++ rest) st =
      cspLoop notch rest { st with mode := .width, rows := st.rows ++ [st.cur] ++ (ls.map CornLine.nums).dropLast, cur := (ls.getLastD ⟨⟨"", 0, 0⟩, ⟨"", 0, 0⟩, none⟩).nums, entries := k }
  | [], st, _, _, _, _, _, hne => (hne rfl).elim
  | l :: t, st, hf, hn, hc, hu, he, _ => by
    obtain ⟨f1, f2, f3⟩ := hf l (by simp)
    rw [List.flatMap_cons, List.append_assoc, corn_line notch l f1 f2 f3 _ _ hc]
    have hcur : st.cur ≠ [] := by intro e; rw [e] at hu; simp at hu; omega
    have hrow : cornRow st = some { st with mode := .width, rows := st.rows ++ [st.cur], entries := k, cur := [] } := by
      unfold cornRow
      rw [if_neg hcur]
      rcases he with he | he
      · rw [if_pos he, hu]
        have : min k 3 = k := by omega
        rw [this]
      · rw [if_neg (by omega), if_neg (by rw [he, hu]; simp)]
        cases st; simp at he ⊢; exact he
    rw [hrow]
    simp only
    cases t with
    | nil => simp
    | cons l2 t2 =>
      rw [corn_lines notch rest k hk (l2 :: t2) { st with mode := .width, rows := st.rows ++ [st.cur], entries := k, cur := l.nums } (fun x hx => hf x (by simp [hx])) (fun x hx => hn x (by simp [hx])) hc (hn l (by simp)) (.inr rfl) (by simp)]
      simp [List.getLastD]

/-- `cornWord` of the words -/
theorem cornWords : cornWord "CORNERSPACING" = .cornerSpacing ∧ cornWord "CONVEXCORNER" = .convex ∧ cornWord "CONCAVECORNER" = .concave ∧
    cornWord "EXCEPTSAMENET" = .exceptSameNet ∧ cornWord "EXCEPTSAMEMETAL" = .exceptSameMetal ∧ cornWord "CORNERONLY" = .cornerOnly ∧
    cornWord "EXCEPTEOL" = .exceptEol ∧ cornWord "EXCEPTJOGLENGTH" = .exceptJog ∧ cornWord "MINLENGTH" = .minLength ∧
    cornWord "EXCEPTNOTCH" = .exceptNotch ∧ cornWord "SAMEMASK" = .other ∧ cornWord ";" = .semi ∧ cornWord "WIDTH" = .width := by decide

theorem corn_except (notch : Bool) (a b : Bool) (rest : List LTok) (st : CornSt) (hc : st.corner = true) :
    ∃ m, cspLoop notch (optKw a "EXCEPTSAMENET" ++ optKw b "EXCEPTSAMEMETAL" ++ rest) st = cspLoop notch rest { st with mode := m } := by
  obtain ⟨-, -, -, w4, w5, -⟩ := cornWords
  cases a <;> cases b
  · exact ⟨st.mode, by simp [optKw]⟩
  · refine ⟨.none, ?_⟩
    simp only [optKw, if_true, if_false, List.nil_append, List.cons_append, Bool.false_eq_true]
    rw [cspLoop.eq_def]; simp [kw, w5, hc]
  · refine ⟨.none, ?_⟩
    simp only [optKw, if_true, if_false, List.nil_append, List.cons_append, Bool.false_eq_true]
    rw [cspLoop.eq_def]; simp [kw, w4, hc]
  · refine ⟨.none, ?_⟩
    simp only [optKw, if_true, List.nil_append, List.cons_append]
    rw [cspLoop.eq_def]; simp only [kw, w4, hc, reduceCtorEq, and_false, if_false, true_or, and_self, if_true, Bool.true_eq_false]
    rw [cspLoop.eq_def]; simp [w5, hc]

/-- reading the head of a CONVEXCORNER rule -/
theorem corn_convex (notch : Bool) (m : Bool) (c e j : Option Num58) (hj : ∀ n, j = some n → n.Free) (rest : List LTok) :
    cspLoop notch (kw "CORNERSPACING" :: (CornHead.convex m c e j).toks ++ rest) {} =
      cspLoop notch rest { corner := true, mode := .convex, hasConvex := true, eol := e.map Num58.dbu } := by
  obtain ⟨w1, w2, w3, w4, w5, w6, w7, w8, w9, w10, w11, -⟩ := cornWords
  unfold CornHead.toks
  simp only [List.cons_append, List.append_assoc, List.nil_append]
  rw [cspLoop.eq_def]; simp only [kw, w1, reduceCtorEq, if_false, and_self, if_true]
  rw [cspLoop.eq_def]; simp only [w2, reduceCtorEq, if_false, and_self, if_true, and_false]
  have sm : ∀ rest st, st.corner = true → st.mode = .convex → cspLoop notch (optKw m "SAMEMASK" ++ rest) st = cspLoop notch rest st := by
    intro rest st h1 h2
    cases m with
    | false => rfl
    | true =>
      simp only [optKw, if_true, List.cons_append, List.nil_append]
      rw [cspLoop.eq_def]; simp [kw, w11, h2]
  have co : ∀ rest st, st.corner = true → st.mode = .convex → cspLoop notch (optNum "CORNERONLY" c ++ rest) st = cspLoop notch rest st := by
    intro rest st h1 h2
    cases c with
    | none => rfl
    | some n =>
      simp only [optNum, List.cons_append, List.nil_append]
      rw [cspLoop.eq_def]; simp [kw, w6, h2, Num58.tok]
  have eo : ∀ rest st, st.corner = true → st.mode = .convex → cspLoop notch (optNum "EXCEPTEOL" e ++ rest) st =
      cspLoop notch rest { st with eol := (e.map Num58.dbu).or st.eol } := by
    intro rest st h1 h2
    cases e with
    | none => rfl
    | some n =>
      simp only [optNum, List.cons_append, List.nil_append]
      rw [cspLoop.eq_def]; simp [kw, w7, h2, Num58.tok]
  have jo : ∀ rest st, st.corner = true → st.mode = .convex → cspLoop notch (optNum "EXCEPTJOGLENGTH" j ++ rest) st = cspLoop notch rest st := by
    intro rest st h1 h2
    cases hjj : j with
    | none => rfl
    | some n =>
      simp only [optNum, List.cons_append, List.nil_append]
      rw [cspLoop.eq_def]; simp [kw, w8, h2, Num58.tok]
      rw [cspLoop.eq_def]; simp [h2, free_word (hj n hjj)]
  rw [sm _ _ rfl rfl, co _ _ rfl rfl, eo _ _ rfl rfl, jo _ _ rfl rfl]
  simp

/-- reading the head of a CONCAVECORNER rule -/
theorem corn_concave (notch : Bool) (l : Option Num58) (n : Option (Option Num58)) (rest : List LTok)
    (hn : n = some none → notch = false) (hy : ∀ x, n = some (some x) → notch = true) :
    cspLoop notch (kw "CORNERSPACING" :: (CornHead.concave l n).toks ++ rest) {} =
      cspLoop notch rest { corner := true, mode := .concave, hasConcave := true } := by
  obtain ⟨w1, w2, w3, w4, w5, w6, w7, w8, w9, w10, w11, -⟩ := cornWords
  unfold CornHead.toks
  simp only [List.cons_append, List.append_assoc, List.nil_append]
  rw [cspLoop.eq_def]; simp only [kw, w1, reduceCtorEq, if_false, and_self, if_true]
  rw [cspLoop.eq_def]; simp only [w3, reduceCtorEq, if_false, and_self, if_true, and_false]
  have ml : ∀ rest st, st.corner = true → st.mode = .concave → cspLoop notch (optNum "MINLENGTH" l ++ rest) st = cspLoop notch rest st := by
    intro rest st h1 h2
    cases l with
    | none => rfl
    | some n =>
      simp only [optNum, List.cons_append, List.nil_append]
      rw [cspLoop.eq_def]; simp [kw, w9, h2, Num58.tok]
  rw [ml _ _ rfl rfl]
  match n, hn, hy with
  | none, _, _ => rfl
  | some none, hn, _ =>
    simp only [List.cons_append, List.nil_append]
    rw [cspLoop.eq_def]; simp [kw, w10, hn rfl]
  | some (some x), _, hy =>
    simp only [List.cons_append, List.nil_append]
    rw [cspLoop.eq_def]; simp [kw, w10, hy x rfl, Num58.tok]

/-- what follows the head of a rule is a word -/
theorem corn_mid (a b : Bool) (ls : List CornLine) (hne : ls ≠ []) (t : LTok)
    (h : (optKw a "EXCEPTSAMENET" ++ optKw b "EXCEPTSAMEMETAL" ++ (ls.flatMap CornLine.toks ++ [kw ";"]))[0]? = some t) : t.num = none := by
  cases ls with
  | nil => exact absurd rfl hne
  | cons l ls => cases a <;> cases b <;> simp [optKw, CornLine.toks] at h <;> rw [← h] <;> rfl

/-- the variables when the rows begin -/
def CornHead.start : CornHead → CornSt
  | .convex _ _ e _ => { corner := true, mode := .convex, hasConvex := true, eol := e.map Num58.dbu }
  | .concave _ _ => { corner := true, mode := .concave, hasConcave := true }

theorem corn_head (c : CornText) (hc : c.Ok) :
    ∃ m, cspLoop (notchLen c.toks) c.toks {} =
      cspLoop (notchLen c.toks) (c.lines.flatMap CornLine.toks ++ [kw ";"]) { c.head.start with mode := m } := by
  generalize hN : notchLen c.toks = N
  have ht : c.toks = kw "CORNERSPACING" :: c.head.toks ++ (optKw c.exceptNet "EXCEPTSAMENET" ++ optKw c.exceptMetal "EXCEPTSAMEMETAL" ++
      (c.lines.flatMap CornLine.toks ++ [kw ";"])) := by
    unfold CornText.toks; simp [List.append_assoc]
  rw [ht]
  have hh := hc.head
  cases hd : c.head with
  | convex m co e j =>
    rw [hd] at hh
    rw [corn_convex N m co e j hh]
    obtain ⟨md, hm⟩ := corn_except N c.exceptNet c.exceptMetal (c.lines.flatMap CornLine.toks ++ [kw ";"]) (CornHead.convex m co e j).start rfl
    exact ⟨md, hm⟩
  | concave l n =>
    rw [hd] at hh
    have hmid := corn_mid c.exceptNet c.exceptMetal c.lines hc.ne
    generalize hM : optKw c.exceptNet "EXCEPTSAMENET" ++ optKw c.exceptMetal "EXCEPTSAMEMETAL" ++ (c.lines.flatMap CornLine.toks ++ [kw ";"]) = mid at hmid ht ⊢
    obtain ⟨w1, w2, w3, w4, w5, w6, w7, w8, w9, w10, w11, -⟩ := cornWords
    have hnl : ∀ rest, notchLen (kw "CORNERSPACING" :: (kw "CONCAVECORNER" :: (optNum "MINLENGTH" l ++ rest))) = notchLen rest := by
      intro rest
      rw [notchLen.eq_def]; simp only [kw, w1, reduceCtorEq, if_false]
      rw [notchLen.eq_def]; simp only [w3, reduceCtorEq, if_false]
      cases hl : l with
      | none => rfl
      | some x =>
        simp only [optNum, List.cons_append, List.nil_append]
        rw [notchLen.eq_def]; simp only [kw, w9, reduceCtorEq, if_false]
        rw [notchLen.eq_def]; simp only [Num58.tok, free_word (hh x hl), reduceCtorEq, if_false]
    rw [corn_concave N l n _ (by
      rintro rfl
      rw [← hN, ht, hd]
      simp only [CornHead.toks, List.cons_append, List.append_assoc, hnl, List.nil_append]
      rw [notchLen.eq_def]
      simp only [kw, w10, if_true]
      cases mid with
      | nil => rfl
      | cons t ts =>
        have := hmid t rfl
        obtain ⟨a, b⟩ := t
        simp only at this
        rw [this]) (by
      rintro x rfl
      rw [← hN, ht, hd]
      simp only [CornHead.toks, List.cons_append, List.append_assoc, hnl, List.nil_append]
      rw [notchLen.eq_def]
      simp only [kw, w10, if_true, Num58.tok])]
    rw [← hM]
    obtain ⟨md, hm⟩ := corn_except N c.exceptNet c.exceptMetal (c.lines.flatMap CornLine.toks ++ [kw ";"]) (CornHead.concave l n).start rfl
    exact ⟨md, hm⟩

/-- reading a text whose rows have all the same number of entries -/
theorem corn_text (c : CornText) (hc : c.Ok) (k : Nat) (hk : k = 2 ∨ k = 3) (hn : ∀ l ∈ c.lines, l.nums.length = k) :
    cspLoop (notchLen c.toks) c.toks {} = .ok { c.head.start with
      corner := false, mode := .none, rows := (c.lines.map CornLine.nums).dropLast, cur := (c.lines.getLastD ⟨⟨"", 0, 0⟩, ⟨"", 0, 0⟩, none⟩).nums,
      entries := if c.lines.length = 1 then 0 else k } := by
  obtain ⟨m, h⟩ := corn_head c hc
  rw [h]
  generalize notchLen c.toks = N
  have hst : c.head.start.corner = true ∧ c.head.start.cur = [] ∧ c.head.start.rows = [] ∧ c.head.start.entries = 0 := by
    cases c.head <;> exact ⟨rfl, rfl, rfl, rfl⟩
  obtain ⟨s1, s2, s3, s4⟩ := hst
  have hsemi : ∀ st, cspLoop N [kw ";"] st = .ok { st with corner := false, mode := .none } := by
    intro st
    rw [cspLoop.eq_def]; simp only [kw, show cornWord ";" = .semi from by decide, if_true]
    rw [cspLoop]
  cases hl : c.lines with
  | nil => exact absurd hl hc.ne
  | cons l t =>
    obtain ⟨f1, f2, f3⟩ := hc.lines l (by rw [hl]; simp)
    rw [List.flatMap_cons, List.append_assoc, corn_line N l f1 f2 f3 _ { c.head.start with mode := m } s1]
    have hrow : cornRow { c.head.start with mode := m } = some { c.head.start with mode := .width } := by
      unfold cornRow
      simp [s2]
    rw [hrow]
    simp only
    cases t with
    | nil =>
      simp only [List.flatMap_nil, List.nil_append]
      rw [hsemi]
      simp [s3, s4]
    | cons l2 t2 =>
      rw [corn_lines N [kw ";"] k hk (l2 :: t2) { c.head.start with mode := .width, cur := l.nums } (fun x hx => hc.lines x (by rw [hl]; simp at hx ⊢; exact .inr hx))
        (fun x hx => hn x (by rw [hl]; simp at hx ⊢; exact .inr hx)) s1 (hn l (by rw [hl]; simp)) (.inl s4) (by simp), hsemi]
      simp [s3, List.getLastD]

theorem rows_eq (ls : List CornLine) (d : CornLine) (hne : ls ≠ []) :
    (if (ls.getLastD d).nums = [] then (ls.map CornLine.nums).dropLast else (ls.map CornLine.nums).dropLast ++ [(ls.getLastD d).nums]) = ls.map CornLine.nums := by
  have h1 : (ls.getLastD d).nums ≠ [] := by unfold CornLine.nums; simp
  rw [if_neg h1]
  have h2 : ls.getLastD d = ls.getLast hne := by
    rw [List.getLastD_eq_getLast?, List.getLast?_eq_some_getLast hne]; rfl
  rw [h2]
  have h3 : (ls.getLast hne).nums = (ls.map CornLine.nums).getLast (by simpa using hne) := by rw [List.getLast_map]
  rw [h3]
  exact List.dropLast_concat_getLast _

theorem cols_false : ∀ ls : List CornLine, cornCols false (ls.map CornLine.nums) = some (ls.map fun l => (l.width.dbu, l.space.dbu, l.space.dbu))
  | [] => rfl
  | l :: t => by
    simp only [List.map_cons, cornCols, cols_false t, CornLine.nums]
    simp

theorem cols_true : ∀ ls : List CornLine, (∀ l ∈ ls, l.second ≠ none) →
    cornCols true (ls.map CornLine.nums) = some (ls.map fun l => (l.width.dbu, l.space.dbu, (l.second.map Num58.dbu).getD 0))
  | [], _ => rfl
  | l :: t, h => by
    cases hs : l.second with
    | none => exact absurd hs (h l (by simp))
    | some y =>
      simp only [List.map_cons, cornCols, cols_true t (fun x hx => h x (by simp [hx])), CornLine.nums, hs]
      simp

theorem corn_kind (c : CornText) : (c.head.start.hasConvex = true ↔ c.head.kind = .convex) ∧ (c.head.start.hasConvex = false → c.head.start.hasConcave = true ∧ c.head.kind = .concave ∧ c.head.eol = none) ∧
    (c.head.start.hasConvex = true → c.head.start.eol = c.head.eol) := by
  cases c.head <;> simp [CornHead.start, CornHead.kind, CornHead.eol]

/-- **C167** a CORNERSPACING rule whose rows have one spacing each is stored as written: its kind, EXCEPTEOL, its widths and its spacings, the same in
both directions -/
theorem c167_single (id : Nat) (c : CornText) (hc : c.Ok) (h : c.Single) :
    readCorner id c.toks = .rule ⟨id, c.head.kind, c.head.eol, c.lines.map (·.width.dbu), c.lines.map (·.space.dbu), c.lines.map (·.space.dbu), true⟩ := by
  have hn : ∀ l ∈ c.lines, l.nums.length = 2 := by intro l hl; simp [CornLine.nums, h l hl]
  unfold readCorner
  rw [corn_text c hc 2 (.inl rfl) hn]
  simp only
  rw [rows_eq c.lines _ hc.ne]
  have h3 : decide ((if c.lines.length = 1 then 0 else 2) = 3) = false := by split <;> rfl
  rw [h3, cols_false]
  obtain ⟨k1, k2, k3⟩ := corn_kind c
  cases hx : c.head.start.hasConvex with
  | true => simp [k1.1 hx, k3 hx, List.map_map, Function.comp_def]
  | false => simp [k2 hx, List.map_map, Function.comp_def]

/-- **C167** one with two rows at least and two spacings in each is stored with both tables -/
theorem c167_double (id : Nat) (c : CornText) (hc : c.Ok) (h : c.Double) :
    readCorner id c.toks = .rule ⟨id, c.head.kind, c.head.eol, c.lines.map (·.width.dbu), c.lines.map (·.space.dbu),
      c.lines.map (fun l => (l.second.map Num58.dbu).getD 0), false⟩ := by
  have hn : ∀ l ∈ c.lines, l.nums.length = 3 := by
    intro l hl
    cases hs : l.second with
    | none => exact absurd hs (h.2 l hl)
    | some y => simp [CornLine.nums, hs]
  unfold readCorner
  rw [corn_text c hc 3 (.inr rfl) hn]
  simp only
  rw [rows_eq c.lines _ hc.ne, if_neg (by have := h.1; omega)]
  simp only [decide_true]
  rw [cols_true _ h.2]
  obtain ⟨k1, k2, k3⟩ := corn_kind c
  cases hx : c.head.start.hasConvex with
  | true => simp [k1.1 hx, k3 hx, List.map_map, Function.comp_def]
  | false => simp [k2 hx, List.map_map, Function.comp_def]

/-- **C167** with a single row the second spacing is lost -/
theorem c167_one_row (id : Nat) (c : CornText) (hc : c.Ok) (l : CornLine) (h : c.lines = [l]) :
    readCorner id c.toks = .rule ⟨id, c.head.kind, c.head.eol, [l.width.dbu], [l.space.dbu], [l.space.dbu], true⟩ := by
  have hn : ∃ k, (k = 2 ∨ k = 3) ∧ ∀ x ∈ c.lines, x.nums.length = k := by
    rw [h]
    cases hs : l.second with
    | none => exact ⟨2, .inl rfl, by intro x hx; simp at hx; subst hx; simp [CornLine.nums, hs]⟩
    | some y => exact ⟨3, .inr rfl, by intro x hx; simp at hx; subst hx; simp [CornLine.nums, hs]⟩
  obtain ⟨k, hk, hn⟩ := hn
  unfold readCorner
  rw [corn_text c hc k hk hn]
  simp only
  rw [rows_eq c.lines _ hc.ne, h]
  simp only [List.length_singleton, if_true, show decide (0 = 3) = false from rfl]
  rw [cols_false]
  obtain ⟨k1, k2, k3⟩ := corn_kind c
  cases hx : c.head.start.hasConvex with
  | true => simp [k1.1 hx, k3 hx]
  | false => simp [k2 hx]

/-- **C167** so a rule with one spacing per row, growing widths and spacings that do not fall is one for which the checker reports exactly the
corners that are too close, and the distance it asks for at width `w` is the spacing of the last row with a width below `w`, or of the first row -/
theorem c167_checked (id : Nat) (c : CornText) (hc : c.Ok) (h : c.Single) (hw : StrictInc (c.lines.map (·.width.dbu)))
    (hs : (c.lines.map (·.space.dbu)).Pairwise (· ≤ ·)) :
    ∃ r, readCorner id c.toks = .rule r ∧ r.Ok ∧ r.kind = c.head.kind ∧ r.eol = c.head.eol ∧
      ∀ w q, CornNeeds r w q ↔ ∃ i l, KeyFor (c.lines.map (·.width.dbu)) w i ∧ c.lines[i]? = some l ∧ l.space.dbu = q := by
  refine ⟨_, c167_single id c hc h, ⟨by simpa using hc.ne, hw, by simp, hs, rfl, rfl, by cases c.head <;> simp [CornHead.kind]⟩, rfl, rfl, ?_⟩
  intro w q
  unfold CornNeeds
  simp only [List.getElem?_map, Option.map_eq_some_iff]
  constructor
  · rintro ⟨i, h1, l, h2, h3⟩; exact ⟨i, l, h1, h2, h3⟩
  · rintro ⟨i, l, h1, h2, h3⟩; exact ⟨i, h1, l, h2, h3⟩

/-- a rule with an EXCEPTEOL and two rows -/
def exCorner : CornText := ⟨.convex true none (some (num58 "9" 9)) (some (num58 "4" 4)), true, false, [⟨num58 "0" 0, num58 "5" 5, none⟩, ⟨num58 "3" 3, num58 "7" 7, none⟩]⟩

theorem exCorner_ok : exCorner.Ok ∧ exCorner.Single :=
  ⟨⟨by intro n h; cases h; simp [Num58.Free, num58], by
    intro l hl
    simp only [exCorner, List.mem_cons, List.not_mem_nil, or_false] at hl
    rcases hl with rfl | rfl <;> simp [Num58.Free, num58], by simp [exCorner]⟩,
   by intro l hl; simp only [exCorner, List.mem_cons, List.not_mem_nil, or_false] at hl; rcases hl with rfl | rfl <;> rfl⟩

example : readCorner 4 exCorner.toks = .rule ⟨4, .convex, some 9, [0, 3], [5, 7], [5, 7], true⟩ :=
  (c167_single 4 exCorner exCorner_ok.1 exCorner_ok.2).trans rfl

def CornRead.tables : CornRead → Option (Option (List Int × List Int))
  | .rule r => some (some (r.valsX, r.valsY))
  | .nothing => some none
  | .crash => none

/-- **C167** the rows must be alike: with a second spacing in the last row only it is lost, in all but the last the program reads beyond a row, and if
another row differs from the first the rule is dropped -/
theorem c167_mixed : ∃ a b : CornLine, a.second = none ∧ b.second ≠ none ∧
    (∃ r, readCorner 0 (CornText.toks ⟨.concave none none, false, false, [a, b]⟩) = .rule r ∧ r.valsY = r.valsX) ∧
    readCorner 0 (CornText.toks ⟨.concave none none, false, false, [b, b, a]⟩) = .crash ∧
    readCorner 0 (CornText.toks ⟨.concave none none, false, false, [a, b, a]⟩) = .nothing := by
  refine ⟨⟨num58 "0" 0, num58 "5" 5, none⟩, ⟨num58 "3" 3, num58 "7" 7, some (num58 "9" 9)⟩, rfl, by simp, ?_, ?_, ?_⟩
  · have : (readCorner 0 (CornText.toks ⟨.concave none none, false, false, [⟨num58 "0" 0, num58 "5" 5, none⟩, ⟨num58 "3" 3, num58 "7" 7, some (num58 "9" 9)⟩]⟩)).tables =
      some (some ([5, 7], [5, 7])) := by decide +kernel
    generalize readCorner 0 _ = x at this ⊢
    cases x with
    | rule r => simp only [CornRead.tables, Option.some.injEq, Prod.mk.injEq] at this; exact ⟨r, rfl, by rw [this.1, this.2]⟩
    | nothing => cases this
    | crash => cases this
  · have : (readCorner 0 (CornText.toks ⟨.concave none none, false, false, [⟨num58 "3" 3, num58 "7" 7, some (num58 "9" 9)⟩, ⟨num58 "3" 3, num58 "7" 7, some (num58 "9" 9)⟩,
      ⟨num58 "0" 0, num58 "5" 5, none⟩]⟩)).tables = none := by decide +kernel
    generalize readCorner 0 _ = x at this ⊢
    cases x with
    | rule r => cases this
    | nothing => cases this
    | crash => rfl
  · have : (readCorner 0 (CornText.toks ⟨.concave none none, false, false, [⟨num58 "0" 0, num58 "5" 5, none⟩, ⟨num58 "3" 3, num58 "7" 7, some (num58 "9" 9)⟩,
      ⟨num58 "0" 0, num58 "5" 5, none⟩]⟩)).tables = some none := by decide +kernel
    generalize readCorner 0 _ = x at this ⊢
    cases x with
    | rule r => simp [CornRead.tables] at this
    | nothing => rfl
    | crash => cases this

end TR
