import Verif.Opt.Spec
namespace TR

theorem takeWhile_colon (a b : Txt) (h : ':' ∉ a) : (a ++ ':' :: b).takeWhile (· ≠ ':') = a := by
  induction a with
  | nil => simp
  | cons c cs ih =>
    have : c ≠ ':' := fun e => h (by simp [e])
    rw [List.cons_append, List.takeWhile_cons_of_pos (by simpa using this), ih (fun e => h (by simp [e]))]

theorem dropWhile_colon (a b : Txt) (h : ':' ∉ a) : (a ++ ':' :: b).dropWhile (· ≠ ':') = ':' :: b := by
  induction a with
  | nil => simp
  | cons c cs ih =>
    have : c ≠ ':' := fun e => h (by simp [e])
    rw [List.cons_append, List.dropWhile_cons_of_pos (by simpa using this), ih (fun e => h (by simp [e]))]

theorem split_at_colon {l : Txt} (h : ':' ∈ l) : ∃ a b, ':' ∉ a ∧ l = a ++ ':' :: b := by
  induction l with
  | nil => cases h
  | cons c cs ih =>
    by_cases hc : c = ':'
    · exact ⟨[], cs, by simp, by simp [hc]⟩
    · obtain ⟨a, b, ha, e⟩ := ih (by rcases List.mem_cons.mp h with h | h; exact absurd h.symm hc; exact h)
      exact ⟨c :: a, b, by simp [ha, Ne.symm hc], by simp [e]⟩

/-- the two halves of a line are the name and the value it gives -/
theorem splitLine_iff {name : Txt} (hn : ':' ∉ name) (v l : Txt) : splitLine l = (name, v) ↔ SetsTo name v l := by
  unfold splitLine SetsTo
  constructor
  · intro h
    by_cases hc : ':' ∈ l
    · rw [if_pos hc] at h
      obtain ⟨a, b, ha, rfl⟩ := split_at_colon hc
      rw [takeWhile_colon a b ha, dropWhile_colon a b ha] at h
      simp at h
      left; rw [h.1, h.2]
    · rw [if_neg hc] at h
      simp at h
      exact Or.inr ⟨h.1, by rw [← h.2, h.1]⟩
  · rintro (rfl | ⟨rfl, rfl⟩)
    · rw [if_pos (by simp), takeWhile_colon name v hn, dropWhile_colon name v hn]; simp
    · rw [if_neg hn]

theorem splitLine_fst {name : Txt} (hn : ':' ∉ name) (l : Txt) : (splitLine l).1 = name ↔ ∃ v, SetsTo name v l := by
  constructor
  · intro h
    exact ⟨(splitLine l).2, (splitLine_iff hn _ l).mp (by rw [← h])⟩
  · rintro ⟨v, h⟩
    rw [(splitLine_iff hn v l).mpr h]

theorem splitLine_hash (l : Txt) (h : l.head? = some '#') : (splitLine l).1.head? = some '#' := by
  cases l with
  | nil => cases h
  | cons c cs =>
    simp at h; subst h
    unfold splitLine
    split
    · rw [List.takeWhile_cons_of_pos (by decide)]; rfl
    · rfl

theorem parOf_iff {name : Txt} {p : Par} (h : (name, p) ∈ parTable) (hp : p ≠ .onGrid) (f : Txt) : parOf f = some p ↔ f = name := by
  unfold parOf
  constructor
  · intro e
    simp only [Option.map_eq_some_iff] at e
    obtain ⟨x, hx, rfl⟩ := e
    have h1 := List.mem_of_find?_eq_some hx
    have h2 := List.find?_some hx
    have : x = (name, x.2) := by
      revert h h1 hp
      revert x
      intro x _ _ h
      have key : ∀ a ∈ parTable, a.2 ≠ .onGrid → ∀ b ∈ parTable, a.2 = b.2 → a = b := by decide +kernel
      exact fun hp h1 => key x h1 hp _ h rfl
    rw [this] at h2
    exact (by simpa using h2 : name = f).symm
  · rintro rfl
    have key : ∀ a ∈ parTable, (parTable.find? fun e => e.1 == a.1) = some a := by decide +kernel
    have := key _ h
    simp only at this
    rw [this]; rfl

theorem parOf_hash {f : Txt} (h : f.head? = some '#') : parOf f = none := by
  unfold parOf
  rw [Option.map_eq_none_iff, List.find?_eq_none]
  intro x hx e
  have key : ∀ a ∈ parTable, a.1.head? ≠ some '#' := by decide +kernel
  exact key x hx (by rw [(by simpa using e : x.1 = f)]; exact h)

theorem parLine_eq (s : Opts × Nat) (l : Txt) : parLine s l = match parOf (splitLine l).1 with
    | none => s
    | some p => (setPar s.1 (splitLine l).2 p, if p = .verbose then s.2 else s.2 + 1) := by
  unfold parLine
  by_cases h : l.head? = some '#'
  · rw [if_pos h, parOf_hash (splitLine_hash l h)]
  · rw [if_neg h]; rfl

/-- a line changes a setting to what it says, or leaves it -/
theorem parLine_field {α : Type} {name : Txt} {p : Par} (F : Opts → α) (val : Txt → α) (ht : (name, p) ∈ parTable) (hp : p ≠ .onGrid)
    (hs : ∀ o v q, F (setPar o v q) = if q = p then val v else F o) (s : Opts × Nat) (l : Txt) :
    (∀ v, SetsTo name v l → F (parLine s l).1 = val v) ∧ ((∀ v, ¬ SetsTo name v l) → F (parLine s l).1 = F s.1) := by
  have hn : ':' ∉ name := by
    have key : ∀ a ∈ parTable, ':' ∉ a.1 := by decide +kernel
    exact key _ ht
  rw [parLine_eq]
  constructor
  · intro v hv
    have e := (splitLine_iff hn v l).mpr hv
    rw [e, (parOf_iff ht hp name).mpr rfl]
    simp [hs]
  · intro hv
    have e : parOf (splitLine l).1 ≠ some p := by
      rw [Ne, parOf_iff ht hp, splitLine_fst hn]
      rintro ⟨v, h⟩; exact hv v h
    split
    · rfl
    · rename_i q hq
      rw [hs, if_neg]
      intro e'; exact e (e' ▸ hq)

theorem fold_field {α β : Type} {name : Txt} (F : β → α) (val : Txt → α) (g : β → Txt → β)
    (hg : ∀ s l, (∀ v, SetsTo name v l → F (g s l) = val v) ∧ ((∀ v, ¬ SetsTo name v l) → F (g s l) = F s)) (s : β) (ls : List Txt) :
    (∀ v, LastLine name v ls → F (ls.foldl g s) = val v) ∧ (NoLine name ls → F (ls.foldl g s) = F s) := by
  have h2 : ∀ (ls : List Txt) s, NoLine name ls → F (ls.foldl g s) = F s := by
    intro ls
    induction ls with
    | nil => intros; rfl
    | cons l ls ih =>
      intro s h
      rw [List.foldl_cons, ih _ (fun x hx => h x (by simp [hx])), (hg s l).2 (h l (by simp))]
  refine ⟨?_, h2 ls s⟩
  rintro v ⟨a, l, b, rfl, hl, hb⟩
  rw [List.foldl_append, List.foldl_cons, h2 b _ hb, (hg _ l).1 v hl]

/-- the lines that count -/
def countedLine (l : Txt) : Bool := (parOf (splitLine l).1).any (fun p => !(p == .verbose))

theorem counted_iff (l : Txt) : countedLine l = true ↔ ∃ name ∈ parCounted, ∃ v, SetsTo name v l := by
  have hcol : ∀ a ∈ parCounted, ':' ∉ a := by decide +kernel
  have key1 : ∀ a ∈ parCounted, (parOf a).any (fun p => !(p == .verbose)) = true := by decide +kernel
  have key2 : ∀ x ∈ parTable, x.2 ≠ .verbose → x.1 ∈ parCounted := by decide +kernel
  constructor
  · intro h
    have : (splitLine l).1 ∈ parCounted := by
      unfold countedLine parOf at h
      generalize hx : (parTable.find? fun e => e.1 == (splitLine l).1) = r at h
      cases r with
      | none => simp at h
      | some x =>
        have h1 := List.mem_of_find?_eq_some hx
        have h2 := List.find?_some hx
        have h3 : x.1 = (splitLine l).1 := by simpa using h2
        rw [← h3]
        exact key2 x h1 (by simpa using h)
    exact ⟨_, this, (splitLine_fst (hcol _ this) l).mp rfl⟩
  · rintro ⟨name, hn, v, h⟩
    have e := (splitLine_iff (hcol _ hn) v l).mpr h
    unfold countedLine
    rw [e]
    exact key1 name hn

theorem fold_count (ls : List Txt) (s : Opts × Nat) : (ls.foldl parLine s).2 = s.2 + ls.countP countedLine := by
  induction ls generalizing s with
  | nil => simp
  | cons l ls ih =>
    rw [List.foldl_cons, ih, List.countP_cons, parLine_eq]
    unfold countedLine
    cases hp : parOf (splitLine l).1 with
    | none => simp
    | some p =>
      by_cases hv : p = .verbose <;> simp [hv]; omega

theorem atLeast_iff (n : Nat) (names : List Txt) (p : Txt → Bool) (hp : ∀ l, p l = true ↔ ∃ name ∈ names, ∃ v, SetsTo name v l)
    (ls : List Txt) : AtLeast n names ls ↔ n ≤ ls.countP p := by
  constructor
  · rintro ⟨sub, hs, rfl, h⟩
    have h1 : sub.countP p = sub.length := List.countP_eq_length.mpr (fun l hl => (hp l).mpr (h l hl))
    rw [← h1]
    exact hs.countP_le
  · intro h
    refine ⟨(ls.filter p).take n, (List.take_sublist _ _).trans List.filter_sublist, ?_, ?_⟩
    · rw [List.length_take, ← List.countP_eq_length_filter]; omega
    · intro l hl
      exact (hp l).mp (List.mem_filter.mp (List.mem_of_mem_take hl)).2

/-- The router is started from a parameter file exactly if the file can be opened and at least five of its
lines give a value to a parameter other than the verbosity. -/
theorem c169_accepted (d : Opts) (file : Option Txt) :
    (readParams d file).2 = true ↔ ∃ t, file = some t ∧ AtLeast 5 parCounted (linesOf t []) := by
  cases file with
  | none => simp [readParams]
  | some t =>
    simp only [Option.some.injEq, exists_eq_left']
    rw [atLeast_iff 5 parCounted countedLine counted_iff]
    simp [readParams, fold_count]

/-- Every parameter of the file has the value of the last line for it, or keeps its default. -/
theorem c169_values (d : Opts) (t : Txt) :
    (∀ nf ∈ parTexts, (∀ v, LastLine nf.1 v (linesOf t []) → nf.2 (readParams d (some t)).1 = v) ∧
      (NoLine nf.1 (linesOf t []) → nf.2 (readParams d (some t)).1 = nf.2 d)) ∧
    (∀ nf ∈ parInts, (∀ v, LastLine nf.1 v (linesOf t []) → nf.2 (readParams d (some t)).1 = atoi v) ∧
      (NoLine nf.1 (linesOf t []) → nf.2 (readParams d (some t)).1 = nf.2 d)) := by
  have gen : ∀ {α : Type} (name : Txt) (p : Par) (F : Opts → α) (val : Txt → α), (name, p) ∈ parTable → p ≠ .onGrid →
      (∀ o v q, F (setPar o v q) = if q = p then val v else F o) →
      (∀ v, LastLine name v (linesOf t []) → F (readParams d (some t)).1 = val v) ∧
      (NoLine name (linesOf t []) → F (readParams d (some t)).1 = F d) := by
    intro α name p F val ht hp hs
    exact fold_field (fun s : Opts × Nat => F s.1) val parLine (fun s l => parLine_field F val ht hp hs s l) (d, 0) _
  constructor
  · intro nf h
    simp only [parTexts, List.mem_cons, List.not_mem_nil, or_false] at h
    rcases h with rfl | rfl | rfl | rfl | rfl | rfl | rfl | rfl | rfl | rfl | rfl
    · exact gen _ .lef _ id (by decide +kernel) (by decide) (by intro o v q; cases q <;> rfl)
    · exact gen _ .def_ _ id (by decide +kernel) (by decide) (by intro o v q; cases q <;> rfl)
    · exact gen _ .def_ _ id (by decide +kernel) (by decide) (by intro o v q; cases q <;> rfl)
    · exact gen _ .guide _ id (by decide +kernel) (by decide) (by intro o v q; cases q <;> rfl)
    · exact gen _ .outTA _ id (by decide +kernel) (by decide) (by intro o v q; cases q <;> rfl)
    · exact gen _ .out _ id (by decide +kernel) (by decide) (by intro o v q; cases q <;> rfl)
    · exact gen _ .outGuide _ id (by decide +kernel) (by decide) (by intro o v q; cases q <;> rfl)
    · exact gen _ .outMaze _ id (by decide +kernel) (by decide) (by intro o v q; cases q <;> rfl)
    · exact gen _ .drc _ id (by decide +kernel) (by decide) (by intro o v q; cases q <;> rfl)
    · exact gen _ .node _ id (by decide +kernel) (by decide) (by intro o v q; cases q <;> rfl)
    · exact gen _ .k _ id (by decide +kernel) (by decide) (by intro o v q; cases q <;> rfl)
  · intro nf h
    simp only [parInts, List.mem_cons, List.not_mem_nil, or_false] at h
    rcases h with rfl | rfl | rfl | rfl | rfl | rfl
    · exact gen _ .threads _ atoi (by decide +kernel) (by decide) (by intro o v q; cases q <;> rfl)
    · exact gen _ .verbose _ atoi (by decide +kernel) (by decide) (by intro o v q; cases q <;> rfl)
    · exact gen _ .pinLo _ atoi (by decide +kernel) (by decide) (by intro o v q; cases q <;> rfl)
    · exact gen _ .pinHi _ atoi (by decide +kernel) (by decide) (by intro o v q; cases q <;> rfl)
    · exact gen _ .endIter _ atoi (by decide +kernel) (by decide) (by intro o v q; cases q <;> rfl)
    · exact gen _ .seed _ atoi (by decide +kernel) (by decide) (by intro o v q; cases q <;> rfl)

theorem leadNat_digits (ds rest : Txt) (h : ∀ c ∈ ds, c.isDigit) (hr : ∀ c, rest.head? = some c → ¬ c.isDigit) (n : Nat) :
    leadNat (ds ++ rest) n = ds.foldl (fun a c => 10 * a + (c.toNat - 48)) n := by
  induction ds generalizing n with
  | nil =>
    cases rest with
    | nil => rfl
    | cons c cs =>
      rw [List.nil_append, leadNat, if_neg (by simpa using hr c rfl)]; rfl
  | cons c cs ih =>
    rw [List.cons_append, leadNat, if_pos (h c (by simp)), ih (fun x hx => h x (by simp [hx])), List.foldl_cons]
    rfl

theorem digit_not_sp {c : Char} (h : c.isDigit) : isSp c = false ∧ c ≠ '-' ∧ c ≠ '+' := by
  have h' : c.val ≥ 48 ∧ c.val ≤ 57 := by simpa [Char.isDigit] using h
  have hne : ∀ k : Char, k.val < 48 → c ≠ k := by
    intro k hk e
    subst e
    have h1 := h'.1
    rw [ge_iff_le, UInt32.le_iff_toNat_le] at h1
    rw [UInt32.lt_iff_toNat_lt] at hk
    omega
  refine ⟨?_, hne _ (by decide), hne _ (by decide)⟩
  unfold isSp
  have := hne ' ' (by decide); have := hne '\t' (by decide); have := hne '\n' (by decide)
  have := hne '\x0b' (by decide); have := hne '\x0c' (by decide); have := hne '\r' (by decide)
  simp [*]

theorem leadInt_num {sp : Txt} (hsp : ∀ c ∈ sp, isSp c = true) {t : Txt} {n : Nat} (h : NumText t n) :
    leadInt (sp ++ t) = some (n : Int) ∧ leadInt (sp ++ '-' :: t) = some (-(n : Int)) := by
  obtain ⟨ds, rest, rfl, hne, hd, hr, rfl⟩ := h
  cases ds with
  | nil => exact absurd rfl hne
  | cons c cs =>
    have hc := hd c (by simp)
    obtain ⟨h1, h2, h3⟩ := digit_not_sp hc
    have hdrop : ∀ (u : Txt) (x : Char), isSp x = false → (sp ++ x :: u).dropWhile isSp = x :: u := by
      intro u x hx
      clear hd hne hr h1 h2 h3 hc
      induction sp with
      | nil => rw [List.nil_append, List.dropWhile_cons_of_neg (by simp [hx])]
      | cons y ys ih =>
        rw [List.cons_append, List.dropWhile_cons_of_pos (hsp y (by simp)), ih (fun z hz => hsp z (by simp [hz]))]
    have hl := leadNat_digits (c :: cs) rest hd hr 0
    constructor
    · unfold leadInt
      rw [List.cons_append, hdrop _ c h1]
      split
      · rename_i e; simp at e; exact absurd e.1 h2
      · rename_i e; simp at e; exact absurd e.1 h3
      · rw [List.cons_append] at hl
        rw [leadDigits, if_pos hc, hl]; rfl
    · unfold leadInt
      rw [hdrop _ '-' (by decide)]
      simp only [List.cons_append]
      rw [List.cons_append] at hl
      rw [leadDigits, if_pos hc, hl]; rfl

/-- A whole number with blanks before it and a minus sign or none is read as that number; what follows it
is ignored. A text that does not begin with a number is read as 0. -/
theorem c169_number {sp : Txt} (hsp : ∀ c ∈ sp, isSp c = true) {t : Txt} {n : Nat} (h : NumText t n) :
    atoi (sp ++ t) = n ∧ atoi (sp ++ '-' :: t) = -(n : Int) ∧ (∀ u, leadInt u = none → atoi u = 0) := by
  obtain ⟨h1, h2⟩ := leadInt_num hsp h
  refine ⟨by simp [atoi, h1], by simp [atoi, h2], fun u hu => by simp [atoi, hu]⟩

/-- Comments and lines with other names change nothing. -/
theorem c169_others (s : Opts × Nat) (l : Txt) (h : l.head? = some '#' ∨ ∀ nf ∈ parTable, ∀ v, ¬ SetsTo nf.1 v l) : parLine s l = s := by
  rcases h with h | h
  · unfold parLine; rw [if_pos h]
  · rw [parLine_eq]
    have : parOf (splitLine l).1 = none := by
      unfold parOf
      rw [Option.map_eq_none_iff, List.find?_eq_none]
      intro x hx e
      have hcol : ∀ a ∈ parTable, ':' ∉ a.1 := by decide +kernel
      obtain ⟨v, hv⟩ := (splitLine_fst (hcol x hx) l).mp (by simpa using (by simpa using e : x.1 = _).symm)
      exact h x hx v hv
    rw [this]

/-- For one process the layers of vias inside pins, the routing layers and two switches are fixed, whatever
the file says. For all others every setting is the user's. -/
theorem c169_process (o : Opts) :
    (o.node = gf14 → (nodeOpts o).pinLo = 2 ∧ (nodeOpts o).pinHi = 2 ∧ (nodeOpts o).botLayer = 4 ∧ (nodeOpts o).topLayer = 18 ∧
      (nodeOpts o).nonPref = false ∧ (nodeOpts o).viaGen = false) ∧
    (o.node ≠ gf14 → nodeOpts o = o) ∧
    (∀ nf ∈ parTexts, nf.2 (nodeOpts o) = nf.2 o) ∧
    ((nodeOpts o).threads = o.threads ∧ (nodeOpts o).verbose = o.verbose ∧ (nodeOpts o).endIter = o.endIter) := by
  unfold nodeOpts
  by_cases h : o.node = gf14
  · rw [if_pos h]
    refine ⟨fun _ => ⟨rfl, rfl, rfl, rfl, rfl, rfl⟩, fun h' => absurd h h', ?_, rfl, rfl, rfl⟩
    intro nf hn
    simp only [parTexts, List.mem_cons, List.not_mem_nil, or_false] at hn
    rcases hn with rfl | rfl | rfl | rfl | rfl | rfl | rfl | rfl | rfl | rfl | rfl <;> rfl
  · rw [if_neg h]
    exact ⟨fun h' => absurd h' h, fun _ => rfl, fun _ _ => rfl, rfl, rfl, rfl⟩

/-- the settings at the start — src/global.cpp. -/
def exOpts : Opts where
  lef := [] 
  def_ := []
  ref := []
  guide := []
  outTA := []
  out := []
  outGuide := []
  outMaze := []
  drc := []
  node := []
  threads := 1
  verbose := 1
  pinLo := 2147483647
  pinHi := 2147483647
  endIter := 80
  seed := -1
  k := []
  nonPref := true
  botLayer := 2
  topLayer := 2147483647
  viaGen := true

/-- five lines for the same parameter are enough, a file with the four that matter is not -/
theorem c169_five_lines :
    (readParams exOpts (some "lef:a\nlef:b\nlef:c\nlef:d\nlef:e".toList)).2 = true ∧
    (readParams exOpts (some "lef:a\ndef:b\nguide:c\noutput:d\nverbose:1\n".toList)).2 = false := by
  constructor <;> decide +kernel

example : (readParams exOpts (some "#threads:8\nlef:a:b\ndef: c\nguide:g\noutput:o\nthreads: 4x\n".toList)).1 =
    { exOpts with lef := "a:b".toList, def_ := " c".toList, ref := " c".toList, guide := "g".toList, out := "o".toList, threads := 4 } := by
  decide +kernel
example : NumText "12x".toList 12 := ⟨"12".toList, "x".toList, by decide, by decide, by decide, by decide, by decide⟩
example : LastLine "lef".toList "b".toList ["lef:a".toList, "lef:b".toList, "x".toList] :=
  ⟨["lef:a".toList], "lef:b".toList, ["x".toList], by decide, Or.inl (by decide), by
    intro x hx w h
    simp only [List.mem_singleton] at hx
    subst hx
    rcases h with h | h
    · have := congrArg List.length h
      simp at this
    · exact absurd h.1 (by decide)⟩

/-! ## The command line -/

/-- the words of a list of pairs -/
def flatPairs (ps : List (Txt × Txt)) : List Txt := ps.flatMap fun p => [p.1, p.2]

theorem cmdOpt_isSome (o : Opts) (name v : Txt) : (cmdOpt o name v).isSome = true ↔ name ∈ cmdNames := by
  simp only [cmdNames, List.mem_cons, List.not_mem_nil, or_false]
  unfold cmdOpt
  repeat' split
  all_goals simp_all

theorem cmdLoop_pairs (ps : List (Txt × Txt)) (rest : List Txt) (o : Opts) (h : ∀ p ∈ ps, p.1 ∈ cmdNames) :
    ∃ o', cmdLoop (flatPairs ps ++ rest) o = cmdLoop rest o' := by
  induction ps generalizing o with
  | nil => exact ⟨o, rfl⟩
  | cons p ps ih =>
    obtain ⟨o1, h1⟩ := Option.isSome_iff_exists.mp ((cmdOpt_isSome o p.1 p.2).mpr (h p (by simp)))
    obtain ⟨o', e⟩ := ih o1 (fun x hx => h x (by simp [hx]))
    refine ⟨o', ?_⟩
    show cmdLoop (p.1 :: p.2 :: (flatPairs ps ++ rest)) o = _
    rw [cmdLoop.eq_def]
    simp only [h1, e]

/-- every command line is a list of legal options with values, then nothing, a legal option alone at the end
or an illegal option -/
theorem args_split (args : List Txt) : ∃ ps rest, args = flatPairs ps ++ rest ∧ (∀ p ∈ ps, p.1 ∈ cmdNames) ∧
    (rest = [] ∨ (∃ n, rest = [n] ∧ n ∈ cmdNames) ∨ ∃ n r, rest = n :: r ∧ n ∉ cmdNames) := by
  match args with
  | [] => exact ⟨[], [], rfl, by simp, Or.inl rfl⟩
  | [n] =>
    by_cases h : n ∈ cmdNames
    · exact ⟨[], [n], rfl, by simp, Or.inr (Or.inl ⟨n, rfl, h⟩)⟩
    · exact ⟨[], [n], rfl, by simp, Or.inr (Or.inr ⟨n, [], rfl, h⟩)⟩
  | n :: v :: rest =>
    by_cases h : n ∈ cmdNames
    · obtain ⟨ps, r, e, h1, h2⟩ := args_split rest
      refine ⟨(n, v) :: ps, r, by rw [e]; rfl, ?_, h2⟩
      intro p hp
      rcases List.mem_cons.mp hp with rfl | hp
      · exact h
      · exact h1 p hp
    · exact ⟨[], n :: v :: rest, rfl, by simp, Or.inr (Or.inr ⟨n, _, rfl, h⟩)⟩

theorem cmdLoop_illegal (n : Txt) (r : List Txt) (o : Opts) (h : n ∉ cmdNames) : cmdLoop (n :: r) o = .exit2 := by
  have hn : ∀ v, cmdOpt o n v = none := by
    intro v
    rw [← Option.not_isSome_iff_eq_none, cmdOpt_isSome]; exact h
  cases r with
  | nil => rw [cmdLoop.eq_def]; simp [hn]
  | cons v r => rw [cmdLoop.eq_def]; simp [hn]

theorem cmdLoop_alone (n : Txt) (o : Opts) (h : n ∈ cmdNames) : cmdLoop [n] o = .crash := by
  rw [cmdLoop.eq_def]; simp [(cmdOpt_isSome o n []).mpr h]

theorem mainStart_two {files : Txt → Option Txt} {d : Opts} {args : List Txt} (h : 2 ≤ args.length) : mainStart files d args = cmdLoop args d := by
  match args with
  | [] => simp at h
  | [a] => simp at h
  | a :: b :: r => rfl

/-- With two or more words the router is started exactly if they are legal options, each with a value. -/
theorem c168_starts (files : Txt → Option Txt) (d : Opts) {args : List Txt} (h : 2 ≤ args.length) :
    (∃ o, mainStart files d args = .run o) ↔
      ∃ ps : List (Txt × Txt), args = ps.flatMap (fun p => [p.1, p.2]) ∧ ∀ p ∈ ps, p.1 ∈ cmdNames := by
  rw [mainStart_two h]
  constructor
  · rintro ⟨o, ho⟩
    obtain ⟨ps, rest, e, h1, h2⟩ := args_split args
    rcases h2 with rfl | ⟨n, rfl, hn⟩ | ⟨n, r, rfl, hn⟩
    · exact ⟨ps, by rw [e, List.append_nil]; rfl, h1⟩
    · obtain ⟨o', e'⟩ := cmdLoop_pairs ps [n] d h1
      rw [e, e', cmdLoop_alone n o' hn] at ho; cases ho
    · obtain ⟨o', e'⟩ := cmdLoop_pairs ps (n :: r) d h1
      rw [e, e', cmdLoop_illegal n r o' hn] at ho; cases ho
  · rintro ⟨ps, rfl, h1⟩
    obtain ⟨o', e'⟩ := cmdLoop_pairs ps [] d h1
    rw [List.append_nil] at e'
    exact ⟨o', e'⟩

/-- With two or more words the program ends with an error exactly if a word where an option is due is not a
legal option. It crashes exactly if the last word is a legal option without its value. -/
theorem c168_mistakes (files : Txt → Option Txt) (d : Opts) {args : List Txt} (h : 2 ≤ args.length) :
    (mainStart files d args = .exit2 ↔ ∃ (ps : List (Txt × Txt)) (name : Txt) (rest : List Txt),
      args = ps.flatMap (fun p => [p.1, p.2]) ++ name :: rest ∧ (∀ p ∈ ps, p.1 ∈ cmdNames) ∧ name ∉ cmdNames) ∧
    (mainStart files d args = .crash ↔ ∃ (ps : List (Txt × Txt)) (name : Txt),
      args = ps.flatMap (fun p => [p.1, p.2]) ++ [name] ∧ (∀ p ∈ ps, p.1 ∈ cmdNames) ∧ name ∈ cmdNames) := by
  rw [mainStart_two h]
  have back1 : ∀ (ps : List (Txt × Txt)) name rest, (∀ p ∈ ps, p.1 ∈ cmdNames) → name ∉ cmdNames →
      cmdLoop (flatPairs ps ++ name :: rest) d = .exit2 := by
    intro ps name rest h1 hn
    obtain ⟨o', e'⟩ := cmdLoop_pairs ps (name :: rest) d h1
    rw [e', cmdLoop_illegal name rest o' hn]
  have back2 : ∀ (ps : List (Txt × Txt)) name, (∀ p ∈ ps, p.1 ∈ cmdNames) → name ∈ cmdNames →
      cmdLoop (flatPairs ps ++ [name]) d = .crash := by
    intro ps name h1 hn
    obtain ⟨o', e'⟩ := cmdLoop_pairs ps [name] d h1
    rw [e', cmdLoop_alone name o' hn]
  obtain ⟨ps, rest, e, h1, h2⟩ := args_split args
  constructor
  · constructor
    · intro ho
      rcases h2 with rfl | ⟨n, rfl, hn⟩ | ⟨n, r, rfl, hn⟩
      · obtain ⟨o', e'⟩ := cmdLoop_pairs ps [] d h1
        rw [e, e', cmdLoop.eq_def] at ho; cases ho
      · rw [e, back2 ps n h1 hn] at ho; cases ho
      · exact ⟨ps, n, r, e, h1, hn⟩
    · rintro ⟨ps, n, r, rfl, h1, hn⟩
      exact back1 ps n r h1 hn
  · constructor
    · intro ho
      rcases h2 with rfl | ⟨n, rfl, hn⟩ | ⟨n, r, rfl, hn⟩
      · obtain ⟨o', e'⟩ := cmdLoop_pairs ps [] d h1
        rw [e, e', cmdLoop.eq_def] at ho; cases ho
      · exact ⟨ps, n, e, h1, hn⟩
      · rw [e, back1 ps n r h1 hn] at ho; cases ho
    · rintro ⟨ps, n, rfl, h1, hn⟩
      exact back2 ps n h1 hn

theorem cmd_field {α : Type} {name : Txt} (F : Opts → α) (val : Txt → Option α)
    (hs : ∀ o v n o', cmdOpt o n v = some o' → F o' = if n = name then (val v).getD (F o) else F o) :
    ∀ (ps : List (Txt × Txt)) (d o : Opts), cmdLoop (flatPairs ps) d = .run o →
      (∀ a v b x, ps = a ++ (name, v) :: b → val v = some x → (∀ p ∈ b, p.1 = name → val p.2 = none) → F o = x) ∧
      ((∀ p ∈ ps, p.1 = name → val p.2 = none) → F o = F d) := by
  intro ps
  induction ps with
  | nil =>
    intro d o h
    simp [flatPairs, cmdLoop.eq_def] at h
    subst h
    exact ⟨fun a v b x e => by simp at e, fun _ => rfl⟩
  | cons p ps ih =>
    intro d o h
    have h' : cmdLoop (p.1 :: p.2 :: flatPairs ps) d = .run o := h
    rw [cmdLoop.eq_def] at h'
    simp only at h'
    generalize hc : cmdOpt d p.1 p.2 = r at h'
    cases r with
    | none => cases h'
    | some d1 =>
      simp only at h'
      obtain ⟨i1, i2⟩ := ih d1 o h'
      have hF := hs d p.2 p.1 d1 hc
      constructor
      · intro a v b x e hv hb
        cases a with
        | nil =>
          simp at e
          obtain ⟨e1, rfl⟩ := e
          rw [i2 hb, hF, e1]
          simp [hv]
        | cons q a =>
          simp at e
          exact i1 a v b x e.2 hv hb
      · intro hall
        rw [i2 (fun q hq => hall q (by simp [hq])), hF]
        split
        · rename_i hn
          rw [hall p (by simp) hn]; rfl
        · rfl

theorem threadsOpt (o : Opts) (v n : Txt) (o' : Opts) (h : cmdOpt o n v = some o') :
    o'.threads = if n = "-threads".toList then (leadInt v).getD o.threads else o.threads := by
  unfold cmdOpt at h
  repeat' split at h
  all_goals first | (cases h; done) | (cases h; subst_vars; rfl)

/-- the settings that no option changes -/
def restOpts (o : Opts) : Opts :=
  { o with lef := [], def_ := [], ref := [], guide := [], out := [], verbose := 0, threads := 0 }

theorem restOpts_cmd {o : Opts} {n v : Txt} {o' : Opts} (h : cmdOpt o n v = some o') : restOpts o' = restOpts o := by
  unfold cmdOpt at h
  repeat' split at h
  all_goals first | (cases h; done) | (cases h; rfl)

/-- Every option has the value of its last use, or keeps its default; the number of threads has the last
value that begins with a number. Nothing else can be set from the command line. -/
theorem c168_values (files : Txt → Option Txt) (d o : Opts) (ps : List (Txt × Txt)) (hne : ps ≠ [])
    (h : mainStart files d (ps.flatMap fun p => [p.1, p.2]) = .run o) :
    (∀ nf ∈ cmdTexts, (∀ v, LastPair nf.1 v ps → nf.2 o = v) ∧ (NoPair nf.1 ps → nf.2 o = nf.2 d)) ∧
    (∀ v, LastPair "-verbose".toList v ps → o.verbose = atoi v) ∧ (NoPair "-verbose".toList ps → o.verbose = d.verbose) ∧
    (∀ a v b x, ps = a ++ ("-threads".toList, v) :: b → leadInt v = some x → (∀ p ∈ b, p.1 = "-threads".toList → leadInt p.2 = none) →
      o.threads = x) ∧
    ((∀ p ∈ ps, p.1 = "-threads".toList → leadInt p.2 = none) → o.threads = d.threads) ∧
    o = { d with lef := o.lef, def_ := o.def_, ref := o.ref, guide := o.guide, out := o.out, verbose := o.verbose, threads := o.threads } := by
  rw [mainStart_two (by cases ps with
    | nil => exact absurd rfl hne
    | cons p ps => simp)] at h
  have gen : ∀ {α : Type} (name : Txt) (F : Opts → α) (val : Txt → α),
      (∀ o v n o', cmdOpt o n v = some o' → F o' = if n = name then val v else F o) →
      (∀ v, LastPair name v ps → F o = val v) ∧ (NoPair name ps → F o = F d) := by
    intro α name F val hs
    obtain ⟨g1, g2⟩ := cmd_field (name := name) F (fun v => some (val v)) (by simpa using hs) ps d o h
    exact ⟨fun v ⟨a, b, e, hb⟩ => g1 a v b (val v) e rfl (fun p hp hn => absurd hn (hb p hp)), fun hn => g2 (fun p hp e => absurd e (hn p hp))⟩
  have one : ∀ {α : Type} (name : Txt) (F : Opts → α) (val : Txt → α) (o : Opts) (v n : Txt) (o' : Opts), cmdOpt o n v = some o' →
      ((n = "-lef".toList → F { o with lef := v } = if n = name then val v else F o) ∧
       (n = "-def".toList → F { o with def_ := v, ref := v } = if n = name then val v else F o) ∧
       (n = "-guide".toList → F { o with guide := v } = if n = name then val v else F o) ∧
       (n = "-threads".toList → F { o with threads := (leadInt v).getD o.threads } = if n = name then val v else F o) ∧
       (n = "-output".toList → F { o with out := v } = if n = name then val v else F o) ∧
       (n = "-verbose".toList → F { o with verbose := atoi v } = if n = name then val v else F o)) →
      F o' = if n = name then val v else F o := by
    intro α name F val o v n o' hc ⟨h1, h2, h3, h4, h5, h6⟩
    unfold cmdOpt at hc
    repeat' split at hc
    · cases hc; exact h1 ‹_›
    · cases hc; exact h2 ‹_›
    · cases hc; exact h3 ‹_›
    · cases hc; exact h4 ‹_›
    · cases hc; exact h5 ‹_›
    · cases hc; exact h6 ‹_›
    · cases hc
  refine ⟨?_, ?_, ?_, ?_, ?_, ?_⟩
  · intro nf hn
    simp only [cmdTexts, List.mem_cons, List.not_mem_nil, or_false] at hn
    rcases hn with rfl | rfl | rfl | rfl | rfl
    all_goals
      refine gen _ _ id (fun o v n o' hc => one _ _ id o v n o' hc ?_)
      refine ⟨?_, ?_, ?_, ?_, ?_, ?_⟩ <;> (rintro rfl; rfl)
  · exact (gen _ Opts.verbose atoi (fun o v n o' hc => one _ _ atoi o v n o' hc (by
      refine ⟨?_, ?_, ?_, ?_, ?_, ?_⟩ <;> (rintro rfl; rfl)))).1
  · exact (gen _ Opts.verbose atoi (fun o v n o' hc => one _ _ atoi o v n o' hc (by
      refine ⟨?_, ?_, ?_, ?_, ?_, ?_⟩ <;> (rintro rfl; rfl)))).2
  · exact (cmd_field (name := "-threads".toList) Opts.threads leadInt threadsOpt ps d o h).1
  · exact (cmd_field (name := "-threads".toList) Opts.threads leadInt threadsOpt ps d o h).2
  · have := (cmd_field (name := []) restOpts (fun _ => none) (fun o v n o' hc => by
      simp [restOpts_cmd hc]) ps d o h).2 (fun _ _ _ => rfl)
    unfold restOpts at this
    cases o; cases d
    simpa using this

example : mainStart (fun _ => none) exOpts ["-lef".toList, "a".toList, "-threads".toList, "x".toList, "-lef".toList, "b".toList] =
    .run { exOpts with lef := "b".toList } := rfl
/-- nothing has to be given: the router runs without any file -/
example : mainStart (fun _ => none) exOpts ["-verbose".toList, "0".toList] = .run { exOpts with verbose := 0 } := by decide +kernel
/-- an option alone is taken for a parameter file -/
example : mainStart (fun _ => none) exOpts ["-lef".toList] = .exit2 := rfl
example : mainStart (fun _ => none) exOpts ["-lef".toList, "a".toList, "-def".toList] = .crash := by decide +kernel

/-- Without arguments the program ends with an error. -/
theorem c168_none (files : Txt → Option Txt) (d : Opts) : mainStart files d [] = .exit2 := rfl

/-- With one argument, the name of a file: the router is started if the file can be opened and at least five of its lines
give a value to a parameter, with the parameters of the file; otherwise the program ends with an error. -/
theorem c169_start (files : Txt → Option Txt) (d : Opts) (a : Txt) :
    (∀ t, files a = some t → AtLeast 5 parCounted (linesOf t []) → mainStart files d [a] = .run (readParams d (some t)).1) ∧
    ((∀ t, files a = some t → ¬ AtLeast 5 parCounted (linesOf t [])) → mainStart files d [a] = .exit2) := by
  constructor
  · intro t ht h
    have := (c169_accepted d (files a)).2 ⟨t, ht, h⟩
    rw [ht] at this
    simp only [mainStart, ht, this, if_true]
  · intro h
    have : ¬ (readParams d (files a)).2 = true := by
      rw [c169_accepted]
      rintro ⟨t, ht, hh⟩
      exact h t ht hh
    simp only [mainStart, this]
    rfl

end TR
