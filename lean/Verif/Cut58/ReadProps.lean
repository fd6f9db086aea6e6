import Verif.Cut58.ReadSpec
import Verif.Cut58.Spec
/-! # C156: reading LEF58 cut rules -/
namespace TR

/-! ### words between rules -/

/-- the words that the splitting into rules looks at -/
def major58 : List String := ["MAXXY", "LAYER", "ADJACENTCUTS", "PARALLELOVERLAP", "PARALLELWITHIN", "SAMEMETALSHAREDEDGE", "AREA"]

theorem fromSpacing_quiet : ∀ (ts buf : List LTok), (∀ x ∈ ts, x.text ≠ "SPACING") → fromSpacing ts buf = buf ++ ts
  | [], buf, _ => by simp [fromSpacing]
  | t :: ts, buf, h => by
    unfold fromSpacing
    rw [if_neg (h t (List.mem_cons_self ..)), fromSpacing_quiet ts _ (fun x hx => h x (List.mem_cons_of_mem _ hx))]
    simp

theorem cutKeyword_quiet : ∀ (ts : List LTok) (k : String), (∀ x ∈ ts, x.text ≠ "SPACING" ∧ x.text ∉ major58 ∧ (k = "" → x.text ≠ "SAMEMASK")) → cutKeyword ts k = k
  | [], _, _ => rfl
  | t :: ts, k, h => by
    obtain ⟨h1, h2, h3⟩ := h t (List.mem_cons_self ..)
    unfold major58 at h2
    unfold cutKeyword
    rw [if_neg h1, if_neg (fun hh => h3 hh.1 hh.2), if_neg h2]
    exact cutKeyword_quiet ts k (fun x hx => h x (List.mem_cons_of_mem _ hx))

theorem cutKeyword_append : ∀ (a b : List LTok) (k : String), cutKeyword (a ++ b) k = cutKeyword b (cutKeyword a k)
  | [], _, _ => rfl
  | t :: ts, b, k => by
    rw [List.cons_append]
    conv => lhs; unfold cutKeyword
    conv => rhs; arg 2; unfold cutKeyword
    exact cutKeyword_append ts b _

theorem readSpacing_body (cls : String → Int) : ∀ (body rest buf : List LTok), (∀ x ∈ body, x.text ≠ "SPACING" ∧ x.text ≠ ";") →
    readSpacing cls (body ++ rest) buf = readSpacing cls rest (buf ++ body)
  | [], _, _, _ => by simp
  | t :: ts, rest, buf, h => by
    obtain ⟨h1, h2⟩ := h t (List.mem_cons_self ..)
    rw [List.cons_append]
    conv => lhs; unfold readSpacing
    rw [if_neg h1, if_neg h2, readSpacing_body cls ts rest _ (fun x hx => h x (List.mem_cons_of_mem _ hx))]
    simp

theorem readSpacing_rule (cls : String → Int) (body rest buf : List LTok) (h : ∀ x ∈ body, x.text ≠ "SPACING" ∧ x.text ≠ ";") (r : Option R58)
    (hr : cutSpacingRule cls (kw "SPACING" :: body ++ [kw ";"]) = some r) :
    readSpacing cls (kw "SPACING" :: body ++ [kw ";"] ++ rest) buf = (readSpacing cls rest (kw "SPACING" :: body ++ [kw ";"])).map (r.toList ++ ·) := by
  have e : kw "SPACING" :: body ++ [kw ";"] ++ rest = kw "SPACING" :: (body ++ (kw ";" :: rest)) := by simp
  rw [e]
  conv => lhs; unfold readSpacing
  rw [if_pos (show (kw "SPACING").text = "SPACING" from rfl), readSpacing_body cls body _ _ h]
  conv => lhs; unfold readSpacing
  rw [if_neg (by simp [kw]), if_pos (show (kw ";").text = ";" from rfl)]
  have e2 : [kw "SPACING"] ++ body ++ [kw ";"] = kw "SPACING" :: body ++ [kw ";"] := by simp
  rw [e2, hr]

/-! ### the words of a rule -/

def keys58 : List String :=
  ["CENTERTOCENTER", "SAMENET", "SAMEMETAL", "SAMEVIA", "EXACTALIGNED", "TWOCUTS", "TWOCUTSSPACING", "SAMECUT", "WITHIN", "EXCEPTSAMEPGNET", "EXCEPTALLWITHIN", "ENCLOSURE", "ABOVE",
   "BELOW", "CUTCLASS", "TO", "ALL", "NOPRL", "SIDEPARALLELOVERLAP", "STACK", "ORTHOGONALSPACING", "SHORTEDGEONLY", "PRL", "CONCAVECORNER", "WIDTH", "PARALLEL",
   "EDGELENGTH", "EXTENSION", "NONEOLCONVEXCORNER", "MINLENGTH", "ABOVEWIDTH", "MASKOVERLAP", "WRONGDIRECTION"]

theorem mem_optKw {x : LTok} {b : Bool} {s : String} (h : x ∈ optKw b s) : x.text = s := by
  cases b <;> simp [optKw] at h
  subst h; rfl

theorem mem_optNum {x : LTok} {o : Option Num58} {s : String} (h : x ∈ optNum s o) : x.text = s ∨ x.text ∈ (o.map (·.text)).toList := by
  cases o <;> simp [optNum] at h
  rcases h with rfl | rfl
  · exact .inl rfl
  · exact .inr (by simp [Num58.tok])

theorem mem_same {x : LTok} {s : Same58} (h : x ∈ s.toks) : x.text ∈ ["SAMENET", "SAMEMETAL", "SAMEVIA"] := by
  cases s <;> simp [Same58.toks] at h <;> subst h <;> simp [kw]

theorem mem_side {x : LTok} {s : Side58} (h : x ∈ s.toks) : x.text ∈ ["ABOVE", "BELOW"] := by
  cases s <;> simp [Side58.toks] at h <;> subst h <;> simp [kw]

theorem mem_par {x : LTok} {s : Par58} (h : x ∈ s.toks) : x.text ∈ ["NOPRL", "SIDEPARALLELOVERLAP"] := by
  cases s <;> simp [Par58.toks] at h <;> subst h <;> simp [kw]

/-- words of a rule: before ADJACENTCUTS, and after it -/
theorem adj_words (a : Adj58) : ∃ pre post, a.body = pre ++ kw "ADJACENTCUTS" :: post ∧
    (∀ x ∈ pre, x.text ∈ keys58 ∨ x.text ∈ a.words) ∧ (∀ x ∈ post, x.text ∈ keys58 ∨ x.text = "SAMEMASK" ∨ x.text ∈ a.words) := by
  refine ⟨[a.spacing.tok] ++ optKw a.c2c "CENTERTOCENTER" ++ a.same.toks, [a.cuts.tok] ++ optNum "EXACTALIGNED" a.exact ++ a.twoToks ++
    [kw "WITHIN", a.within.tok] ++ optKw a.pg "EXCEPTSAMEPGNET" ++ optNum "EXCEPTALLWITHIN" a.allWithin ++ a.encToks ++ a.clsToks ++ a.tailToks, ?_, ?_, ?_⟩
  · simp [Adj58.body]
  · intro x hx
    simp only [List.mem_append, List.mem_singleton] at hx
    rcases hx with (rfl | hx) | hx
    · exact .inr (by simp [Adj58.words, Num58.tok])
    · exact .inl (by rw [mem_optKw hx]; decide)
    · have := mem_same hx
      exact .inl (by revert this; generalize x.text = w; intro this; simp only [List.mem_cons, List.not_mem_nil, or_false] at this; rcases this with rfl | rfl | rfl <;> decide)
  · intro x hx
    simp only [List.mem_append, List.mem_cons, List.not_mem_nil, or_false] at hx
    rcases hx with (((((((rfl | hx) | hx) | (rfl | rfl)) | hx) | hx) | hx) | hx) | hx
    · exact .inr (.inr (by simp [Adj58.words, Num58.tok]))
    · rcases mem_optNum hx with h | h
      · exact .inl (by rw [h]; decide)
      · exact .inr (.inr (by simp only [Adj58.words, List.mem_append]; simp [h]))
    · unfold Adj58.twoToks at hx
      split at hx
      · cases hx
      · rename_i n spc cut ht
        simp only [List.mem_append, List.mem_cons, List.not_mem_nil, or_false] at hx
        rcases hx with ((rfl | rfl) | hx) | hx
        · exact .inl (by simp only [kw]; decide)
        · exact .inr (.inr (by simp [Adj58.words, ht, Num58.tok]))
        · rcases mem_optNum hx with h | h
          · exact .inl (by rw [h]; decide)
          · exact .inr (.inr (by simp only [Adj58.words, List.mem_append, ht, Option.bind_some]; simp [h]))
        · exact .inl (by rw [mem_optKw hx]; decide)
    · exact .inl (by simp only [kw]; decide)
    · exact .inr (.inr (by simp [Adj58.words, Num58.tok]))
    · exact .inl (by rw [mem_optKw hx]; decide)
    · rcases mem_optNum hx with h | h
      · exact .inl (by rw [h]; decide)
      · exact .inr (.inr (by simp only [Adj58.words, List.mem_append]; simp [h]))
    · unfold Adj58.encToks at hx
      split at hx
      · cases hx
      · rename_i s n ht
        simp only [List.mem_append, List.mem_cons, List.not_mem_nil, or_false] at hx
        rcases hx with (rfl | hx) | rfl
        · exact .inl (by simp only [kw]; decide)
        · have := mem_side hx
          exact .inl (by revert this; generalize x.text = w; intro this; simp only [List.mem_cons, List.not_mem_nil, or_false] at this; rcases this with rfl | rfl <;> decide)
        · exact .inr (.inr (by simp [Adj58.words, ht, Num58.tok]))
    · unfold Adj58.clsToks at hx
      split at hx
      · cases hx
      · rename_i n all ht
        simp only [List.mem_append, List.mem_cons, List.not_mem_nil, or_false] at hx
        rcases hx with (rfl | rfl) | hx
        · exact .inl (by simp only [kw]; decide)
        · exact .inr (.inr (by simp [Adj58.words, ht]))
        · split at hx
          · simp only [List.mem_cons, List.not_mem_nil, or_false] at hx
            rcases hx with rfl | rfl <;> exact .inl (by simp only [kw]; decide)
          · cases hx
    · unfold Adj58.tailToks at hx
      rcases List.mem_append.1 hx with hx | hx
      · have := mem_par hx
        exact .inl (by revert this; generalize x.text = w; intro this; simp only [List.mem_cons, List.not_mem_nil, or_false] at this; rcases this with rfl | rfl <;> decide)
      · exact .inr (.inl (mem_optKw hx))

theorem quiet58 {w : String} (h : w ∈ keys58 ∨ w ∉ reserved58) : w ≠ "SPACING" ∧ w ≠ ";" ∧ w ∉ major58 ∧ w ≠ "SAMEMASK" := by
  rcases h with h | h
  · revert h
    unfold keys58
    intro h
    simp only [List.mem_cons, List.not_mem_nil, or_false] at h
    repeat' (rcases h with rfl | h)
    all_goals first | decide | (subst h; decide)
  · refine ⟨?_, ?_, ?_, ?_⟩
    · rintro rfl; exact h (by decide)
    · rintro rfl; exact h (by decide)
    · intro hm
      simp only [major58, List.mem_cons, List.not_mem_nil, or_false] at hm
      rcases hm with rfl | rfl | rfl | rfl | rfl | rfl | rfl <;> exact h (by decide)
    · rintro rfl; exact h (by decide)

/-! ### clauses -/

section clauses
variable (cls : String → Int)

theorem step_noPrl (ts : List LTok) (c : L58Rule) (sk : Bool) : adjInner cls (kw "NOPRL" :: ts) false c sk = adjInner cls ts false { c with noPrl := true } sk := by
  rw [adjInner.eq_def]; simp [kw]

theorem step_side (ts : List LTok) (c : L58Rule) (sk : Bool) : adjInner cls (kw "SIDEPARALLELOVERLAP" :: ts) false c sk = adjInner cls ts false { c with sidePar := true } sk := by
  rw [adjInner.eq_def]; simp [kw]

theorem step_mask (ts : List LTok) (c : L58Rule) (sk : Bool) : adjInner cls (kw "SAMEMASK" :: ts) false c sk = adjInner cls ts false { c with sameMask := true } sk := by
  rw [adjInner.eq_def]; simp [kw]

theorem step_end (c : L58Rule) (sk : Bool) : adjInner cls [kw ";"] false c sk = some (c, true) := by
  rw [adjInner.eq_def]; simp only [kw]
  simp
  rw [adjInner.eq_def]; simp

theorem inner_exact (o : Option Num58) (rest : List LTok) (c : L58Rule) (sk : Bool) :
    adjInner cls (optNum "EXACTALIGNED" o ++ rest) false c sk = adjInner cls rest false { c with exactAligned := (o.map (·.int)).getD c.exactAligned } sk := by
  cases o
  · simp [optNum]
  · simp only [optNum, List.cons_append, List.nil_append]
    rw [adjInner.eq_def]
    simp [kw, Num58.tok]

theorem inner_allWithin (o : Option Num58) (rest : List LTok) (c : L58Rule) (sk : Bool) :
    adjInner cls (optNum "EXCEPTALLWITHIN" o ++ rest) false c sk = adjInner cls rest false { c with exceptAll := (o.map (·.dbu)).getD c.exceptAll } sk := by
  cases o
  · simp [optNum]
  · simp only [optNum, List.cons_append, List.nil_append]
    rw [adjInner.eq_def]
    simp [kw, Num58.tok]

theorem inner_within (n : Num58) (rest : List LTok) (c : L58Rule) (sk : Bool) :
    adjInner cls ([kw "WITHIN", n.tok] ++ rest) false c sk = adjInner cls rest false { c with within := n.dbu } sk := by
  simp only [List.cons_append, List.nil_append]
  rw [adjInner.eq_def]
  simp [kw, Num58.tok]

theorem inner_pg (b : Bool) (rest : List LTok) (c : L58Rule) (sk : Bool) :
    adjInner cls (optKw b "EXCEPTSAMEPGNET" ++ rest) false c sk = adjInner cls rest false { c with exceptPG := b || c.exceptPG } sk := by
  cases b
  · simp [optKw]
  · simp only [optKw, if_true, List.cons_append, List.nil_append]
    rw [adjInner.eq_def]
    simp [kw]

theorem inner_enc (a : Adj58) (h : ∀ w ∈ a.words, w ∉ reserved58) (rest : List LTok) (c : L58Rule) (sk : Bool) :
    adjInner cls (a.encToks ++ rest) false c sk = adjInner cls rest false { c with enclosure := (a.enc.map (·.2.dbu)).getD c.enclosure } sk := by
  unfold Adj58.encToks
  cases he : a.enc with
  | none => simp
  | some p =>
    obtain ⟨s, n⟩ := p
    have hn : n.text ∉ reserved58 := h _ (by simp [Adj58.words, he])
    have h1 : n.text ≠ "ABOVE" := by rintro e; exact hn (by rw [e]; decide)
    have h2 : n.text ≠ "BELOW" := by rintro e; exact hn (by rw [e]; decide)
    cases s <;> simp only [Side58.toks, List.cons_append, List.nil_append, List.append_nil] <;> rw [adjInner.eq_def] <;> simp [kw, Num58.tok, h1, h2]

theorem inner_two_exit (t : LTok) (ts : List LTok) (c : L58Rule) (sk : Bool) (h1 : t.text ≠ "TWOCUTSSPACING") (h2 : t.text ≠ "SAMECUT") :
    adjInner cls (t :: ts) true c sk = adjInner cls (t :: ts) false c sk := by
  rw [adjInner.eq_def cls (t :: ts) true, adjInner.eq_def cls (t :: ts) false]
  simp only [h1, h2, and_false, if_false, Bool.false_eq_true, false_and]

theorem inner_two (a : Adj58) (t : LTok) (rest : List LTok) (h1 : t.text ≠ "TWOCUTSSPACING") (h2 : t.text ≠ "SAMECUT") (c : L58Rule) (sk : Bool) :
    adjInner cls (a.twoToks ++ (t :: rest)) false c sk = adjInner cls (t :: rest) false { c with twoCuts := (a.two.map (·.1.int)).getD c.twoCuts } sk := by
  unfold Adj58.twoToks
  cases a.two with
  | none => simp
  | some p =>
    obtain ⟨n, spc, cut⟩ := p
    have e1 : ∀ (ts : List LTok), adjInner cls (kw "TWOCUTS" :: n.tok :: ts) false c sk = adjInner cls ts true { c with twoCuts := n.int } sk := by
      intro ts
      rw [adjInner.eq_def]
      simp [kw, Num58.tok]
    have e2 : ∀ (m : Num58) (ts : List LTok) (c : L58Rule), adjInner cls (kw "TWOCUTSSPACING" :: m.tok :: ts) true c sk = adjInner cls ts true c sk := by
      intro m ts c
      rw [adjInner.eq_def]
      simp [kw, Num58.tok]
    have e3 : ∀ (ts : List LTok) (c : L58Rule), adjInner cls (kw "SAMECUT" :: ts) true c sk = adjInner cls ts true c sk := by
      intro ts c
      rw [adjInner.eq_def]
      simp [kw]
    cases spc <;> cases cut <;> simp [optNum, optKw, e1, e2, e3, inner_two_exit cls t rest _ sk h1 h2]

/-- the clauses after the class -/
theorem inner_tail (a : Adj58) (c : L58Rule) (sk : Bool) : ∃ c', adjInner cls (a.tailToks ++ [kw ";"]) false c sk = some (c', true) := by
  unfold Adj58.tailToks
  cases a.par <;> cases a.mask <;> simp [Par58.toks, optKw, step_noPrl, step_side, step_mask, step_end]

/-- the class and what follows -/
theorem inner_cls (a : Adj58) (c : L58Rule) :
    (∀ k, a.Kept cls k → adjInner cls (a.clsToks ++ (a.tailToks ++ [kw ";"])) false c false = some ({ c with cls := k }, false)) ∧
    ((¬ ∃ k, a.Kept cls k) → ∃ c', adjInner cls (a.clsToks ++ (a.tailToks ++ [kw ";"])) false c false = some (c', true)) := by
  constructor
  · rintro k ⟨n, h1, h2, h3, h4, h5⟩
    simp only [Adj58.clsToks, Adj58.tailToks, h1, h2, h3, Par58.toks, optKw, List.cons_append, List.nil_append, Bool.false_eq_true, if_false]
    rw [adjInner.eq_def]
    simp [kw, h4, h5]
  · intro hk
    unfold Adj58.clsToks
    cases hcl : a.cls with
    | none =>
      simp only [List.nil_append]
      exact inner_tail cls a c false
    | some p =>
      obtain ⟨n, all⟩ := p
      cases all with
      | true =>
        have e : ∀ ts, adjInner cls (kw "CUTCLASS" :: ⟨n, none⟩ :: kw "TO" :: kw "ALL" :: ts) false c false =
            adjInner cls ts false { (if cls n ≠ -1 then { c with cls := cls n } else c) with toAll := true } (if cls n ≠ -1 then false else true) := by
          intro ts
          rw [adjInner.eq_def]
          simp [kw, toAllNext]
          intro h
          omega
        simp only [if_true, List.cons_append, List.nil_append]
        rw [e]
        exact inner_tail cls a _ _
      | false =>
        simp only [Bool.false_eq_true, if_false, List.append_nil, List.cons_append, List.nil_append]
        by_cases ht : a.tailToks = []
        · have hp : a.par = .none ∧ a.mask = false := by
            revert ht
            unfold Adj58.tailToks
            cases a.par <;> cases a.mask <;> simp [Par58.toks, optKw]
          have : cls n = -1 := Classical.byContradiction fun h => hk ⟨cls n, n, hcl, hp.1, hp.2, rfl, h⟩
          rw [ht, adjInner.eq_def]
          simp [kw, this]
        · have e : adjInner cls (kw "CUTCLASS" :: ⟨n, none⟩ :: (a.tailToks ++ [kw ";"])) false c false =
              adjInner cls (a.tailToks ++ [kw ";"]) false (if cls n ≠ -1 then { c with cls := cls n } else c) (if cls n ≠ -1 then false else true) := by
            have h1 : ¬ (a.tailToks ++ [kw ";"]).length < 2 := by
              have : 0 < a.tailToks.length := List.length_pos_iff.2 ht
              simp only [List.length_append, List.length_singleton]; omega
            have h2 : toAllNext (a.tailToks ++ [kw ";"]) = false := by
              unfold Adj58.tailToks
              cases a.par <;> cases a.mask <;> simp [Par58.toks, optKw, kw, toAllNext]
            rw [adjInner.eq_def]
            simp only [h1, h2, if_false]
            simp [kw]
          rw [e]
          exact inner_tail cls a _ _

theorem outer_word (w : String) (ts : List LTok) (c c' : L58Rule) (sk : Bool) (h1 : w ≠ "SPACING") (h2 : headWord w c = some c') :
    adjOuter cls (kw w :: ts) c sk = adjOuter cls ts c' sk := by
  rw [adjOuter.eq_def]
  simp [kw, h1, h2]

/-- the words before ADJACENTCUTS and LAYER -/
theorem outer_head (a : Num58) (c2c : Bool) (same : Same58) (rest : List LTok) :
    adjOuter cls (kw "SPACING" :: ([a.tok] ++ optKw c2c "CENTERTOCENTER" ++ same.toks ++ rest)) {} false =
    adjOuter cls rest { spacing := a.dbu, c2c := c2c, sameNet := same = .net, sameMetal := same = .metal, sameVia := same = .via } false := by
  have e1 : ∀ ts c, adjOuter cls (kw "SPACING" :: a.tok :: ts) c false = adjOuter cls ts { c with spacing := a.dbu } false := by
    intro ts c
    rw [adjOuter.eq_def]
    simp [kw, Num58.tok]
  have e2 : ∀ ts c, adjOuter cls (optKw c2c "CENTERTOCENTER" ++ ts) c false = adjOuter cls ts { c with c2c := c2c || c.c2c } false := by
    intro ts c
    cases c2c
    · simp [optKw]
    · simp only [optKw, if_true, List.cons_append, List.nil_append]
      exact outer_word cls _ _ _ _ _ (by simp) (by simp [headWord])
  have e3 : ∀ ts c, adjOuter cls (same.toks ++ ts) c false =
      adjOuter cls ts { c with sameNet := same = .net || c.sameNet, sameMetal := same = .metal || c.sameMetal, sameVia := same = .via || c.sameVia } false := by
    intro ts c
    cases same
    · simp [Same58.toks]
    · simp only [Same58.toks, List.cons_append, List.nil_append]
      exact outer_word cls _ _ _ _ _ (by simp) (by simp [headWord])
    · simp only [Same58.toks, List.cons_append, List.nil_append]
      exact outer_word cls _ _ _ _ _ (by simp) (by simp [headWord])
    · simp only [Same58.toks, List.cons_append, List.nil_append]
      exact outer_word cls _ _ _ _ _ (by simp) (by simp [headWord])
  simp only [List.cons_append, List.nil_append, List.append_assoc]
  rw [e1, e2, e3]
  simp

theorem adj_read (a : Adj58) (h : ∀ w ∈ a.words, w ∉ reserved58) :
    (∀ k, a.Kept cls k → adjOuter cls (kw "SPACING" :: a.body ++ [kw ";"]) {} false = some (a.rule k, false)) ∧
    ((¬ ∃ k, a.Kept cls k) → ∃ c', adjOuter cls (kw "SPACING" :: a.body ++ [kw ";"]) {} false = some (c', true)) := by
  have e : kw "SPACING" :: a.body ++ [kw ";"] = kw "SPACING" :: ([a.spacing.tok] ++ optKw a.c2c "CENTERTOCENTER" ++ a.same.toks ++
      (kw "ADJACENTCUTS" :: a.cuts.tok :: (optNum "EXACTALIGNED" a.exact ++ (a.twoToks ++ (kw "WITHIN" :: (a.within.tok :: (optKw a.pg "EXCEPTSAMEPGNET" ++
      (optNum "EXCEPTALLWITHIN" a.allWithin ++ (a.encToks ++ (a.clsToks ++ (a.tailToks ++ [kw ";"]))))))))))) := by
    simp [Adj58.body]
  have e2 : ∀ (ts : List LTok) (c : L58Rule), adjOuter cls (kw "ADJACENTCUTS" :: a.cuts.tok :: ts) c false = adjInner cls ts false { c with adj := a.cuts.int } false := by
    intro ts c
    rw [adjOuter.eq_def]
    simp [kw, Num58.tok, headWord]
  have e3 : ∀ (ts : List LTok) (c : L58Rule), adjInner cls (kw "WITHIN" :: a.within.tok :: ts) false c false = adjInner cls ts false { c with within := a.within.dbu } false :=
    fun ts c => by
      have := inner_within cls a.within ts c false
      simp only [List.cons_append, List.nil_append] at this
      exact this
  rw [e, outer_head, e2, inner_exact, inner_two cls a _ _ (by simp [kw]) (by simp [kw]), e3, inner_pg, inner_allWithin, inner_enc cls a h]
  refine ⟨fun k hk => ?_, fun hn => (inner_cls cls a _).2 hn⟩
  rw [(inner_cls cls a _).1 k hk]
  simp only [Adj58.rule, Bool.or_false]

end clauses

theorem rule_quiet (kwd : String) (hk : kwd = "ADJACENTCUTS" ∨ kwd = "LAYER") (body : List LTok) (words : List String) (h : ∀ w ∈ words, w ∉ reserved58) (pre post : List LTok)
    (hb : body = pre ++ kw kwd :: post) (hpre : ∀ x ∈ pre, x.text ∈ keys58 ∨ x.text ∈ words) (hpost : ∀ x ∈ post, x.text ∈ keys58 ∨ x.text = "SAMEMASK" ∨ x.text ∈ words) :
    cutKeyword (kw "SPACING" :: body ++ [kw ";"]) "" = kwd ∧ fromSpacing (kw "SPACING" :: body ++ [kw ";"]) [] = kw "SPACING" :: body ++ [kw ";"] ∧
    ∀ x ∈ body, x.text ≠ "SPACING" ∧ x.text ≠ ";" := by
  have qpre : ∀ x ∈ pre, x.text ≠ "SPACING" ∧ x.text ≠ ";" ∧ x.text ∉ major58 ∧ ("" = "" → x.text ≠ "SAMEMASK") := by
    intro x hx
    obtain ⟨q1, q2, q3, q4⟩ := quiet58 ((hpre x hx).imp id (h _))
    exact ⟨q1, q2, q3, fun _ => q4⟩
  have qpost : ∀ x ∈ post, x.text ≠ "SPACING" ∧ x.text ≠ ";" ∧ x.text ∉ major58 := by
    intro x hx
    rcases hpost x hx with h1 | h1 | h1
    · obtain ⟨q1, q2, q3, q4⟩ := quiet58 (.inl h1)
      exact ⟨q1, q2, q3⟩
    · rw [h1]; decide
    · obtain ⟨q1, q2, q3, q4⟩ := quiet58 (.inr (h _ h1))
      exact ⟨q1, q2, q3⟩
  have hbody : ∀ x ∈ body, x.text ≠ "SPACING" ∧ x.text ≠ ";" := by
    intro x hx
    rw [hb] at hx
    simp only [List.mem_append, List.mem_cons] at hx
    rcases hx with hx | rfl | hx
    · exact ⟨(qpre x hx).1, (qpre x hx).2.1⟩
    · rcases hk with rfl | rfl <;> simp [kw]
    · exact ⟨(qpost x hx).1, (qpost x hx).2.1⟩
  refine ⟨?_, ?_, hbody⟩
  · have e : kw "SPACING" :: body ++ [kw ";"] = [kw "SPACING"] ++ (pre ++ ([kw kwd] ++ (post ++ [kw ";"]))) := by simp [hb]
    have e1 : cutKeyword [kw kwd] "" = kwd := by rcases hk with rfl | rfl <;> simp [cutKeyword, kw]
    have e2 : kwd ≠ "" := by rcases hk with rfl | rfl <;> simp
    rw [e, cutKeyword_append, show cutKeyword [kw "SPACING"] "" = "" by simp [cutKeyword, kw], cutKeyword_append,
      cutKeyword_quiet pre "" (fun x hx => ⟨(qpre x hx).1, (qpre x hx).2.2⟩), cutKeyword_append, e1, cutKeyword_append]
    rw [cutKeyword_quiet post _ (fun x hx => ⟨(qpost x hx).1, (qpost x hx).2.2, fun h => absurd h e2⟩)]
    simp [cutKeyword, kw]
  · rw [List.cons_append]
    conv => lhs; unfold fromSpacing
    rw [if_pos (show (kw "SPACING").text = "SPACING" from rfl), fromSpacing_quiet]
    · simp
    · intro x hx
      simp only [List.mem_append, List.mem_cons, List.not_mem_nil, or_false] at hx
      rcases hx with hx | rfl
      · exact (hbody x hx).1
      · simp [kw]

theorem adj_rule (cls : String → Int) (a : Adj58) (h : ∀ w ∈ a.words, w ∉ reserved58) :
    ∃ r : Option R58, cutSpacingRule cls (kw "SPACING" :: a.body ++ [kw ";"]) = some r ∧ Text58.Reads cls (.adj a) r.toList ∧ ∀ x ∈ a.body, x.text ≠ "SPACING" ∧ x.text ≠ ";" := by
  obtain ⟨pre, post, hb, hpre, hpost⟩ := adj_words a
  obtain ⟨hk, hf, hq⟩ := rule_quiet "ADJACENTCUTS" (.inl rfl) a.body a.words h pre post hb hpre hpost
  unfold cutSpacingRule
  simp only [hk, hf]
  rw [if_neg (by decide), if_pos trivial]
  obtain ⟨r1, r2⟩ := adj_read cls a h
  by_cases hex : ∃ k, a.Kept cls k
  · obtain ⟨k, hk⟩ := hex
    rw [r1 k hk]
    exact ⟨_, rfl, .adj hk, hq⟩
  · obtain ⟨c', hc⟩ := r2 hex
    rw [hc]
    exact ⟨_, rfl, .adjDropped hex, hq⟩

/-! ### rules with a layer -/

theorem conc_words (c : Conc58) : ∀ x ∈ c.toks, x.text ∈ keys58 ∨ x.text ∈ c.words := by
  intro x hx
  cases c <;> simp only [Conc58.toks, List.mem_cons, List.not_mem_nil, or_false] at hx
  · rcases hx with rfl | rfl | rfl | rfl | rfl | rfl <;> simp [kw, Num58.tok, Conc58.words, keys58]
  · rcases hx with rfl | rfl | rfl | rfl | rfl | rfl <;> simp [kw, Num58.tok, Conc58.words, keys58]
  · rcases hx with rfl | rfl | rfl | rfl | rfl <;> simp [kw, Num58.tok, Conc58.words, keys58]

theorem lcls_words (c : LCls58) : ∀ x ∈ c.toks, x.text ∈ keys58 ∨ x.text ∈ c.words := by
  intro x hx
  cases c with
  | plain => cases hx
  | short p =>
    simp only [LCls58.toks, List.mem_append, List.mem_singleton] at hx
    rcases hx with rfl | hx
    · exact .inl (by simp [kw, keys58])
    · rcases mem_optNum hx with h | h
      · exact .inl (by rw [h]; decide)
      · exact .inr h
  | concave c =>
    simp only [LCls58.toks, List.mem_append, List.mem_singleton] at hx
    rcases hx with rfl | hx
    · exact .inl (by simp [kw, keys58])
    · exact conc_words c x hx
  | ext n =>
    simp only [LCls58.toks, List.mem_cons, List.not_mem_nil, or_false] at hx
    rcases hx with rfl | rfl <;> simp [kw, Num58.tok, LCls58.words, keys58]
  | convex w m =>
    simp only [LCls58.toks, List.mem_append, List.mem_cons, List.not_mem_nil, or_false] at hx
    rcases hx with (rfl | rfl) | hx
    · exact .inl (by simp [kw, keys58])
    · exact .inr (by simp [Num58.tok, LCls58.words])
    · rcases mem_optNum hx with h | h
      · exact .inl (by rw [h]; decide)
      · exact .inr (List.mem_cons_of_mem _ h)
  | above w m =>
    simp only [LCls58.toks, List.mem_append, List.mem_cons, List.not_mem_nil, or_false] at hx
    rcases hx with (rfl | rfl) | hx
    · exact .inl (by simp [kw, keys58])
    · exact .inr (by simp [Num58.tok, LCls58.words])
    · rcases mem_optNum hx with h | h
      · exact .inl (by rw [h]; decide)
      · exact .inr (List.mem_cons_of_mem _ h)
  | mask =>
    simp only [LCls58.toks, List.mem_singleton] at hx
    subst hx
    exact .inl (by simp [kw, keys58])
  | wrong =>
    simp only [LCls58.toks, List.mem_singleton] at hx
    subst hx
    exact .inl (by simp [kw, keys58])

theorem lay_words (a : Lay58) : ∃ pre post, a.body = pre ++ kw "LAYER" :: post ∧
    (∀ x ∈ pre, x.text ∈ keys58 ∨ x.text ∈ a.words) ∧ (∀ x ∈ post, x.text ∈ keys58 ∨ x.text = "SAMEMASK" ∨ x.text ∈ a.words) := by
  refine ⟨[a.spacing.tok] ++ optKw a.c2c "CENTERTOCENTER" ++ a.same.toks, ⟨a.layer, none⟩ :: a.opt.toks, ?_, ?_, ?_⟩
  · simp [Lay58.body]
  · intro x hx
    simp only [List.mem_append, List.mem_singleton] at hx
    rcases hx with (rfl | hx) | hx
    · exact .inr (by simp [Lay58.words, Num58.tok])
    · exact .inl (by rw [mem_optKw hx]; decide)
    · have := mem_same hx
      exact .inl (by revert this; generalize x.text = w; intro this; simp only [List.mem_cons, List.not_mem_nil, or_false] at this; rcases this with rfl | rfl | rfl <;> decide)
  · intro x hx
    rcases List.mem_cons.1 hx with rfl | hx
    · exact .inr (.inr (by simp [Lay58.words]))
    · cases ho : a.opt with
      | plain => rw [ho] at hx; cases hx
      | stack =>
        rw [ho] at hx
        simp only [LOpt58.toks, List.mem_singleton] at hx
        subst hx
        exact .inl (by simp [kw, keys58])
      | orth n =>
        rw [ho] at hx
        simp only [LOpt58.toks, List.mem_cons, List.not_mem_nil, or_false] at hx
        rcases hx with rfl | rfl
        · exact .inl (by simp [kw, keys58])
        · exact .inr (.inr (by simp [Lay58.words, ho, LOpt58.words, Num58.tok]))
      | cls n o =>
        rw [ho] at hx
        simp only [LOpt58.toks, List.mem_append, List.mem_cons, List.not_mem_nil, or_false] at hx
        rcases hx with (rfl | rfl) | hx
        · exact .inl (by simp [kw, keys58])
        · exact .inr (.inr (by simp [Lay58.words, ho, LOpt58.words]))
        · rcases lcls_words o x hx with h | h
          · exact .inl h
          · exact .inr (.inr (by simp [Lay58.words, ho, LOpt58.words, h]))

section lay
variable (cls : String → Int)

theorem lay_skip : ∀ (n : Nat) (ts : List LTok) (c : R58), (layOuter cls n ts c true).2 = true
  | 0, _, _ => rfl
  | _ + 1, [], _ => rfl
  | n + 1, t :: ts, c => by
    rw [layOuter.eq_def]
    dsimp only
    split
    · split
      · exact lay_skip n _ _
      · rfl
    · split
      · exact lay_skip n _ _
      · split
        · simp only [Bool.true_or]
          exact lay_skip n _ _
        · exact lay_skip n _ _

theorem lay_end (n : Nat) (c : R58) (sk : Bool) : layOuter cls n [kw ";"] c sk = (c, sk) := by
  cases n with
  | zero => rfl
  | succ n =>
    rw [layOuter.eq_def]
    dsimp only
    simp only [kw, headWord]
    simp
    cases n <;> simp [layOuter]

theorem lay_nil (n : Nat) (c : R58) (sk : Bool) : layOuter cls n [] c sk = (c, sk) := by
  cases n <;> simp [layOuter]

/-- the words before LAYER -/
theorem lay_head (a : Num58) (c2c : Bool) (same : Same58) (rest : List LTok) (n : Nat)
    (hn : (kw "SPACING" :: ([a.tok] ++ optKw c2c "CENTERTOCENTER" ++ same.toks ++ rest)).length ≤ n) : ∃ m, rest.length ≤ m ∧
    layOuter cls n (kw "SPACING" :: ([a.tok] ++ optKw c2c "CENTERTOCENTER" ++ same.toks ++ rest)) {} false =
    layOuter cls m rest { rule := { spacing := a.dbu, c2c := c2c, sameNet := same = .net, sameMetal := same = .metal, sameVia := same = .via } } false := by
  have e0 : ∀ m ts, layOuter cls (m + 1) (kw "SPACING" :: a.tok :: ts) {} false = layOuter cls m ts { rule := { spacing := a.dbu } } false := by
    intro m ts
    rw [layOuter.eq_def]
    dsimp only
    simp [kw, Num58.tok]
  have ew : ∀ m w ts (c : R58) r, w ≠ "SPACING" → headWord w c.rule = some r → layOuter cls (m + 1) (kw w :: ts) c false = layOuter cls m ts { c with rule := r } false := by
    intro m w ts c r h1 h2
    rw [layOuter.eq_def]
    dsimp only
    simp [kw, h1, h2]
  simp only [List.cons_append, List.nil_append, List.append_assoc] at hn ⊢
  cases c2c <;> cases same
  · simp only [optKw, Same58.toks, Bool.false_eq_true, if_true, if_false, List.cons_append, List.nil_append, List.length_cons] at hn ⊢
    obtain ⟨m, rfl⟩ : ∃ m, n = m + 1 := ⟨n - 1, by omega⟩
    rw [e0]
    exact ⟨m, by omega, by simp⟩
  · simp only [optKw, Same58.toks, Bool.false_eq_true, if_true, if_false, List.cons_append, List.nil_append, List.length_cons] at hn ⊢
    obtain ⟨m, rfl⟩ : ∃ m, n = m + 2 := ⟨n - 2, by omega⟩
    rw [e0, ew _ _ _ _ { spacing := a.dbu, sameNet := true } (by simp) (by simp [headWord])]
    exact ⟨m, by omega, by simp⟩
  · simp only [optKw, Same58.toks, Bool.false_eq_true, if_true, if_false, List.cons_append, List.nil_append, List.length_cons] at hn ⊢
    obtain ⟨m, rfl⟩ : ∃ m, n = m + 2 := ⟨n - 2, by omega⟩
    rw [e0, ew _ _ _ _ { spacing := a.dbu, sameMetal := true } (by simp) (by simp [headWord])]
    exact ⟨m, by omega, by simp⟩
  · simp only [optKw, Same58.toks, Bool.false_eq_true, if_true, if_false, List.cons_append, List.nil_append, List.length_cons] at hn ⊢
    obtain ⟨m, rfl⟩ : ∃ m, n = m + 2 := ⟨n - 2, by omega⟩
    rw [e0, ew _ _ _ _ { spacing := a.dbu, sameVia := true } (by simp) (by simp [headWord])]
    exact ⟨m, by omega, by simp⟩
  · simp only [optKw, Same58.toks, Bool.false_eq_true, if_true, if_false, List.cons_append, List.nil_append, List.length_cons] at hn ⊢
    obtain ⟨m, rfl⟩ : ∃ m, n = m + 2 := ⟨n - 2, by omega⟩
    rw [e0, ew _ _ _ _ { spacing := a.dbu, c2c := true } (by simp) (by simp [headWord])]
    exact ⟨m, by omega, by simp⟩
  · simp only [optKw, Same58.toks, Bool.false_eq_true, if_true, if_false, List.cons_append, List.nil_append, List.length_cons] at hn ⊢
    obtain ⟨m, rfl⟩ : ∃ m, n = m + 3 := ⟨n - 3, by omega⟩
    rw [e0, ew _ _ _ _ { spacing := a.dbu, c2c := true } (by simp) (by simp [headWord]), ew _ _ _ _ { spacing := a.dbu, c2c := true, sameNet := true } (by simp) (by simp [headWord])]
    exact ⟨m, by omega, by simp⟩
  · simp only [optKw, Same58.toks, Bool.false_eq_true, if_true, if_false, List.cons_append, List.nil_append, List.length_cons] at hn ⊢
    obtain ⟨m, rfl⟩ : ∃ m, n = m + 3 := ⟨n - 3, by omega⟩
    rw [e0, ew _ _ _ _ { spacing := a.dbu, c2c := true } (by simp) (by simp [headWord]), ew _ _ _ _ { spacing := a.dbu, c2c := true, sameMetal := true } (by simp) (by simp [headWord])]
    exact ⟨m, by omega, by simp⟩
  · simp only [optKw, Same58.toks, Bool.false_eq_true, if_true, if_false, List.cons_append, List.nil_append, List.length_cons] at hn ⊢
    obtain ⟨m, rfl⟩ : ∃ m, n = m + 3 := ⟨n - 3, by omega⟩
    rw [e0, ew _ _ _ _ { spacing := a.dbu, c2c := true } (by simp) (by simp [headWord]), ew _ _ _ _ { spacing := a.dbu, c2c := true, sameVia := true } (by simp) (by simp [headWord])]
    exact ⟨m, by omega, by simp⟩

/-- the rule that a clause after the class adds to -/
def LCls58.apply (o : LCls58) (r : L58Rule) : L58Rule :=
  match o with
  | .short _ => { r with shortEdge := true }
  | .concave _ => { r with concave := true }
  | .ext n => { r with extension := n.dbu }
  | .convex w m => { r with eolWidth := w.dbu, minLength := (m.map (·.dbu)).getD r.minLength }
  | _ => r

theorem lay_class (o : LCls58) (r : L58Rule) :
    (((o = .plain ∨ ∃ w, o = .above w none) → (layClass (o.toks ++ [kw ";"]) r).2.2 = true) ∧
    (¬ (o = .plain ∨ ∃ w, o = .above w none) → ∃ ts, (ts = [] ∨ ts = [kw ";"]) ∧ layClass (o.toks ++ [kw ";"]) r = (ts, o.apply r, false))) := by
  constructor
  · rintro (rfl | ⟨w, rfl⟩) <;> simp [LCls58.toks, layClass, kw, optNum, Num58.tok]
  · intro h
    cases o with
    | plain => exact absurd (.inl rfl) h
    | short p => cases p <;> simp [LCls58.toks, LCls58.apply, layClass, kw, optNum, Num58.tok]
    | concave c => cases c <;> simp [LCls58.toks, Conc58.toks, LCls58.apply, layClass, kw, Num58.tok, concWidth, concPar, concEdge]
    | ext n => simp [LCls58.toks, LCls58.apply, layClass, kw, Num58.tok]
    | convex w m => cases m <;> simp [LCls58.toks, LCls58.apply, layClass, kw, optNum, Num58.tok]
    | above w m =>
      cases m with
      | none => exact absurd (.inr ⟨w, rfl⟩) h
      | some e => simp [LCls58.toks, LCls58.apply, layClass, kw, optNum, Num58.tok]
    | mask => simp [LCls58.toks, LCls58.apply, layClass, kw]
    | wrong => simp [LCls58.toks, LCls58.apply, layClass, kw]

/-- after LAYER -/
theorem lay_tail (a : Lay58) (r : L58Rule)
    (hr : r = { spacing := a.spacing.dbu, c2c := a.c2c, sameNet := a.same = .net, sameMetal := a.same = .metal, sameVia := a.same = .via }) :
    (a.Kept cls → ∃ ts, (ts = [] ∨ ts = [kw ";"]) ∧ layTail cls (⟨a.layer, none⟩ :: (a.opt.toks ++ [kw ";"])) { rule := r } = (ts, { rule := a.rule cls, layer2 := a.layer }, false)) ∧
    (¬ a.Kept cls → (layTail cls (⟨a.layer, none⟩ :: (a.opt.toks ++ [kw ";"])) { rule := r }).2.2 = true) := by
  unfold Lay58.Kept Lay58.rule
  rw [← hr]
  cases ho : a.opt with
  | plain => simp [LOpt58.toks, layTail, kw]
  | stack => simp [LOpt58.toks, layTail, kw]
  | orth n => simp [LOpt58.toks, layTail, kw, Num58.tok]
  | cls n o =>
    have e : ∀ ts, layTail cls (⟨a.layer, none⟩ :: ((LOpt58.cls n o).toks ++ ts)) { rule := r } =
        ((layClass (o.toks ++ ts) (if cls n ≠ -1 then { r with cls := cls n } else r)).1,
         ⟨(layClass (o.toks ++ ts) (if cls n ≠ -1 then { r with cls := cls n } else r)).2.1, a.layer⟩,
         decide (cls n = -1) || (layClass (o.toks ++ ts) (if cls n ≠ -1 then { r with cls := cls n } else r)).2.2) := by
      intro ts
      simp [LOpt58.toks, layTail, kw]
    rw [e]
    obtain ⟨l1, l2⟩ := lay_class o (if cls n ≠ -1 then { r with cls := cls n } else r)
    have hm : r.minLength = -1 := by rw [hr]
    by_cases hb : o = .plain ∨ ∃ w, o = .above w none
    · refine ⟨?_, fun _ => by rw [l1 hb]; simp⟩
      rcases hb with rfl | ⟨w, rfl⟩ <;> intro h <;> cases h
    · obtain ⟨ts, h1, h2⟩ := l2 hb
      rw [h2]
      have hkept : (match LOpt58.cls n o with | .cls _ .plain => False | .cls _ (.above _ none) => False | .cls n _ => cls n ≠ -1 | _ => True) ↔ cls n ≠ -1 := by
        cases o with
        | plain => exact absurd (.inl rfl) hb
        | above w m =>
          cases m with
          | none => exact absurd (.inr ⟨w, rfl⟩) hb
          | some _ => exact Iff.rfl
        | _ => exact Iff.rfl
      refine ⟨fun hk => ⟨ts, h1, ?_⟩, fun hk => ?_⟩
      · have hc := hkept.1 hk
        rw [if_pos hc]
        simp only [hc, decide_false, Bool.or_false, Prod.mk.injEq, true_and, and_true, R58.mk.injEq]
        cases o <;> simp [LCls58.apply, hm]
      · have hc : cls n = -1 := Classical.byContradiction fun h => hk (hkept.2 h)
        simp [hc]

theorem lay_rule (a : Lay58) (h : ∀ w ∈ a.words, w ∉ reserved58) :
    ∃ r : Option R58, cutSpacingRule cls (kw "SPACING" :: a.body ++ [kw ";"]) = some r ∧ Text58.Reads cls (.layer a) r.toList ∧ ∀ x ∈ a.body, x.text ≠ "SPACING" ∧ x.text ≠ ";" := by
  obtain ⟨pre, post, hb, hpre, hpost⟩ := lay_words a
  obtain ⟨hk, hf, hq⟩ := rule_quiet "LAYER" (.inr rfl) a.body a.words h pre post hb hpre hpost
  unfold cutSpacingRule
  simp only [hk, hf]
  rw [if_pos trivial]
  have e : kw "SPACING" :: a.body ++ [kw ";"] = kw "SPACING" :: ([a.spacing.tok] ++ optKw a.c2c "CENTERTOCENTER" ++ a.same.toks ++
      (kw "LAYER" :: ⟨a.layer, none⟩ :: (a.opt.toks ++ [kw ";"]))) := by simp [Lay58.body]
  rw [e]
  obtain ⟨n, hn, hh⟩ := lay_head cls a.spacing a.c2c a.same (kw "LAYER" :: ⟨a.layer, none⟩ :: (a.opt.toks ++ [kw ";"])) _ (Nat.le_refl _)
  rw [hh]
  obtain ⟨m, rfl⟩ : ∃ m, n = m + 1 := ⟨n - 1, by simp only [List.length_cons] at hn; omega⟩
  have e2 : ∀ ts (c : R58), layOuter cls (m + 1) (kw "LAYER" :: ts) c false = layOuter cls m (layTail cls ts c).1 (layTail cls ts c).2.1 (layTail cls ts c).2.2 := by
    intro ts c
    rw [layOuter.eq_def]
    simp [kw, headWord]
  rw [e2]
  obtain ⟨t1, t2⟩ := lay_tail cls a _ rfl
  by_cases hkp : a.Kept cls
  · obtain ⟨ts, h1, h2⟩ := t1 hkp
    rw [h2]
    refine ⟨some { rule := a.rule cls, layer2 := a.layer }, ?_, .layer hkp, hq⟩
    rcases h1 with rfl | rfl
    · simp [lay_nil]
    · simp [lay_end]
  · refine ⟨none, ?_, .layerDropped hkp, hq⟩
    rw [t2 hkp, lay_skip]
    rfl

end lay

theorem text_rule (cls : String → Int) (t : Text58) (h : t.Ok) :
    ∃ r : Option R58, cutSpacingRule cls t.toks = some r ∧ t.Reads cls r.toList ∧ ∀ x ∈ t.body, x.text ≠ "SPACING" ∧ x.text ≠ ";" := by
  cases t with
  | adj a => exact adj_rule cls a h
  | layer a => exact lay_rule cls a h

theorem read_texts (cls : String → Int) : ∀ (ts : List Text58) (_ : ∀ t ∈ ts, t.Ok) (buf : List LTok),
    ∃ rs : List R58, readSpacing cls (ts.flatMap Text58.toks) buf = some rs ∧ Reads58 cls ts rs
  | [], _, _ => ⟨[], by simp [readSpacing], .nil⟩
  | t :: ts, h, buf => by
    obtain ⟨r, h1, h2, h3⟩ := text_rule cls t (h t (List.mem_cons_self ..))
    obtain ⟨rs, g1, g2⟩ := read_texts cls ts (fun x hx => h x (List.mem_cons_of_mem _ hx)) t.toks
    refine ⟨r.toList ++ rs, ?_, .cons h2 g2⟩
    have := readSpacing_rule cls t.body (ts.flatMap Text58.toks) buf h3 r h1
    rw [List.flatMap_cons]
    refine this.trans ?_
    rw [show kw "SPACING" :: t.body ++ [kw ";"] = t.toks from rfl, g1]
    rfl

/-- C156: reading a LEF58_SPACING property of any number of rules written as the language says ends, and adds, in order, the rules as they are written:
an ADJACENTCUTS rule if a known cut class is its last clause, a LAYER rule if its cut class, if it names one, is known and followed by a clause
(ABOVEWIDTH by an ENCLOSURE); all others are left out. -/
theorem c156_rules_read (cls : String → Int) (ts : List Text58) (h : ∀ t ∈ ts, t.Ok) :
    ∃ rs : List R58, readSpacing cls (ts.flatMap Text58.toks) [] = some rs ∧ Reads58 cls ts rs := read_texts cls ts h []

theorem readClasses_one (c : Class58) (rest : List LTok) (c0 : CutCls) : ∃ c', readClasses (c.toks ++ rest) c0 = c.cls :: readClasses rest c' := by
  obtain ⟨n, w, l, k⟩ := c
  refine ⟨{ name := n, width := w.dbu, length := l.map (·.dbu), cuts := k.map (·.int) }, ?_⟩
  cases l <;> cases k <;> simp [Class58.toks, Class58.cls, optNum, kw, Num58.tok, readClasses] <;> rw [readClasses.eq_def] <;> simp

theorem readClasses_all : ∀ (cs : List Class58) (c0 : CutCls), readClasses (cs.flatMap Class58.toks) c0 = cs.map Class58.cls
  | [], _ => by simp [readClasses]
  | c :: cs, c0 => by
    rw [List.flatMap_cons]
    obtain ⟨c', h⟩ := readClasses_one c (cs.flatMap Class58.toks) c0
    rw [h, readClasses_all cs c', List.map_cons]

/-- C156: a LEF58_CUTCLASS property of any number of classes adds the classes as they are written. -/
theorem c156_classes_read (cs : List Class58) : readClasses (cs.flatMap Class58.toks) {} = cs.map Class58.cls := readClasses_all cs {}

theorem byName_fold (n : String) : ∀ (cs : List CutCls) (b : Nat) (r : Int),
    ((∀ c ∈ cs, c.name ≠ n) → (cs.zipIdx b).foldl (fun (r : Int) p => if p.1.name = n then (p.2 : Int) else r) r = r) ∧
    ((∃ c ∈ cs, c.name = n) → ∃ i, (cs.zipIdx b).foldl (fun (r : Int) p => if p.1.name = n then (p.2 : Int) else r) r = ((b + i : Nat) : Int) ∧
      (∃ c, cs[i]? = some c ∧ c.name = n) ∧ ∀ (j : Nat) (c : CutCls), i < j → cs[j]? = some c → c.name ≠ n)
  | [], _, _ => ⟨fun _ => rfl, fun ⟨_, h, _⟩ => by cases h⟩
  | c :: cs, b, r => by
    obtain ⟨i1, i2⟩ := byName_fold n cs (b + 1) (if c.name = n then (b : Int) else r)
    rw [List.zipIdx_cons, List.foldl_cons]
    refine ⟨fun h => ?_, fun h => ?_⟩
    · rw [i1 (fun x hx => h x (List.mem_cons_of_mem _ hx)), if_neg (h c (List.mem_cons_self ..))]
    · by_cases hex : ∃ c ∈ cs, c.name = n
      · obtain ⟨i, h1, h2, h3⟩ := i2 hex
        refine ⟨i + 1, by rw [h1]; congr 1; omega, by simpa using h2, ?_⟩
        intro j c' hj hc'
        obtain ⟨j, rfl⟩ : ∃ m, j = m + 1 := ⟨j - 1, by omega⟩
        rw [List.getElem?_cons_succ] at hc'
        exact h3 j c' (by omega) hc'
      · have hno : ∀ c ∈ cs, c.name ≠ n := fun c hc he => hex ⟨c, hc, he⟩
        have hc : c.name = n := by
          obtain ⟨x, hx, hn⟩ := h
          rcases List.mem_cons.1 hx with rfl | hx
          · exact hn
          · exact absurd hn (hno x hx)
        refine ⟨0, by rw [i1 hno, if_pos hc]; simp, ⟨c, by simp, hc⟩, ?_⟩
        intro j c' hj hc'
        obtain ⟨j, rfl⟩ : ∃ m, j = m + 1 := ⟨j - 1, by omega⟩
        rw [List.getElem?_cons_succ] at hc'
        exact hno c' (List.mem_of_getElem? hc')

/-- C156: a rule that names a cut class means the last class of that name among those read before the rule; without such a class the name is unknown. -/
theorem c156_class_names (cs : List CutCls) (n : String) (k : Int) :
    clsByName cs n = k ↔ LastOfName cs n k ∨ (k = -1 ∧ ∀ c ∈ cs, c.name ≠ n) := by
  unfold clsByName LastOfName
  obtain ⟨i1, i2⟩ := byName_fold n cs 0 (-1)
  by_cases hex : ∃ c ∈ cs, c.name = n
  · obtain ⟨i, h1, ⟨c, hc, hn⟩, h3⟩ := i2 hex
    rw [h1]
    constructor
    · rintro rfl
      exact .inl ⟨i, by simp, ⟨c, hc, hn⟩, h3⟩
    · rintro (⟨j, rfl, ⟨c', hc', hn'⟩, h3'⟩ | ⟨-, h⟩)
      · have : i = j := by
          rcases Nat.lt_trichotomy i j with h | h | h
          · exact absurd hn' (h3 j c' h hc')
          · exact h
          · exact absurd hn (h3' i c h hc)
        simp [this]
      · obtain ⟨c, hc, hn⟩ := hex
        exact absurd hn (h c hc)
  · have hno : ∀ c ∈ cs, c.name ≠ n := fun c hc he => hex ⟨c, hc, he⟩
    rw [i1 hno]
    constructor
    · rintro rfl
      exact .inr ⟨rfl, hno⟩
    · rintro (⟨j, rfl, ⟨c', hc', hn'⟩, -⟩ | ⟨h, -⟩)
      · exact absurd hn' (hno c' (List.mem_of_getElem? hc'))
      · exact h.symm

/-! ### what is added is what is checked -/

/-- C156: the ADJACENTCUTS rules that are added have a class, and none of the clauses after the class; with sensible numbers they are rules that `C153` is
about. -/
theorem c156_adjacent_checked {cs : List CutCls} {a : Adj58} {r : R58} (h : Text58.Reads (clsByName cs) (.adj a) [r])
    (hn : 0 < a.cuts.int ∧ 0 < a.within.dbu ∧ 0 ≤ a.spacing.dbu ∧ ∀ p, a.two = some p → 0 < p.1.int) :
    r.rule.AdjOk ∧ r.rule.toAll = false ∧ r.rule.noPrl = false ∧ r.rule.sidePar = false ∧ r.rule.sameMask = false := by
  cases h with
  | adj hk =>
    rename_i k
    obtain ⟨n, h1, h2, h3, h4, h5⟩ := hk
    refine ⟨⟨rfl, hn.1, hn.2.1, hn.2.2.1, ?_, ?_⟩, rfl, rfl, rfl, rfl⟩
    · cases ht : a.two with
      | none => left; simp [Adj58.rule, ht]
      | some p => right; simpa [Adj58.rule, ht] using hn.2.2.2 p ht
    · rcases (c156_class_names cs n k).1 h4 with ⟨i, rfl, _⟩ | ⟨h, _⟩
      · simp [Adj58.rule]
      · exact absurd h h5

theorem link_none (layerNum : String → Option Int) (f : R58 → Option L58Rule) : ∀ rs : List R58, rs.mapM f = none ↔ ∃ r ∈ rs, f r = none
  | [] => by simp
  | r :: rs => by
    have ih := link_none layerNum f rs
    rw [List.mapM_cons]
    cases hf : f r with
    | none => simp [hf]
    | some x =>
      cases hm : rs.mapM f with
      | none =>
        obtain ⟨y, hy, hn⟩ := ih.1 hm
        simp only [Option.pure_def, Option.bind_eq_bind, Option.bind_some, Option.bind_none, true_iff]
        exact ⟨y, List.mem_cons_of_mem _ hy, hn⟩
      | some xs =>
        have : ¬ ∃ r ∈ rs, f r = none := fun h => by rw [ih.2 h] at hm; cases hm
        simp only [Option.pure_def, Option.bind_eq_bind, Option.bind_some, reduceCtorEq, false_iff]
        rintro ⟨y, hy, hn⟩
        rcases List.mem_cons.1 hy with rfl | hy
        · rw [hf] at hn; cases hn
        · exact this ⟨y, hy, hn⟩

/-- C157: after reading, the program looks up the second layers of all LEF58 rules of a layer, and reads through a null pointer exactly when one of them
does not exist. -/
theorem c157_second_layers (layerNum : String → Option Int) (same : Bool) (rs : List R58) :
    link58 layerNum same rs = none ↔ ∃ r ∈ rs, r.rule.sameNet = same ∧ r.layer2 ≠ "" ∧ layerNum r.layer2 = none := by
  unfold link58
  rw [link_none layerNum]
  constructor
  · rintro ⟨r, hr, hn⟩
    obtain ⟨h1, h2⟩ := List.mem_filter.1 hr
    split at hn
    · cases hn
    · rename_i hl
      exact ⟨r, h1, by simpa using h2, hl, by simpa using hn⟩
  · rintro ⟨r, h1, h2, h3, h4⟩
    exact ⟨r, List.mem_filter.2 ⟨h1, by simpa using h2⟩, by rw [if_neg h3, h4]; rfl⟩

end TR
