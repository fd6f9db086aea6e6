import Verif.Cut58.ReadProps
/-! # Reading LEF58 cut rules: the linked rules, examples and a text that is never read to its end -/
namespace TR

/-- C157: when all second layers are known, a rule of the layer is a rule that was read, with the number of its second layer, and every rule that
was read for that list (cuts of one net, or cuts in general) is there. -/
theorem c157_linked {layerNum : String → Option Int} {same : Bool} {rs : List R58} {ls : List L58Rule} (h : link58 layerNum same rs = some ls) (l : L58Rule) :
    l ∈ ls ↔ ∃ r ∈ rs, r.rule.sameNet = same ∧
      ((r.layer2 = "" ∧ l = r.rule) ∨ (r.layer2 ≠ "" ∧ ∃ n, layerNum r.layer2 = some n ∧ l = { r.rule with second := some n })) := by
  unfold link58 at h
  suffices H : ∀ (xs : List R58) (ls : List L58Rule),
      (xs.mapM fun r => if r.layer2 = "" then some r.rule else (layerNum r.layer2).map fun n => { r.rule with second := some n }) = some ls →
      (l ∈ ls ↔ ∃ r ∈ xs, ((r.layer2 = "" ∧ l = r.rule) ∨ (r.layer2 ≠ "" ∧ ∃ n, layerNum r.layer2 = some n ∧ l = { r.rule with second := some n }))) by
    rw [H _ _ h]
    constructor
    · rintro ⟨r, hr, hx⟩
      obtain ⟨h1, h2⟩ := List.mem_filter.1 hr
      exact ⟨r, h1, by simpa using h2, hx⟩
    · rintro ⟨r, h1, h2, hx⟩
      exact ⟨r, List.mem_filter.2 ⟨h1, by simpa using h2⟩, hx⟩
  intro xs
  induction xs with
  | nil =>
    intro ls h
    simp only [List.mapM_nil] at h
    cases h
    simp
  | cons x xs ih =>
    intro ls h
    rw [List.mapM_cons] at h
    simp only [Option.bind_eq_bind, Option.bind_eq_some_iff] at h
    obtain ⟨a, ha, bs, hb, h⟩ := h
    cases h
    rw [List.mem_cons, ih bs hb]
    have hx : l = a ↔ ((x.layer2 = "" ∧ l = x.rule) ∨ (x.layer2 ≠ "" ∧ ∃ n, layerNum x.layer2 = some n ∧ l = { x.rule with second := some n })) := by
      by_cases e : x.layer2 = ""
      · rw [if_pos e] at ha
        cases ha
        simp [e]
      · rw [if_neg e] at ha
        obtain ⟨n, h1, h2⟩ := Option.map_eq_some_iff.1 ha
        subst h2
        simp [e, h1]
    rw [hx]
    simp only [List.mem_cons]
    constructor
    · rintro (h | ⟨r, hr, h⟩)
      · exact ⟨x, .inl rfl, h⟩
      · exact ⟨r, .inr hr, h⟩
    · rintro ⟨r, rfl | hr, h⟩
      · exact .inl h
      · exact .inr ⟨r, hr, h⟩

/-- C156: a TWOCUTSSPACING without a number is never read to its end: the program does not come back from this text. -/
theorem c156_never_ends (cls : String → Int) (s n t w : Num58) (hs : s.text ∉ reserved58) (hn : n.text ∉ reserved58) (ht : t.text ∉ reserved58)
    (hw : w.text ∉ reserved58) :
    readSpacing cls [kw "SPACING", s.tok, kw "ADJACENTCUTS", n.tok, kw "TWOCUTS", t.tok, kw "TWOCUTSSPACING", kw "WITHIN", w.tok, kw ";"] [] = none := by
  have k (x : Num58) (hx : x.text ∉ reserved58) (y : String) (hy : y ∈ reserved58) : x.text ≠ y := fun e => hx (e ▸ hy)
  have key : cutSpacingRule cls [kw "SPACING", s.tok, kw "ADJACENTCUTS", n.tok, kw "TWOCUTS", t.tok, kw "TWOCUTSSPACING", kw "WITHIN", w.tok, kw ";"] = none := by
    have e1 : cutKeyword [kw "SPACING", s.tok, kw "ADJACENTCUTS", n.tok, kw "TWOCUTS", t.tok, kw "TWOCUTSSPACING", kw "WITHIN", w.tok, kw ";"] "" = "ADJACENTCUTS" := by
      have a (x : Num58) (hx : x.text ∉ reserved58) (q : String) : (if x.text = "SPACING" then "" else if q = "" ∧ x.text = "SAMEMASK" then "SAMEMASK" else
          if x.text ∈ ["MAXXY", "LAYER", "ADJACENTCUTS", "PARALLELOVERLAP", "PARALLELWITHIN", "SAMEMETALSHAREDEDGE", "AREA"] then x.text else q) = q := by
        rw [if_neg (k x hx _ (by decide +kernel)), if_neg (fun h => k x hx _ (by decide +kernel) h.2), if_neg]
        intro h
        simp only [List.mem_cons, List.not_mem_nil, or_false] at h
        rcases h with h | h | h | h | h | h | h <;> exact k x hx _ (by decide +kernel) h
      simp only [cutKeyword, Num58.tok, kw, a s hs, a n hn, a t ht, a w hw]
      decide +kernel
    have e2 : fromSpacing [kw "SPACING", s.tok, kw "ADJACENTCUTS", n.tok, kw "TWOCUTS", t.tok, kw "TWOCUTSSPACING", kw "WITHIN", w.tok, kw ";"] [] =
        [kw "SPACING", s.tok, kw "ADJACENTCUTS", n.tok, kw "TWOCUTS", t.tok, kw "TWOCUTSSPACING", kw "WITHIN", w.tok, kw ";"] := by
      simp [fromSpacing, kw, Num58.tok, k s hs "SPACING" (by decide +kernel), k n hn "SPACING" (by decide +kernel), k t ht "SPACING" (by decide +kernel),
        k w hw "SPACING" (by decide +kernel)]
    unfold cutSpacingRule
    simp only [e1, e2]
    rw [if_neg (by decide +kernel), if_pos trivial]
    rw [adjOuter.eq_def]
    simp only [kw, Num58.tok, if_true]
    rw [adjOuter.eq_def]
    have hh (c : L58Rule) : headWord "ADJACENTCUTS" c = none := by simp [headWord]
    simp only [kw, Num58.tok, hh, if_true]
    rw [if_neg (by decide +kernel), adjInner.eq_def]
    simp only [kw, Num58.tok]
    rw [if_neg (by simp), if_neg (by simp), if_neg (by decide +kernel), if_pos trivial, adjInner.eq_def]
    simp only [kw, Num58.tok]
    rw [if_pos (by simp)]
  have step (x : LTok) (ts buf : List LTok) (h1 : x.text ≠ "SPACING") (h2 : x.text ≠ ";") : readSpacing cls (x :: ts) buf = readSpacing cls ts (buf ++ [x]) := by
    rw [readSpacing, if_neg h1, if_neg h2]
  rw [readSpacing, if_pos (show (kw "SPACING").text = "SPACING" from rfl)]
  rw [step _ _ _ (k s hs _ (by decide +kernel)) (k s hs _ (by decide +kernel)), step _ _ _ (by decide +kernel) (by decide +kernel),
    step _ _ _ (k n hn _ (by decide +kernel)) (k n hn _ (by decide +kernel)), step _ _ _ (by decide +kernel) (by decide +kernel),
    step _ _ _ (k t ht _ (by decide +kernel)) (k t ht _ (by decide +kernel)), step _ _ _ (by decide +kernel) (by decide +kernel),
    step _ _ _ (by decide +kernel) (by decide +kernel), step _ _ _ (k w hw _ (by decide +kernel)) (k w hw _ (by decide +kernel))]
  rw [readSpacing, if_neg (by decide +kernel), if_pos (show (kw ";").text = ";" from rfl)]
  simp only [List.cons_append, List.nil_append]
  rw [key]

/-! ## examples -/

def exNum (s : String) (v : Int) : Num58 := ⟨s, 2000 * v, v⟩

/-- `CUTCLASS VA WIDTH 1 ; CUTCLASS VB WIDTH 1 LENGTH 2 ;` -/
def exClasses : List Class58 := [{ name := "VA", width := exNum "1" 1 }, { name := "VB", width := exNum "1" 1, length := some (exNum "2" 2) }]

example : (readClasses (exClasses.flatMap Class58.toks) {}).map (·.name) = ["VA", "VB"] := by rw [c156_classes_read]; rfl
example : clsByName (exClasses.map Class58.cls) "VB" = 1 := by decide +kernel
example : clsByName (exClasses.map Class58.cls) "VC" = -1 := by decide +kernel

/-- `SPACING 1 SAMENET ADJACENTCUTS 3 WITHIN 2 CUTCLASS VB ;` -/
def exAdjText : Adj58 := { spacing := exNum "1" 1, same := .net, cuts := exNum "3" 3, within := exNum "2" 2, cls := some ("VB", false) }

/-- `SPACING 3 LAYER M2 CUTCLASS VA CONCAVECORNER ;` -/
def exLayText : Lay58 := { spacing := exNum "3" 3, layer := "M2", opt := .cls "VA" (.concave .always) }

theorem exTexts_ok : ∀ t ∈ [Text58.adj exAdjText, .layer exLayText, .adj { exAdjText with mask := true }], t.Ok := by
  intro t ht
  simp only [List.mem_cons, List.not_mem_nil, or_false] at ht
  rcases ht with rfl | rfl | rfl
  · show ∀ w ∈ exAdjText.words, w ∉ reserved58
    decide +kernel
  · show ∀ w ∈ exLayText.words, w ∉ reserved58
    decide +kernel
  · show ∀ w ∈ ({ exAdjText with mask := true } : Adj58).words, w ∉ reserved58
    decide +kernel

/-- the first two are kept, with their numbers; the third is dropped -/
example : ∃ rs, readSpacing (clsByName (exClasses.map Class58.cls)) ([Text58.adj exAdjText, .layer exLayText, .adj { exAdjText with mask := true }].flatMap Text58.toks) [] = some rs ∧
    rs = [{ rule := { spacing := 2000, sameNet := true, adj := 3, within := 4000, cls := 1 } },
      { rule := { spacing := 6000, cls := 0, concave := true }, layer2 := "M2" }] := by
  obtain ⟨rs, h, hr⟩ := c156_rules_read (clsByName (exClasses.map Class58.cls)) _ exTexts_ok
  refine ⟨rs, h, ?_⟩
  have k1 : clsByName (exClasses.map Class58.cls) "VB" = 1 := by decide +kernel
  have k2 : clsByName (exClasses.map Class58.cls) "VA" = 0 := by decide +kernel
  cases hr with
  | cons h1 hs =>
    cases hs with
    | cons h2 hs =>
      cases hs with
      | cons h3 hs =>
        cases hs
        have e1 : ∀ r, Text58.Reads (clsByName (exClasses.map Class58.cls)) (.adj exAdjText) r → r = [{ rule := exAdjText.rule 1 }] := by
          intro r h
          cases h with
          | adj h =>
            obtain ⟨n, hn, _, _, hk, _⟩ := h
            cases hn
            rw [k1] at hk
            rw [hk]
          | adjDropped h => exact absurd ⟨1, "VB", rfl, rfl, rfl, k1, by decide⟩ h
        have e2 : ∀ r, Text58.Reads (clsByName (exClasses.map Class58.cls)) (.layer exLayText) r →
            r = [{ rule := exLayText.rule (clsByName (exClasses.map Class58.cls)), layer2 := "M2" }] := by
          intro r h
          cases h with
          | layer h => rfl
          | layerDropped h => exact absurd (show clsByName (exClasses.map Class58.cls) "VA" ≠ -1 by rw [k2]; decide) h
        have e3 : ∀ r, Text58.Reads (clsByName (exClasses.map Class58.cls)) (.adj { exAdjText with mask := true }) r → r = [] := by
          intro r h
          cases h with
          | adj h =>
            obtain ⟨_, _, _, h, _⟩ := h
            cases h
          | adjDropped h => rfl
        rw [e1 _ h1, e2 _ h2, e3 _ h3]
        simp [Adj58.rule, Lay58.rule, exAdjText, exLayText, exNum, k2]

/-- a rule with a class is dropped when the classes come after it -/
example : readCutLayer [.spacing (Text58.adj exAdjText).toks, .classes (exClasses.flatMap Class58.toks)] [] [] = some (exClasses.map Class58.cls, []) := by
  have z (n : String) : clsByName [] n = -1 := rfl
  have h : readSpacing (clsByName []) (Text58.adj exAdjText).toks [] = some [] := by
    obtain ⟨rs, h, hr⟩ := c156_rules_read (clsByName []) [Text58.adj exAdjText] (fun t ht => exTexts_ok t (by simp at ht; simp [ht]))
    rw [List.flatMap_cons, List.flatMap_nil, List.append_nil] at h
    rw [h]
    have e1 : ∀ r, Text58.Reads (clsByName []) (.adj exAdjText) r → r = [] := by
      intro r h
      cases h with
      | adj h =>
        obtain ⟨n, _, _, _, hk, hn⟩ := h
        rw [z] at hk
        exact absurd hk.symm hn
      | adjDropped h => rfl
    cases hr with
    | cons h1 hs =>
      cases hs
      rw [e1 _ h1]
      simp
  rw [readCutLayer, h]
  simp only [readCutLayer, c156_classes_read]
  rfl

/-- the second layer of the rule is linked, and a missing one ends the program -/
example : (link58 (fun n => if n = "M2" then some 4 else none) false [{ rule := { spacing := 6000, cls := 0, concave := true }, layer2 := "M2" }]).map (·.map (·.second)) = some [some 4] := by
  decide +kernel
example : link58 (fun n => if n = "M2" then some 4 else none) false [{ rule := { spacing := 6000, cls := 0, concave := true }, layer2 := "M7" }] = none :=
  (c157_second_layers _ _ _).2 ⟨_, List.mem_cons_self .., rfl, by decide +kernel, by decide +kernel⟩

end TR
