import Verif.Read.Lemmas
namespace TR

/-- two lists of the same length with related elements at equal positions -/
def Pointwise (R : Nat → α → β → Prop) (l : List α) (m : List β) : Prop :=
  l.length = m.length ∧ ∀ (i : Nat) (a : α) (b : β), l[i]? = some a → m[i]? = some b → R i a b

theorem Pointwise.nil (R : Nat → α → β → Prop) : Pointwise R [] [] := ⟨rfl, by intro i a b h; simp at h⟩

theorem Pointwise.snoc {R : Nat → α → β → Prop} {l : List α} {m : List β} (h : Pointwise R l m) {a : α} {b : β}
    (hr : R l.length a b) : Pointwise R (l ++ [a]) (m ++ [b]) := by
  refine ⟨by simp [h.1], ?_⟩
  intro i x y hx hy
  rw [List.getElem?_append] at hx hy
  by_cases hi : i < l.length
  · have hi' : i < m.length := by rw [← h.1]; exact hi
    rw [if_pos hi] at hx; rw [if_pos hi'] at hy
    exact h.2 i x y hx hy
  · have hi' : ¬ i < m.length := by rw [← h.1]; exact hi
    rw [if_neg hi] at hx; rw [if_neg hi'] at hy
    have e : i = l.length := by
      rcases Nat.lt_or_ge (i - l.length) 1 with h0 | h0
      · omega
      · rw [List.getElem?_eq_none (by simpa using h0)] at hx; cases hx
    subst e
    rw [h.1] at hy
    simp only [Nat.sub_self, List.getElem?_cons_zero, Option.some.injEq] at hx hy
    subst hx; subst hy; exact hr

theorem Pointwise.left {R : Nat → α → β → Prop} {l : List α} {m : List β} (h : Pointwise R l m) {i : Nat} {a : α}
    (ha : l[i]? = some a) : ∃ b, m[i]? = some b ∧ R i a b := by
  obtain ⟨hi, _⟩ := List.getElem?_eq_some_iff.1 ha
  have hm : i < m.length := by rw [← h.1]; exact hi
  exact ⟨m[i], List.getElem?_eq_getElem hm, h.2 i a _ ha (List.getElem?_eq_getElem hm)⟩

theorem Pointwise.right {R : Nat → α → β → Prop} {l : List α} {m : List β} (h : Pointwise R l m) {i : Nat} {b : β}
    (hb : m[i]? = some b) : ∃ a, l[i]? = some a ∧ R i a b := by
  obtain ⟨hi, _⟩ := List.getElem?_eq_some_iff.1 hb
  have hm : i < l.length := by rw [h.1]; exact hi
  exact ⟨l[i], List.getElem?_eq_getElem hm, h.2 i _ b (List.getElem?_eq_getElem hm) hb⟩

theorem compsOf_snoc (pre : List DefRec) (r : DefRec) :
    compsOf (pre ++ [r]) = compsOf pre ++ (match r with | .comp c => [c] | _ => []) := by
  unfold compsOf; rw [List.filterMap_append]; cases r <;> rfl
theorem topPinsOf_snoc (pre : List DefRec) (r : DefRec) :
    topPinsOf (pre ++ [r]) = topPinsOf pre ++ (match r with | .pin c => [c] | _ => []) := by
  unfold topPinsOf; rw [List.filterMap_append]; cases r <;> rfl
theorem netsOf_snoc (pre : List DefRec) (r : DefRec) :
    netsOf (pre ++ [r]) = netsOf pre ++ (match r with | .net c => [c] | _ => []) := by
  unfold netsOf; rw [List.filterMap_append]; cases r <;> rfl
theorem tracksOf_snoc (pre : List DefRec) (r : DefRec) :
    tracksOf (pre ++ [r]) = tracksOf pre ++ (match r with | .tracks c => [c] | _ => []) := by
  unfold tracksOf; rw [List.filterMap_append]; cases r <;> rfl
theorem blksOf_snoc (pre : List DefRec) (r : DefRec) :
    blksOf (pre ++ [r]) = blksOf pre ++ (match r with | .blk c => [c] | _ => []) := by
  unfold blksOf; rw [List.filterMap_append]; cases r <;> rfl

/-- a component of the design is the one of the file -/
structure InstIs (E : REnv) (i : Nat) (I : RInst) (c : DefComp) : Prop where
  id : I.id = i
  name : I.name = c.id
  org : I.org = c.org
  ori : I.ori = orientOf c.ori
  cell : CellIs E.lib c.cell I.cell

/-- the shapes of a pin of the design: the rectangles and polygons of the file, moved to the place of the pin -/
structure TopPinIs (E : REnv) (P : TopPin) (p : DefPin) : Prop where
  name : P.name = p.name
  use : useKind p.use = some P.use
  rects : ∀ l b, PinFig.rect l b ∈ P.figs ↔ ∃ r ∈ p.rects, E.layerNum r.1 = some l ∧
    b = (Box.mk4 r.2.1 r.2.2.1 r.2.2.2.1 r.2.2.2.2).transform ⟨p.org.x, p.org.y, orientOf p.ori⟩
  polys : ∀ l q, PinFig.poly l q ∈ P.figs ↔ ∃ r ∈ p.polys, E.layerNum r.1 = some l ∧
    q = r.2.map (Point.transform · ⟨p.org.x, p.org.y, orientOf p.ori⟩)

theorem pinRects_spec (E : REnv) (t : Xform) (rs : List (String × Int × Int × Int × Int)) (fs : List PinFig)
    (h : pinRects E t rs = some fs) : (∀ l b, PinFig.rect l b ∈ fs ↔ ∃ r ∈ rs, E.layerNum r.1 = some l ∧
      b = (Box.mk4 r.2.1 r.2.2.1 r.2.2.2.1 r.2.2.2.2).transform t) ∧ ∀ l q, PinFig.poly l q ∉ fs := by
  induction rs generalizing fs with
  | nil => simp only [pinRects, Option.some.injEq] at h; subst h; simp
  | cons r rs ih =>
    obtain ⟨n, xl, yl, xh, yh⟩ := r
    simp only [pinRects, Option.bind_eq_some_iff, Option.map_eq_some_iff] at h
    obtain ⟨l, hl, fs', hf, rfl⟩ := h
    obtain ⟨h1, h2⟩ := ih fs' hf
    refine ⟨?_, ?_⟩
    · intro l' b
      simp only [List.mem_cons, PinFig.rect.injEq, h1]
      constructor
      · rintro (⟨rfl, rfl⟩ | ⟨r, hr, h⟩)
        · exact ⟨_, Or.inl rfl, hl, rfl⟩
        · exact ⟨r, Or.inr hr, h⟩
      · rintro ⟨r, rfl | hr, h3, h4⟩
        · left; simp only at h3; rw [hl] at h3; simp only [Option.some.injEq] at h3; exact ⟨h3.symm, h4⟩
        · exact Or.inr ⟨r, hr, h3, h4⟩
    · intro l' q; simp [h2 l' q]

theorem pinPolys_spec (E : REnv) (t : Xform) (rs : List (String × List Point)) (fs : List PinFig)
    (h : pinPolys E t rs = some fs) : (∀ l q, PinFig.poly l q ∈ fs ↔ ∃ r ∈ rs, E.layerNum r.1 = some l ∧
      q = r.2.map (Point.transform · t)) ∧ ∀ l b, PinFig.rect l b ∉ fs := by
  induction rs generalizing fs with
  | nil => simp only [pinPolys, Option.some.injEq] at h; subst h; simp
  | cons r rs ih =>
    obtain ⟨n, pts⟩ := r
    simp only [pinPolys, Option.bind_eq_some_iff, Option.map_eq_some_iff] at h
    obtain ⟨l, hl, fs', hf, rfl⟩ := h
    obtain ⟨h1, h2⟩ := ih fs' hf
    refine ⟨?_, ?_⟩
    · intro l' b
      simp only [List.mem_cons, PinFig.poly.injEq, h1]
      constructor
      · rintro (⟨rfl, rfl⟩ | ⟨r, hr, h⟩)
        · exact ⟨_, Or.inl rfl, hl, rfl⟩
        · exact ⟨r, Or.inr hr, h⟩
      · rintro ⟨r, rfl | hr, h3, h4⟩
        · left; simp only at h3; rw [hl] at h3; simp only [Option.some.injEq] at h3; exact ⟨h3.symm, h4⟩
        · exact Or.inr ⟨r, hr, h3, h4⟩
    · intro l' q; simp [h2 l' q]

/-! ### components and pins -/

structure PlaceInv (E : REnv) (pre : List DefRec) (B : RBlock) : Prop where
  insts : Pointwise (InstIs E) B.insts (compsOf pre)
  pins : Pointwise (fun _ => TopPinIs E) B.pins (topPinsOf pre)
  nInst : B.nInst = B.insts.length
  names : (B.insts.map RInst.name).Pairwise (· ≠ ·)

theorem readPlace (E : REnv) (pre : List DefRec) (r : DefRec) (B B' : RBlock) (h : PlaceInv E pre B)
    (hr : readRec E B r = some B') : PlaceInv E (pre ++ [r]) B' := by
  obtain ⟨h1, h2, h3, h4⟩ := h
  cases r with
  | tracks t =>
    simp only [readRec, readTracks, Option.bind_eq_some_iff] at hr
    obtain ⟨l, _, hr⟩ := hr
    split at hr
    · simp only [Option.some.injEq] at hr; subst hr
      exact ⟨by rw [compsOf_snoc]; simpa using h1, by rw [topPinsOf_snoc]; simpa using h2, h3, h4⟩
    · split at hr
      · simp only [Option.some.injEq] at hr; subst hr
        exact ⟨by rw [compsOf_snoc]; simpa using h1, by rw [topPinsOf_snoc]; simpa using h2, h3, h4⟩
      · cases hr
  | via v =>
    have : B'.insts = B.insts ∧ B'.pins = B.pins ∧ B'.nInst = B.nInst := by
      simp only [readRec, readVia] at hr
      split at hr
      · simp only [Option.map_eq_some_iff] at hr; obtain ⟨_, _, rfl⟩ := hr; exact ⟨rfl, rfl, rfl⟩
      · split at hr
        · cases hr
        · split at hr
          · simp only [Option.some.injEq] at hr; subst hr; exact ⟨rfl, rfl, rfl⟩
          · simp only [Option.map_eq_some_iff] at hr; obtain ⟨_, _, rfl⟩ := hr; exact ⟨rfl, rfl, rfl⟩
    obtain ⟨e1, e2, e3⟩ := this
    exact ⟨by rw [compsOf_snoc, e1]; simpa using h1, by rw [topPinsOf_snoc, e2]; simpa using h2,
      by rw [e3, e1]; exact h3, by rw [e1]; exact h4⟩
  | comp c =>
    simp only [readRec, readComp, Option.bind_eq_some_iff] at hr
    obtain ⟨cell, hc, hr⟩ := hr
    split at hr
    · cases hr
    · rename_i hn
      simp only [Option.some.injEq] at hr; subst hr
      refine ⟨?_, by rw [topPinsOf_snoc]; simpa using h2, by simp [h3], ?_⟩
      · rw [compsOf_snoc]
        exact h1.snoc ⟨h3, rfl, rfl, rfl, (cellNamed_iff _ _ _).1 hc⟩
      · simp only [List.map_append, List.map_cons, List.map_nil]
        rw [List.pairwise_append]
        refine ⟨h4, List.pairwise_singleton _ _, ?_⟩
        intro a ha b hb
        simp only [List.mem_singleton] at hb; subst hb
        rw [List.mem_map] at ha
        obtain ⟨i, hi, rfl⟩ := ha
        intro he
        exact hn (List.any_eq_true.2 ⟨i, hi, by simpa using he⟩)
  | pin p =>
    simp only [readRec, readPin, Option.bind_eq_some_iff] at hr
    obtain ⟨u, hu, hr⟩ := hr
    split at hr
    · cases hr
    · simp only [Option.bind_eq_some_iff, Option.map_eq_some_iff] at hr
      obtain ⟨a, ha, b, hb, rfl⟩ := hr
      obtain ⟨a1, a2⟩ := pinRects_spec E _ _ _ ha
      obtain ⟨b1, b2⟩ := pinPolys_spec E _ _ _ hb
      refine ⟨by rw [compsOf_snoc]; simpa using h1, ?_, h3, h4⟩
      rw [topPinsOf_snoc]
      refine h2.snoc ⟨rfl, hu, ?_, ?_⟩
      · intro l q; simp only [List.mem_append, a1, b2, or_false]
      · intro l q; simp only [List.mem_append, a2, b1, false_or]
  | blk b =>
    have : B'.insts = B.insts ∧ B'.pins = B.pins ∧ B'.nInst = B.nInst := by
      simp only [readRec, Option.some.injEq] at hr
      subst hr
      unfold readBlk
      dsimp only
      split
      · split
        · exact ⟨rfl, rfl, rfl⟩
        · split <;> exact ⟨rfl, rfl, rfl⟩
      · split <;> exact ⟨rfl, rfl, rfl⟩
    obtain ⟨e1, e2, e3⟩ := this
    exact ⟨by rw [compsOf_snoc, e1]; simpa using h1, by rw [topPinsOf_snoc, e2]; simpa using h2,
      by rw [e3, e1]; exact h3, by rw [e1]; exact h4⟩
  | net n =>
    simp only [readRec, readNet, Option.bind_eq_some_iff, Option.map_eq_some_iff] at hr
    obtain ⟨ps, _, f, _, u, _, rfl⟩ := hr
    exact ⟨by rw [compsOf_snoc]; simpa using h1, by rw [topPinsOf_snoc]; simpa using h2, h3, h4⟩

theorem placeInv (E : REnv) (vs : List RViaDef) (rs : List DefRec) (B : RBlock) (h : readDesign E vs rs = some B) :
    PlaceInv E rs B :=
  readRecs_inv E (P := PlaceInv E) _ ⟨Pointwise.nil _, Pointwise.nil _, rfl, List.Pairwise.nil⟩
    (fun pre r B B' => readPlace E pre r B B') rs B h

/-! ### connections -/

theorem lastAt_pointwise {R : Nat → α → β → Prop} {l : List α} {m : List β} (h : Pointwise R l m)
    (f : α → String) (g : β → String) (hn : ∀ i a b, R i a b → f a = g b) (n : String) (i : Nat) :
    LastAt f l n i ↔ LastAt g m n i := by
  constructor
  · rintro ⟨a, h1, h2, h3⟩
    obtain ⟨b, hb, hR⟩ := h.left h1
    refine ⟨b, hb, by rw [← hn i a b hR]; exact h2, ?_⟩
    intro j c hj hc
    obtain ⟨d, hd, hR'⟩ := h.right hc
    rw [← hn j d c hR']; exact h3 j d hj hd
  · rintro ⟨a, h1, h2, h3⟩
    obtain ⟨b, hb, hR⟩ := h.right h1
    refine ⟨b, hb, by rw [hn i b a hR]; exact h2, ?_⟩
    intro j c hj hc
    obtain ⟨d, hd, hR'⟩ := h.left hc
    rw [hn j c d hR']; exact h3 j d hj hd

theorem CellIs.unique {lib : List RCell} {n : String} {a b : RCell} (h1 : CellIs lib n a) (h2 : CellIs lib n b) :
    a = b := by
  rw [← cellNamed_iff] at h1 h2; rw [h1] at h2; simpa using h2

theorem names_cell (E : REnv) (pre : List DefRec) (B : RBlock) (h : PlaceInv E pre B) (c : String × String)
    (hP : c.1 ≠ "PIN") (i k : Nat) :
    Names E.lib pre c (.cell i k) ↔ ∃ I, B.insts[i]? = some I ∧ (c.1 = "*" ∨ c.1 = I.name) ∧ termOf I c.2 = some k := by
  simp only [Names]
  constructor
  · rintro ⟨_, d, cell, h1, h2, h3, h4⟩
    obtain ⟨I, hI, hR⟩ := h.insts.right h1
    refine ⟨I, hI, by rw [hR.name]; exact h2, ?_⟩
    unfold termOf
    rw [hR.cell.unique h3]
    exact (findIdx_firstAt RTerm.name _ _ _).2 h4
  · rintro ⟨I, hI, h2, h3⟩
    obtain ⟨d, hd, hR⟩ := h.insts.left hI
    exact ⟨hP, d, I.cell, hd, by rw [← hR.name]; exact h2, hR.cell, (findIdx_firstAt RTerm.name _ _ _).1 h3⟩

theorem pairwise_name {l : List RInst} (h : (l.map RInst.name).Pairwise (· ≠ ·)) {i j : Nat} {a b : RInst}
    (ha : l[i]? = some a) (hb : l[j]? = some b) (hn : a.name = b.name) : i = j := by
  obtain ⟨hi, ea⟩ := List.getElem?_eq_some_iff.1 ha
  obtain ⟨hj, eb⟩ := List.getElem?_eq_some_iff.1 hb
  rw [List.pairwise_iff_getElem] at h
  rcases Nat.lt_trichotomy i j with hlt | he | hlt
  · have := h i j (by simpa using hi) (by simpa using hj) hlt
    simp only [List.getElem_map] at this
    rw [ea, eb] at this; exact absurd hn this
  · exact he
  · have := h j i (by simpa using hj) (by simpa using hi) hlt
    simp only [List.getElem_map] at this
    rw [ea, eb] at this; exact absurd hn.symm this

/-- the pins of a connection are those it names -/
theorem connPins_names (E : REnv) (pre : List DefRec) (B : RBlock) (h : PlaceInv E pre B) (c : String × String)
    (l : List PinRef) (hl : connPins B c = some l) (r : PinRef) : r ∈ l ↔ Names E.lib pre c r := by
  unfold connPins at hl
  by_cases hP : c.1 = "PIN"
  · simp only [hP, if_true, Option.map_eq_some_iff] at hl
    obtain ⟨i, hi, rfl⟩ := hl
    rw [lastIdx_some TopPin.name B.pins] at hi
    have hi' := (lastAt_pointwise h.pins TopPin.name DefPin.name (fun _ _ _ hR => hR.name) _ _).1 hi
    simp only [List.mem_singleton]
    constructor
    · rintro rfl; exact ⟨hP, hi'⟩
    · intro hr
      cases r with
      | top j => simp only [Names] at hr; rw [hr.2.unique hi']
      | cell j k => simp only [Names] at hr; exact absurd hP hr.1
  · simp only [hP, if_false] at hl
    by_cases hS : c.1 = "*"
    · simp only [hS, if_true, Option.some.injEq] at hl
      subst hl
      cases r with
      | top j =>
        simp only [Names, hP, false_and, iff_false, List.mem_filterMap, Option.bind_eq_some_iff,
          Option.map_eq_some_iff]
        rintro ⟨_, _, _, _, _, _, h⟩; cases h
      | cell j k =>
        rw [names_cell E pre B h c hP]
        simp only [List.mem_filterMap, List.mem_range, Option.bind_eq_some_iff, Option.map_eq_some_iff,
          PinRef.cell.injEq]
        constructor
        · rintro ⟨i, _, I, hI, k', hk, rfl, rfl⟩; exact ⟨I, hI, Or.inl hS, hk⟩
        · rintro ⟨I, hI, _, hk⟩
          exact ⟨j, (List.getElem?_eq_some_iff.1 hI).1, I, hI, k, hk, rfl, rfl⟩
    · simp only [hS, if_false, Option.bind_eq_some_iff, Option.map_eq_some_iff] at hl
      obtain ⟨i, hi, I, hI, k, hk, rfl⟩ := hl
      rw [lastIdx_some RInst.name B.insts] at hi
      obtain ⟨I', hI', hn, _⟩ := hi
      rw [hI] at hI'; simp only [Option.some.injEq] at hI'; subst hI'
      simp only [List.mem_singleton]
      cases r with
      | top j => simp [Names, hP]
      | cell j m =>
        rw [names_cell E pre B h c hP]
        simp only [PinRef.cell.injEq, hS, false_or]
        constructor
        · rintro ⟨rfl, rfl⟩; exact ⟨I, hI, hn.symm, hk⟩
        · rintro ⟨J, hJ, hJn, hJk⟩
          have := pairwise_name h.names hJ hI (by rw [hn, hJn])
          subst this
          rw [hI] at hJ; simp only [Option.some.injEq] at hJ; subst hJ
          rw [hk] at hJk; simp only [Option.some.injEq] at hJk
          exact ⟨rfl, hJk.symm⟩

/-- a connection is rejected exactly if it names nothing -/
theorem connPins_none (E : REnv) (pre : List DefRec) (B : RBlock) (h : PlaceInv E pre B) (c : String × String) :
    (∃ l, connPins B c = some l) ↔ c.1 = "*" ∨ ∃ r, Names E.lib pre c r := by
  constructor
  · rintro ⟨l, hl⟩
    by_cases hS : c.1 = "*"
    · exact Or.inl hS
    · right
      have hne : ∃ r, r ∈ l := by
        unfold connPins at hl
        by_cases hP : c.1 = "PIN"
        · simp only [hP, if_true, Option.map_eq_some_iff] at hl
          obtain ⟨i, _, rfl⟩ := hl; exact ⟨_, List.mem_singleton.2 rfl⟩
        · simp only [hP, if_false, hS, Option.bind_eq_some_iff, Option.map_eq_some_iff] at hl
          obtain ⟨i, _, I, _, k, _, rfl⟩ := hl; exact ⟨_, List.mem_singleton.2 rfl⟩
      obtain ⟨r, hr⟩ := hne
      exact ⟨r, (connPins_names E pre B h c l hl r).1 hr⟩
  · intro hh
    unfold connPins
    by_cases hP : c.1 = "PIN"
    · simp only [hP, if_true]
      rcases hh with hS | ⟨r, hr⟩
      · rw [hS] at hP; exact absurd hP (by decide)
      · cases r with
        | cell i k => exact absurd hP hr.1
        | top i =>
          have := (lastAt_pointwise h.pins TopPin.name DefPin.name (fun _ _ _ hR => hR.name) _ _).2 hr.2
          rw [← lastIdx_some TopPin.name B.pins] at this
          rw [this]; exact ⟨_, rfl⟩
    · simp only [hP, if_false]
      by_cases hS : c.1 = "*"
      · simp only [hS, if_true]; exact ⟨_, rfl⟩
      · simp only [hS, if_false]
        rcases hh with hS' | ⟨r, hr⟩
        · exact absurd hS' hS
        · cases r with
          | top i => exact absurd hr.1 hP
          | cell i k =>
            obtain ⟨I, hI, hn, hk⟩ := (names_cell E pre B h c hP i k).1 hr
            rcases hn with hn | hn
            · exact absurd hn hS
            have hlast : LastAt RInst.name B.insts c.1 i := by
              refine ⟨I, hI, hn.symm, ?_⟩
              intro j J hj hJ he
              have := pairwise_name h.names hJ hI (by rw [he, hn])
              omega
            rw [← lastIdx_some RInst.name B.insts] at hlast
            rw [hlast]
            simp only [Option.bind_some, hI, hk, Option.map_some]
            exact ⟨_, rfl⟩

theorem connsPins_names (E : REnv) (pre : List DefRec) (B : RBlock) (h : PlaceInv E pre B)
    (cs : List (String × String)) (l : List PinRef) (hl : connsPins B cs = some l) (r : PinRef) :
    r ∈ l ↔ ∃ c ∈ cs, Names E.lib pre c r := by
  induction cs generalizing l with
  | nil => simp only [connsPins, Option.some.injEq] at hl; subst hl; simp
  | cons c cs ih =>
    simp only [connsPins, Option.bind_eq_some_iff, Option.map_eq_some_iff] at hl
    obtain ⟨a, ha, b, hb, rfl⟩ := hl
    simp only [List.mem_append, connPins_names E pre B h c a ha, ih b hb, List.mem_cons, exists_eq_or_imp]

theorem connsPins_some (E : REnv) (pre : List DefRec) (B : RBlock) (h : PlaceInv E pre B)
    (cs : List (String × String)) : (∃ l, connsPins B cs = some l) ↔
      ∀ c ∈ cs, c.1 = "*" ∨ ∃ r, Names E.lib pre c r := by
  induction cs with
  | nil => simp [connsPins]
  | cons c cs ih =>
    simp only [List.mem_cons, forall_eq_or_imp, ← ih, ← connPins_none E pre B h c, connsPins,
      Option.bind_eq_some_iff, Option.map_eq_some_iff]
    constructor
    · rintro ⟨l, a, ha, b, hb, _⟩; exact ⟨⟨a, ha⟩, b, hb⟩
    · rintro ⟨⟨a, ha⟩, b, hb⟩; exact ⟨_, a, ha, b, hb, rfl⟩

end TR
