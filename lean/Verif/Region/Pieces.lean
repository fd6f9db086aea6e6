import Verif.Region.Props
/-! # The pieces of a net that is loaded -/
namespace TR

/-- a region of positive size -/
def Box.Strict (R : Box) : Prop := R.left < R.right ∧ R.bottom < R.top

theorem strict_iff (h : Bool) (R : Box) : R.Strict ↔ R.loA h < R.hiA h ∧ R.loC h < R.hiC h := by
  unfold Box.Strict Box.loA Box.hiA Box.loC Box.hiC
  cases h <;> simp <;> omega

theorem Box.Strict.proper {R : Box} (h : R.Strict) : R.Proper := ⟨by have := h.1; omega, by have := h.2; omega⟩

theorem DSeg.Pos.lt {s : DSeg} (h : s.Pos) : s.b.a s.horz < s.e.a s.horz := by
  obtain ⟨e1, e2, _⟩ := h.1.ac
  by_cases he : s.b.a s.horz = s.e.a s.horz
  · exact absurd (pt_ext_ac s.horz he e1.symm) h.2.1
  · omega

variable {init : Bool} {R : Box} {w : Nat} {s : DSeg}

theorem loadSeg_out (hs : s.Ok)
    (h : trackIn init R s.horz (s.b.c s.horz) = false ∨ R.hiA s.horz < s.b.a s.horz ∨ s.e.a s.horz < R.loA s.horz) (hR : R.Proper) :
    loadSeg init R w s = ([], [s]) := by
  have hp := (proper_iff s.horz R).1 hR
  obtain ⟨e1, e2, _⟩ := hs.ac
  have hlow : s.e.a s.horz < R.loA s.horz → lowPart R w s = s := by
    intro h
    unfold lowPart
    simp only
    rw [if_neg (by omega), show min (s.e.a s.horz) (R.loA s.horz) = s.e.a s.horz by omega, ptAC_eta]
  have hhigh : R.hiA s.horz < s.b.a s.horz → highPart R w s = s := by
    intro h
    unfold highPart
    simp only
    rw [if_neg (by omega), show max (s.b.a s.horz) (R.hiA s.horz) = s.b.a s.horz by omega, ptAC_eta]
  unfold loadSeg
  simp only [hs.straight]
  rw [if_neg (by simp)]
  cases ht : trackIn init R s.horz (s.b.c s.horz)
  · simp
  · rw [ht] at h
    simp only [if_true]
    rcases h with h | h | h
    · simp at h
    · have c1 : ¬ s.b.a s.horz < R.loA s.horz := by omega
      have c2 : ¬ s.e.a s.horz < R.loA s.horz := by omega
      have c3 : s.b.a s.horz ≥ R.hiA s.horz := by omega
      have c4 : s.e.a s.horz > R.hiA s.horz := by omega
      simp [c1, c2, c3, c4, h, hhigh h]
    · have c1 : s.b.a s.horz < R.loA s.horz := by omega
      have c2 : ¬ s.b.a s.horz > R.hiA s.horz := by omega
      have c3 : s.e.a s.horz ≤ R.loA s.horz := by omega
      have c4 : ¬ s.e.a s.horz > R.hiA s.horz := by omega
      simp [c1, c2, c3, c4, h, hlow h]

theorem loadSeg_in (hs : s.Ok) (ht : trackIn init R s.horz (s.b.c s.horz) = true) (h1 : s.b.a s.horz ≤ R.hiA s.horz) (h2 : R.loA s.horz ≤ s.e.a s.horz) :
    loadSeg init R w s = ((if s.b.a s.horz < R.loA s.horz then [lowPart R w s] else []) ++
      (if s.b.a s.horz < R.hiA s.horz ∧ R.loA s.horz < s.e.a s.horz then [midPart R w s] else []) ++
      (if s.e.a s.horz > R.hiA s.horz then [highPart R w s] else []), []) := by
  unfold loadSeg
  simp only [hs.straight, ht]
  rw [if_neg (by simp)]
  simp only [if_true]
  have d1 : decide (s.e.a s.horz < R.loA s.horz) = false := by simp; omega
  have d2 : decide (s.b.a s.horz > R.hiA s.horz) = false := by simp; omega
  simp only [d1, d2]
  simp only [Bool.false_eq_true, if_false, List.append_nil]
  have d3 : ((!(decide (s.b.a s.horz ≥ R.hiA s.horz) || decide (s.e.a s.horz ≤ R.loA s.horz))) = true) = (s.b.a s.horz < R.hiA s.horz ∧ R.loA s.horz < s.e.a s.horz) := by
    simp
  simp only [d3]
  rfl

/-- what is known of a piece of a wire -/
structure PieceOf (s t : DSeg) : Prop where
  net : t.net = s.net
  layer : t.layer = s.layer
  pos : t.Pos
  sub : ∀ p, t.On p → s.On p

theorem low_piece (hs : s.Pos) (hb : s.b.a s.horz < R.loA s.horz) : PieceOf s (lowPart R w s) := by
  obtain ⟨e1, e2, _⟩ := hs.1.ac
  have hlt := hs.lt
  refine ⟨rfl, rfl, ⟨low_ok hs.1 hb, ?_, hs.2.2⟩, fun p hp => ((low_on p).1 hp).1⟩
  intro he
  have := congrArg (fun q => Point.a q s.horz) he
  unfold lowPart at this
  simp only [ptAC_a] at this
  omega

theorem high_piece (hs : s.Pos) (hb : s.e.a s.horz > R.hiA s.horz) : PieceOf s (highPart R w s) := by
  obtain ⟨e1, e2, _⟩ := hs.1.ac
  have hlt := hs.lt
  have hbx : (highPart R w s).b = ptAC s.horz (max (s.b.a s.horz) (R.hiA s.horz)) (s.b.c s.horz) := rfl
  refine ⟨rfl, rfl, ⟨high_ok hs.1 hb, ?_, ?_⟩, fun p hp => ((high_on p).1 hp).1⟩
  · intro he
    have := congrArg (fun q => Point.a q s.horz) he
    unfold highPart at this
    simp only [ptAC_a] at this
    omega
  · rw [hbx]
    obtain ⟨_, _, h3, h4⟩ := hs
    unfold ptAC
    cases hh : s.horz <;> simp only [hh, Point.a, Point.c, Bool.false_eq_true, if_false, if_true] <;> omega

theorem mid_piece (hR : R.Strict) (hs : s.Pos) (hb : s.b.a s.horz < R.hiA s.horz ∧ R.loA s.horz < s.e.a s.horz) : PieceOf s (midPart R w s) := by
  obtain ⟨e1, e2, _⟩ := hs.1.ac
  have hlt := hs.lt
  have hst := (strict_iff s.horz R).1 hR
  have hbx : (midPart R w s).b = ptAC s.horz (max (s.b.a s.horz) (R.loA s.horz)) (s.b.c s.horz) := rfl
  have hex : (midPart R w s).e = ptAC s.horz (min (s.e.a s.horz) (R.hiA s.horz)) (s.e.c s.horz) := rfl
  refine ⟨rfl, rfl, ⟨?_, ?_, ?_⟩, fun p hp => ((mid_on p).1 hp).1⟩
  · apply ok_of_ac s.horz
    · rw [hbx, hex]; simp only [ptAC_c]; omega
    · rw [hbx, hex]; simp only [ptAC_a]; omega
  · intro he
    have := congrArg (fun q => Point.a q s.horz) he
    rw [hbx, hex] at this
    simp only [ptAC_a] at this
    omega
  · rw [hbx]
    obtain ⟨_, _, h3, h4⟩ := hs
    unfold ptAC
    cases hh : s.horz <;> simp only [hh, Point.a, Point.c, Bool.false_eq_true, if_false, if_true] <;> omega

/-- the pieces of a wire -/
def pieces (init : Bool) (R : Box) (w : Nat) (s : DSeg) : List DSeg := (loadSeg init R w s).1 ++ (loadSeg init R w s).2

theorem load_cases (init : Bool) (R : Box) (s : DSeg) :
    (trackIn init R s.horz (s.b.c s.horz) = false ∨ R.hiA s.horz < s.b.a s.horz ∨ s.e.a s.horz < R.loA s.horz) ∨
    (trackIn init R s.horz (s.b.c s.horz) = true ∧ s.b.a s.horz ≤ R.hiA s.horz ∧ R.loA s.horz ≤ s.e.a s.horz) := by
  cases trackIn init R s.horz (s.b.c s.horz)
  · exact .inl (.inl rfl)
  · by_cases h : R.hiA s.horz < s.b.a s.horz ∨ s.e.a s.horz < R.loA s.horz
    · exact .inl (.inr h)
    · exact .inr ⟨rfl, by omega, by omega⟩

theorem mem_loadSeg_in (hs : s.Ok) (ht : trackIn init R s.horz (s.b.c s.horz) = true) (h1 : s.b.a s.horz ≤ R.hiA s.horz) (h2 : R.loA s.horz ≤ s.e.a s.horz) {t : DSeg} :
    t ∈ (loadSeg init R w s).1 ↔ (t = lowPart R w s ∧ s.b.a s.horz < R.loA s.horz) ∨
      (t = midPart R w s ∧ s.b.a s.horz < R.hiA s.horz ∧ R.loA s.horz < s.e.a s.horz) ∨ (t = highPart R w s ∧ s.e.a s.horz > R.hiA s.horz) := by
  rw [loadSeg_in hs ht h1 h2]
  have key : ∀ (c : Prop) [Decidable c] (x : DSeg), t ∈ (if c then [x] else []) ↔ t = x ∧ c := by
    intro c _ x
    split
    · rename_i hc
      rw [List.mem_singleton]
      exact ⟨fun h => ⟨h, hc⟩, fun h => h.1⟩
    · rename_i hc
      exact ⟨fun h => (by cases h), fun h => absurd h.2 hc⟩
  simp only [List.mem_append, key]
  constructor
  · rintro ((h | h) | h)
    · exact .inl h
    · exact .inr (.inl h)
    · exact .inr (.inr h)
  · rintro (h | h | h)
    · exact .inl (.inl h)
    · exact .inl (.inr h)
    · exact .inr h

theorem piece_of (hR : R.Strict) (hs : s.Pos) {t : DSeg} (ht : t ∈ pieces init R w s) : PieceOf s t := by
  unfold pieces at ht
  rcases load_cases init R s with hc | ⟨c1, c2, c3⟩
  · rw [loadSeg_out hs.1 hc hR.proper] at ht
    simp at ht
    subst ht
    exact ⟨rfl, rfl, hs, fun _ h => h⟩
  · rcases List.mem_append.1 ht with ht | ht
    · rcases (mem_loadSeg_in hs.1 c1 c2 c3).1 ht with ⟨rfl, h⟩ | ⟨rfl, h⟩ | ⟨rfl, h⟩
      · exact low_piece hs h
      · exact mid_piece hR hs h
      · exact high_piece hs h
    · rw [loadSeg_in hs.1 c1 c2 c3] at ht
      cases ht

theorem piece_cover (hR : R.Strict) (hs : s.Pos) {p : Point} (hp : s.On p) : ∃ t ∈ pieces init R w s, t.On p := by
  obtain ⟨t, h1, h2⟩ := (c56_cover (init := init) (w := w) hR.proper hs.1 hs.2.1 p).1 hp
  refine ⟨t, ?_, h2⟩
  unfold loadSplit at h1
  unfold pieces
  simp only [List.mem_append, List.mem_filter] at h1 ⊢
  rcases h1 with h1 | h1 | h1
  · exact .inl h1.1
  · exact .inr h1
  · exact .inl h1.1

/-- ends of the wire are ends of pieces, with the same style -/
theorem piece_ends (hs : s.Pos) (hR : R.Strict) :
    (∃ t ∈ pieces init R w s, t.b = s.b ∧ t.st.beginKind = s.st.beginKind) ∧ (∃ t ∈ pieces init R w s, t.e = s.e ∧ t.st.endKind = s.st.endKind) := by
  unfold pieces
  have hst := (strict_iff s.horz R).1 hR
  have hlt := hs.lt
  obtain ⟨e1, e2, _⟩ := hs.1.ac
  rcases load_cases init R s with hc | ⟨c1, c2, c3⟩
  · rw [loadSeg_out hs.1 hc hR.proper]
    exact ⟨⟨s, by simp, rfl, rfl⟩, s, by simp, rfl, rfl⟩
  · constructor
    · by_cases hb : s.b.a s.horz < R.loA s.horz
      · refine ⟨lowPart R w s, List.mem_append_left _ ((mem_loadSeg_in hs.1 c1 c2 c3).2 (.inl ⟨rfl, hb⟩)), rfl, ?_⟩
        unfold lowPart
        simp only
        split <;> rfl
      · by_cases hh : s.b.a s.horz < R.hiA s.horz
        · refine ⟨midPart R w s, List.mem_append_left _ ((mem_loadSeg_in hs.1 c1 c2 c3).2 (.inr (.inl ⟨rfl, hh, by omega⟩))), ?_, ?_⟩
          · unfold midPart
            simp only
            rw [show max (s.b.a s.horz) (R.loA s.horz) = s.b.a s.horz by omega, ptAC_eta]
          · unfold midPart
            simp only
            rw [if_neg hb]
            split <;> rfl
        · refine ⟨highPart R w s, List.mem_append_left _ ((mem_loadSeg_in hs.1 c1 c2 c3).2 (.inr (.inr ⟨rfl, by omega⟩))), ?_, ?_⟩
          · unfold highPart
            simp only
            rw [show max (s.b.a s.horz) (R.hiA s.horz) = s.b.a s.horz by omega, ptAC_eta]
          · unfold highPart
            simp only
            rw [if_neg (by omega)]
    · by_cases hb : s.e.a s.horz > R.hiA s.horz
      · refine ⟨highPart R w s, List.mem_append_left _ ((mem_loadSeg_in hs.1 c1 c2 c3).2 (.inr (.inr ⟨rfl, hb⟩))), rfl, ?_⟩
        unfold highPart
        simp only
        split <;> rfl
      · by_cases hh : R.loA s.horz < s.e.a s.horz
        · refine ⟨midPart R w s, List.mem_append_left _ ((mem_loadSeg_in hs.1 c1 c2 c3).2 (.inr (.inl ⟨rfl, by omega, hh⟩))), ?_, ?_⟩
          · unfold midPart
            simp only
            rw [show min (s.e.a s.horz) (R.hiA s.horz) = s.e.a s.horz by omega, ptAC_eta]
          · unfold midPart
            simp only
            rw [if_neg hb]
            split <;> rfl
        · refine ⟨lowPart R w s, List.mem_append_left _ ((mem_loadSeg_in hs.1 c1 c2 c3).2 (.inl ⟨rfl, by omega⟩)), ?_, ?_⟩
          · unfold lowPart
            simp only
            rw [show min (s.e.a s.horz) (R.loA s.horz) = s.e.a s.horz by omega, ptAC_eta]
          · unfold lowPart
            simp only
            rw [if_neg (by omega)]

/-- pieces of one wire do not overlap -/
theorem pieces_apart (hR : R.Strict) (hs : s.Pos) : (loadSeg init R w s).1.Pairwise (fun t u => ¬ t.Overlap u) := by
  have hst := (strict_iff s.horz R).1 hR
  obtain ⟨e1, e2, _⟩ := hs.1.ac
  have key : ∀ (c : Int) (t u : DSeg), (∀ p, t.On p → s.On p ∧ p.a s.horz ≤ c) → (∀ p, u.On p → s.On p ∧ c ≤ p.a s.horz) → ¬ t.Overlap u := by
    rintro c t u ht hu ⟨_, p, q, hpq, h1, h2, h3, h4⟩
    apply hpq
    have a1 := ht p h1
    have a2 := ht q h2
    have a3 := hu p h3
    have a4 := hu q h4
    have b1 := (dseg_on_iff s.horz s p).1 a1.1
    have b2 := (dseg_on_iff s.horz s q).1 a2.1
    exact pt_ext_ac s.horz (by omega) (by omega)
  have hlm : ¬ (lowPart R w s).Overlap (midPart R w s) := key (R.loA s.horz) _ _ (fun p h => (low_on p).1 h) (fun p h => ⟨((mid_on p).1 h).1, ((mid_on p).1 h).2.1⟩)
  have hmh : ¬ (midPart R w s).Overlap (highPart R w s) := key (R.hiA s.horz) _ _ (fun p h => ⟨((mid_on p).1 h).1, ((mid_on p).1 h).2.2⟩) (fun p h => (high_on p).1 h)
  have hlh : ¬ (lowPart R w s).Overlap (highPart R w s) := key (R.loA s.horz) _ _ (fun p h => (low_on p).1 h)
    (fun p h => ⟨((high_on p).1 h).1, by have := ((high_on p).1 h).2; omega⟩)
  rcases load_cases init R s with hc | ⟨c1, c2, c3⟩
  · rw [loadSeg_out hs.1 hc hR.proper]
    exact List.Pairwise.nil
  · rw [loadSeg_in hs.1 c1 c2 c3]
    simp only
    split <;> split <;> split <;> simp [List.pairwise_cons, hlm, hmh, hlh]

/-- outside pieces have no point in the region, the others have one -/
theorem piece_out (hs : s.Pos) (hR : R.Strict) {t : DSeg} (ht : t ∈ (loadSeg false R w s).2) {p : Point} (hp : t.On p) : ¬ R.Has p := by
  rcases load_cases false R s with hc | ⟨c1, c2, c3⟩
  · rw [loadSeg_out hs.1 hc hR.proper] at ht
    simp at ht
    rw [ht] at hp
    have hon := (dseg_on_iff s.horz s p).1 hp
    obtain ⟨e1, e2, _⟩ := hs.1.ac
    rw [has_iff s.horz]
    rcases hc with hc | hc
    · intro hn
      rw [Bool.eq_false_iff] at hc
      apply hc
      rw [trackIn_iff]
      exact ⟨by omega, by omega, by intro h; cases h⟩
    · omega
  · rw [loadSeg_in hs.1 c1 c2 c3] at ht
    cases ht

theorem piece_in (hs : s.Pos) (hR : R.Strict) {t : DSeg} (ht : t ∈ (loadSeg init R w s).1) : ∃ p, t.On p ∧ R.Has p := by
  have hst := (strict_iff s.horz R).1 hR
  have hlt := hs.lt
  obtain ⟨e1, e2, _⟩ := hs.1.ac
  rcases load_cases init R s with hc | ⟨c1, c2, c3⟩
  · rw [loadSeg_out hs.1 hc hR.proper] at ht
    cases ht
  · have htr := trackIn_iff.1 c1
    rcases (mem_loadSeg_in hs.1 c1 c2 c3).1 ht with ⟨rfl, h⟩ | ⟨rfl, h⟩ | ⟨rfl, h⟩
    · refine ⟨ptAC s.horz (R.loA s.horz) (s.b.c s.horz), ?_, ?_⟩
      · rw [low_on, dseg_on_iff s.horz, ptAC_a, ptAC_c]; omega
      · rw [has_iff s.horz, ptAC_a, ptAC_c]; omega
    · refine ⟨ptAC s.horz (max (s.b.a s.horz) (R.loA s.horz)) (s.b.c s.horz), ?_, ?_⟩
      · rw [mid_on, dseg_on_iff s.horz, ptAC_a, ptAC_c]; omega
      · rw [has_iff s.horz, ptAC_a, ptAC_c]; omega
    · refine ⟨ptAC s.horz (R.hiA s.horz) (s.b.c s.horz), ?_, ?_⟩
      · rw [high_on, dseg_on_iff s.horz, ptAC_a, ptAC_c]; omega
      · rw [has_iff s.horz, ptAC_a, ptAC_c]; omega

/-- two pieces of a wire share an end, or a third piece shares an end with each -/
theorem pieces_join (hs : s.Pos) (hR : R.Strict) {t u : DSeg} (ht : t ∈ pieces init R w s) (hu : u ∈ pieces init R w s) :
    ∃ m ∈ pieces init R w s, (t = m ∨ t.e = m.b ∨ m.e = t.b) ∧ (m = u ∨ m.e = u.b ∨ u.e = m.b) := by
  have hst := (strict_iff s.horz R).1 hR
  have hlt := hs.lt
  obtain ⟨e1, e2, _⟩ := hs.1.ac
  unfold pieces at ht hu ⊢
  rcases load_cases init R s with hc | ⟨c1, c2, c3⟩
  · rw [loadSeg_out hs.1 hc hR.proper] at ht hu ⊢
    simp at ht hu
    rw [ht, hu]
    exact ⟨s, by simp, .inl rfl, .inl rfl⟩
  · have hlm : s.b.a s.horz < R.loA s.horz → (lowPart R w s).e = (midPart R w s).b := by
      intro h
      unfold lowPart midPart
      simp only
      rw [show min (s.e.a s.horz) (R.loA s.horz) = R.loA s.horz by omega, show max (s.b.a s.horz) (R.loA s.horz) = R.loA s.horz by omega, e1]
    have hmh : s.e.a s.horz > R.hiA s.horz → (midPart R w s).e = (highPart R w s).b := by
      intro h
      unfold highPart midPart
      simp only
      rw [show min (s.e.a s.horz) (R.hiA s.horz) = R.hiA s.horz by omega, show max (s.b.a s.horz) (R.hiA s.horz) = R.hiA s.horz by omega, e1]
    have hmem : ∀ x, x ∈ (loadSeg init R w s).1 ++ (loadSeg init R w s).2 ↔ x ∈ (loadSeg init R w s).1 := by
      intro x
      rw [List.mem_append]
      constructor
      · rintro (h | h)
        · exact h
        · rw [loadSeg_in hs.1 c1 c2 c3] at h; cases h
      · exact .inl
    rw [hmem] at ht hu
    by_cases hm : s.b.a s.horz < R.hiA s.horz ∧ R.loA s.horz < s.e.a s.horz
    · refine ⟨midPart R w s, (hmem _).2 ((mem_loadSeg_in hs.1 c1 c2 c3).2 (.inr (.inl ⟨rfl, hm⟩))), ?_, ?_⟩
      · rcases (mem_loadSeg_in hs.1 c1 c2 c3).1 ht with ⟨rfl, h⟩ | ⟨rfl, h⟩ | ⟨rfl, h⟩
        · exact .inr (.inl (hlm h))
        · exact .inl rfl
        · exact .inr (.inr (hmh h))
      · rcases (mem_loadSeg_in hs.1 c1 c2 c3).1 hu with ⟨rfl, h⟩ | ⟨rfl, h⟩ | ⟨rfl, h⟩
        · exact .inr (.inr (hlm h))
        · exact .inl rfl
        · exact .inr (.inl (hmh h))
    · refine ⟨t, (hmem _).2 ht, .inl rfl, ?_⟩
      left
      rcases (mem_loadSeg_in hs.1 c1 c2 c3).1 ht with ⟨rfl, h⟩ | ⟨rfl, h⟩ | ⟨rfl, h⟩ <;>
        rcases (mem_loadSeg_in hs.1 c1 c2 c3).1 hu with ⟨rfl, h'⟩ | ⟨rfl, h'⟩ | ⟨rfl, h'⟩ <;> first | rfl | omega

end TR
