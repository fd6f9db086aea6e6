import Verif.GC.Rects.Props
/-! # Property C115: the rectangles-only rule -/
namespace TR

theorem meet_cells {q b : Box} {c : Point} : CellOf (boxMeet q b) c ↔ CellOf q c ∧ CellOf b c := by
  unfold CellOf boxMeet; simp only [Box.left, Box.right, Box.bottom, Box.top]
  constructor
  · rintro ⟨h1, h2, h3, h4⟩; exact ⟨⟨by omega, by omega, by omega, by omega⟩, by omega, by omega, by omega, by omega⟩
  · rintro ⟨⟨h1, h2, h3, h4⟩, h5, h6, h7, h8⟩; exact ⟨by omega, by omega, by omega, by omega⟩

theorem meet_metal {q : Box} {bs : List Box} {c : Point} : MetalCell (bs.map (boxMeet q)) c ↔ CellOf q c ∧ MetalCell bs c := by
  unfold MetalCell
  constructor
  · rintro ⟨b, hb, h⟩
    obtain ⟨a, ha, rfl⟩ := List.mem_map.1 hb
    obtain ⟨h1, h2⟩ := meet_cells.1 h
    exact ⟨h1, a, ha, h2⟩
  · rintro ⟨h, b, hb, h2⟩
    exact ⟨_, List.mem_map.2 ⟨b, hb, rfl⟩, meet_cells.2 ⟨h, h2⟩⟩

theorem countP_and_eq {α : Type} (p r : α → Bool) (l : List α) : l.countP (fun x => p x && r x) = l.countP p ↔ ∀ x ∈ l, p x = true → r x = true := by
  have hle : ∀ l : List α, l.countP (fun x => p x && r x) ≤ l.countP p := fun l =>
    List.countP_mono_left (fun x _ h => by rw [Bool.and_eq_true] at h; exact h.1)
  induction l with
  | nil => simp
  | cons a l ih =>
    have := hle l
    rw [List.countP_cons, List.countP_cons]
    cases hp : p a with
    | false =>
      simp only [Bool.false_and, Bool.false_eq_true, if_false, Nat.add_zero]
      refine ih.trans ?_; simp [hp]
    | true =>
      cases hr : r a with
      | false => simp only [Bool.true_and, Bool.false_eq_true, if_false, if_true]; constructor
                 · intro h; omega
                 · intro h; have := h a List.mem_cons_self hp; rw [hr] at this; cases this
      | true =>
        simp only [Bool.and_self, if_true, Nat.add_right_cancel_iff]
        refine ih.trans ?_; simp [hr]

theorem any_metal {bs : List Box} {c : Point} : (bs.any fun b => cellIn b c) = true ↔ MetalCell bs c := by
  rw [List.any_eq_true]
  constructor
  · rintro ⟨b, hb, h⟩; exact ⟨b, hb, cellIn_iff.1 h⟩
  · rintro ⟨b, hb, h⟩; exact ⟨b, hb, cellIn_iff.2 h⟩

theorem mem_concaveOf {ring : List REdge} {p : Point} : p ∈ concaveOf ring ↔ TurnsRightAt ring p := by
  unfold concaveOf TurnsRightAt
  rw [List.mem_filterMap]
  have hmod : ∀ i, i < ring.length → (i + 1) % ring.length = if i + 1 = ring.length then 0 else i + 1 := by
    intro i hi
    split
    · rename_i h; rw [h, Nat.mod_self]
    · exact Nat.mod_eq_of_lt (by omega)
  have hturn : ∀ d e : EDir, turnSign d e = -1 ↔ ((d = .E ∧ e = .S) ∨ (d = .S ∧ e = .W) ∨ (d = .W ∧ e = .N) ∨ (d = .N ∧ e = .E)) := by
    intro d e; cases d <;> cases e <;> simp [turnSign]
  constructor
  · rintro ⟨i, hi, h⟩
    rw [List.mem_range] at hi
    split at h
    · rename_i e f he hf
      split at h
      · rename_i ht
        cases h
        rw [hmod i hi] at hf
        exact ⟨e.1, f.1, f.2, ⟨i, he, hf⟩, (hturn _ _).1 ht⟩
      · cases h
    · cases h
  · rintro ⟨d, e, q, ⟨i, hi, hn⟩, ht⟩
    have hlt := (List.getElem?_eq_some_iff.1 hi).1
    refine ⟨i, List.mem_range.2 hlt, ?_⟩
    rw [hmod i hlt, hi, hn]
    dsimp only
    rw [if_pos ((hturn _ _).2 ht)]

/-- **C115.** What the rule reports: nothing if the metal is a rectangle; otherwise, at every concave corner that has metal which is not fixed
within the minimum width of it, the maximal rectangles of the metal within that distance — and nothing else. -/
theorem c115_rect_only_iff (minWidth : Nat) (metal fixed : List Box) (rings : List (List REdge)) (b : Box) :
    b ∈ rectOnlyCheck minWidth metal fixed rings ↔ ¬ IsRectangle metal ∧ ∃ p, (∃ ring ∈ rings, TurnsRightAt ring p) ∧
      (∃ c, CellOf ⟨⟨p.x - minWidth, p.y - minWidth⟩, ⟨p.x + minWidth, p.y + minWidth⟩⟩ c ∧ MetalCell metal c ∧ ¬ MetalCell fixed c) ∧
      Solid b ∧ (∀ c, CellOf b c → CellOf ⟨⟨p.x - minWidth, p.y - minWidth⟩, ⟨p.x + minWidth, p.y + minWidth⟩⟩ c ∧ MetalCell metal c) ∧
      (∀ s, Solid s → (∀ c, CellOf s c → CellOf ⟨⟨p.x - minWidth, p.y - minWidth⟩, ⟨p.x + minWidth, p.y + minWidth⟩⟩ c ∧ MetalCell metal c) → LiesIn b s → s = b) := by
  unfold rectOnlyCheck
  by_cases hr : (maxRects metal).length = 1
  · rw [if_pos hr]
    rw [c114_rectangle] at hr
    constructor
    · intro h; cases h
    · rintro ⟨h, _⟩; exact absurd hr h
  · rw [if_neg hr]
    rw [c114_rectangle] at hr
    rw [List.mem_flatMap]
    have hcond : ∀ q : Box, (unitCells q).countP (fun c => metal.any (fun b => cellIn b c) && fixed.any (fun b => cellIn b c)) = coveredArea q metal ↔
        ¬ ∃ c, CellOf q c ∧ MetalCell metal c ∧ ¬ MetalCell fixed c := by
      intro q
      unfold coveredArea
      rw [countP_and_eq]
      constructor
      · rintro h ⟨c, hc, hm, hf⟩; exact hf (any_metal.1 (h c (mem_unitCells.2 hc) (any_metal.2 hm)))
      · intro h c hc hm
        exact any_metal.2 (Classical.byContradiction fun hf => h ⟨c, mem_unitCells.1 hc, any_metal.1 hm, hf⟩)
    have hmax : ∀ q : Box, b ∈ maxRects (metal.map (boxMeet q)) ↔ Solid b ∧ (∀ c, CellOf b c → CellOf q c ∧ MetalCell metal c) ∧
        (∀ s, Solid s → (∀ c, CellOf s c → CellOf q c ∧ MetalCell metal c) → LiesIn b s → s = b) := by
      intro q
      rw [mem_maxRects]
      constructor
      · intro h; exact ⟨h.solid, fun c hc => meet_metal.1 (h.metal c hc), fun s hs hm hin => h.max s hs (fun c hc => meet_metal.2 (hm c hc)) hin⟩
      · rintro ⟨h1, h2, h3⟩; exact ⟨h1, fun c hc => meet_metal.2 (h2 c hc), fun s hs hm hin => h3 s hs (fun c hc => meet_metal.1 (hm c hc)) hin⟩
    constructor
    · rintro ⟨p, hp, hb⟩
      dsimp only at hb
      rw [List.mem_flatMap] at hp
      split at hb
      · cases hb
      · rename_i hn
        rw [hcond] at hn
        exact ⟨hr, p, (by obtain ⟨ring, h1, h2⟩ := hp; exact ⟨ring, h1, mem_concaveOf.1 h2⟩), Classical.byContradiction (fun h => hn (fun h2 => h h2)), (hmax _).1 hb⟩
    · rintro ⟨_, p, hp, hc, hb⟩
      refine ⟨p, List.mem_flatMap.2 (by obtain ⟨ring, h1, h2⟩ := hp; exact ⟨ring, h1, mem_concaveOf.2 h2⟩), ?_⟩
      dsimp only
      rw [if_neg]
      · exact (hmax _).2 hb
      · rw [hcond]; exact fun h => h hc

/-- two places of a row of cells, metal at one and not at the other: somewhere between them it changes -/
theorem change_between (P : Int → Prop) : ∀ (n : Nat) (a b lo hi : Int), (b - a).natAbs = n → lo ≤ a → a < hi → lo ≤ b → b < hi → P a → ¬ P b →
    ∃ k, lo ≤ k ∧ k + 1 < hi ∧ ((P k ∧ ¬ P (k + 1)) ∨ (¬ P k ∧ P (k + 1))) := by
  intro n
  induction n with
  | zero => intro a b lo hi h _ _ _ _ ha hb; have : a = b := by omega
            rw [this] at ha; exact absurd ha hb
  | succ n ih =>
    intro a b lo hi h h1 h2 h3 h4 ha hb
    rcases Int.lt_or_le a b with hlt | hge
    · by_cases hp : P (a + 1)
      · exact ih (a + 1) b lo hi (by omega) (by omega) (by omega) h3 h4 hp hb
      · exact ⟨a, h1, by omega, .inl ⟨ha, hp⟩⟩
    · by_cases hp : P (a - 1)
      · exact ih (a - 1) b lo hi (by omega) (by omega) (by omega) h3 h4 hp hb
      · refine ⟨a - 1, by omega, by omega, .inr ⟨hp, ?_⟩⟩
        rw [show a - 1 + 1 = a by omega]; exact ha

theorem not_all {bs : List Box} {r : Box} (h : ¬ AllMetal bs r) : ∃ c, CellOf r c ∧ ¬ MetalCell bs c :=
  Classical.byContradiction fun hn => h fun c hc => Classical.byContradiction fun hm => hn ⟨c, hc, hm⟩

/-- metal in one piece that is not a rectangle has a concave corner -/
theorem concave_exists {bs : List Box} (h1 : OnePiece bs) {c0 : Point} (h0 : MetalCell bs c0) (hn : ¬ IsRectangle bs) : ∃ p, ConcaveAt bs p := by
  obtain ⟨r, hr, hc0⟩ := cell_in_max h0
  have hmax := mem_maxRects.1 hr
  have hout : ∃ c, MetalCell bs c ∧ ¬ CellOf r c := Classical.byContradiction fun h => hn ⟨r, hmax.solid, fun c =>
    ⟨fun hc => Classical.byContradiction fun hr => h ⟨c, hc, hr⟩, fun hc => hmax.metal c hc⟩⟩
  obtain ⟨c', hc', hnc'⟩ := hout
  have leave : ∀ {a b : Point}, MetalWalk bs a b → CellOf r a → ¬ CellOf r b → ∃ d e, CellOf r d ∧ ¬ CellOf r e ∧ Beside d e ∧ MetalCell bs e := by
    intro a b hw
    induction hw with
    | here _ => intro h h'; exact absurd h h'
    | @step d e hw hb hm ih =>
      intro h h'
      by_cases hd : CellOf r d
      · exact ⟨d, e, hd, h', hb, hm⟩
      · exact ih h hd
  obtain ⟨d, e, hd, he, hb, hme⟩ := leave (h1 c0 c' h0 hc') hc0 hnc'
  obtain ⟨nl, nr, nb, nt⟩ := stuck_of_max hmax
  obtain ⟨d1, d2, d3, d4⟩ := hd
  have hin : ∀ x y, r.left ≤ x → x < r.right → r.bottom ≤ y → y < r.top → MetalCell bs ⟨x, y⟩ := fun x y a b c d => hmax.metal ⟨x, y⟩ ⟨a, b, c, d⟩
  have hsol := hmax.solid
  obtain ⟨s1, s2⟩ := hsol
  have side : ∀ (f : Box) , ¬ AllMetal bs f → ∃ c, CellOf f c ∧ ¬ MetalCell bs c := fun f h => not_all h
  cases e with
  | mk ex ey =>
  cases d with
  | mk dx dy =>
  simp only [CellOf, Beside] at d1 d2 d3 d4 he hb
  rcases hb with ⟨hy, hx | hx⟩ | ⟨hx, hy | hy⟩
  · -- to the right
    have hxr : ex = r.right := Classical.byContradiction fun h => he ⟨by omega, by omega, by omega, by omega⟩
    obtain ⟨⟨gx, gy⟩, ⟨g1, g2, g3, g4⟩, gm⟩ := side _ nr
    simp only [growR_left, growR_right, growR_bottom, growR_top] at g1 g2 g3 g4
    have hgx : gx = r.right := Classical.byContradiction fun h => gm (hin gx gy g1 (by omega) g3 g4)
    rw [hxr] at hme; rw [hgx] at gm
    obtain ⟨k, k1, k2, hk⟩ := change_between (fun y => MetalCell bs ⟨r.right, y⟩) _ ey gy r.bottom r.top rfl (by omega) (by omega) g3 g4 hme gm
    refine ⟨⟨r.right, k + 1⟩, ?_⟩
    have e1 := hin (r.right - 1) k (by omega) (by omega) k1 (by omega)
    have e2 := hin (r.right - 1) (k + 1) (by omega) (by omega) (by omega) k2
    unfold ConcaveAt; dsimp only
    rw [show k + 1 - 1 = k by omega]
    rcases hk with ⟨ha, hb⟩ | ⟨ha, hb⟩
    · exact .inl ⟨e1, ha, e2, hb⟩
    · exact .inr (.inr (.inl ⟨e1, ha, e2, hb⟩))
  · -- to the left
    have hxr : ex = r.left - 1 := Classical.byContradiction fun h => he ⟨by omega, by omega, by omega, by omega⟩
    obtain ⟨⟨gx, gy⟩, ⟨g1, g2, g3, g4⟩, gm⟩ := side _ nl
    simp only [growL_left, growL_right, growL_bottom, growL_top] at g1 g2 g3 g4
    have hgx : gx = r.left - 1 := Classical.byContradiction fun h => gm (hin gx gy (by omega) (by omega) g3 g4)
    rw [hxr] at hme; rw [hgx] at gm
    obtain ⟨k, k1, k2, hk⟩ := change_between (fun y => MetalCell bs ⟨r.left - 1, y⟩) _ ey gy r.bottom r.top rfl (by omega) (by omega) g3 g4 hme gm
    refine ⟨⟨r.left, k + 1⟩, ?_⟩
    have e1 := hin r.left k (by omega) (by omega) k1 (by omega)
    have e2 := hin r.left (k + 1) (by omega) (by omega) (by omega) k2
    unfold ConcaveAt; dsimp only
    rw [show k + 1 - 1 = k by omega]
    rcases hk with ⟨ha, hb⟩ | ⟨ha, hb⟩
    · exact .inr (.inl ⟨ha, e1, hb, e2⟩)
    · exact .inr (.inr (.inr ⟨ha, e1, hb, e2⟩))
  · -- above
    have hyr : ey = r.top := Classical.byContradiction fun h => he ⟨by omega, by omega, by omega, by omega⟩
    obtain ⟨⟨gx, gy⟩, ⟨g1, g2, g3, g4⟩, gm⟩ := side _ nt
    simp only [growT_left, growT_right, growT_bottom, growT_top] at g1 g2 g3 g4
    have hgy : gy = r.top := Classical.byContradiction fun h => gm (hin gx gy g1 g2 g3 (by omega))
    rw [hyr] at hme; rw [hgy] at gm
    obtain ⟨k, k1, k2, hk⟩ := change_between (fun x => MetalCell bs ⟨x, r.top⟩) _ ex gx r.left r.right rfl (by omega) (by omega) g1 g2 hme gm
    refine ⟨⟨k + 1, r.top⟩, ?_⟩
    have e1 := hin k (r.top - 1) k1 (by omega) (by omega) (by omega)
    have e2 := hin (k + 1) (r.top - 1) (by omega) k2 (by omega) (by omega)
    unfold ConcaveAt; dsimp only
    rw [show k + 1 - 1 = k by omega]
    rcases hk with ⟨ha, hb⟩ | ⟨ha, hb⟩
    · exact .inl ⟨e1, e2, ha, hb⟩
    · exact .inr (.inl ⟨e1, e2, ha, hb⟩)
  · -- below
    have hyr : ey = r.bottom - 1 := Classical.byContradiction fun h => he ⟨by omega, by omega, by omega, by omega⟩
    obtain ⟨⟨gx, gy⟩, ⟨g1, g2, g3, g4⟩, gm⟩ := side _ nb
    simp only [growB_left, growB_right, growB_bottom, growB_top] at g1 g2 g3 g4
    have hgy : gy = r.bottom - 1 := Classical.byContradiction fun h => gm (hin gx gy g1 g2 (by omega) g4)
    rw [hyr] at hme; rw [hgy] at gm
    obtain ⟨k, k1, k2, hk⟩ := change_between (fun x => MetalCell bs ⟨x, r.bottom - 1⟩) _ ex gx r.left r.right rfl (by omega) (by omega) g1 g2 hme gm
    refine ⟨⟨k + 1, r.bottom⟩, ?_⟩
    have e1 := hin k r.bottom k1 (by omega) (by omega) (by omega)
    have e2 := hin (k + 1) r.bottom (by omega) k2 (by omega) (by omega)
    unfold ConcaveAt; dsimp only
    rw [show k + 1 - 1 = k by omega]
    rcases hk with ⟨ha, hb⟩ | ⟨ha, hb⟩
    · exact .inr (.inr (.inl ⟨ha, hb, e1, e2⟩))
    · exact .inr (.inr (.inr ⟨ha, hb, e1, e2⟩))

/-- A routed shape in one piece that is not a rectangle is always reported (outlines that turn right at the concave corners of the metal). -/
theorem c115_non_rectangle_reported (minWidth : Nat) (hw : 0 < minWidth) (metal fixed : List Box) (rings : List (List REdge))
    (hrings : ∀ p, ConcaveAt metal p → ∃ ring ∈ rings, TurnsRightAt ring p)
    (h1 : OnePiece metal) (h0 : ∃ c, MetalCell metal c) (hf : ∀ c, MetalCell metal c → ¬ MetalCell fixed c) (hn : ¬ IsRectangle metal) :
    ∃ b, b ∈ rectOnlyCheck minWidth metal fixed rings := by
  obtain ⟨c0, h0⟩ := h0
  obtain ⟨p, hp⟩ := concave_exists h1 h0 hn
  -- one of the cells around the corner is metal
  have hcell : ∃ c, CellOf (cornerSquare p minWidth) c ∧ MetalCell metal c := by
    have hsq : ∀ x y, (x = p.x ∨ x = p.x - 1) → (y = p.y ∨ y = p.y - 1) → CellOf (cornerSquare p minWidth) ⟨x, y⟩ := by
      intro x y hx hy
      unfold CellOf cornerSquare; simp only [Box.left, Box.right, Box.bottom, Box.top]
      refine ⟨?_, ?_, ?_, ?_⟩ <;> omega
    rcases hp with h | h | h | h
    · exact ⟨_, hsq _ _ (.inr rfl) (.inr rfl), h.1⟩
    · exact ⟨_, hsq _ _ (.inr rfl) (.inr rfl), h.1⟩
    · exact ⟨_, hsq _ _ (.inr rfl) (.inr rfl), h.1⟩
    · exact ⟨_, hsq _ _ (.inl rfl) (.inr rfl), h.2.1⟩
  obtain ⟨c, hc, hm⟩ := hcell
  obtain ⟨b, hb, _⟩ := cell_in_max (bs := metal.map (boxMeet (cornerSquare p minWidth))) (meet_metal.2 ⟨hc, hm⟩)
  have hb' := mem_maxRects.1 hb
  refine ⟨b, (c115_rect_only_iff ..).2 ⟨hn, p, hrings p hp, ⟨c, hc, hm, hf c hm⟩, hb'.solid, fun c hc => meet_metal.1 (hb'.metal c hc), fun s hs hsm hin =>
    hb'.max s hs (fun c hc => meet_metal.2 (hsm c hc)) hin⟩⟩

/-- the outline of the L -/
def ellOutline : List REdge := [(.E, ⟨6, 0⟩), (.N, ⟨6, 2⟩), (.W, ⟨2, 2⟩), (.N, ⟨2, 5⟩), (.W, ⟨0, 5⟩), (.S, ⟨0, 0⟩)]

/-- Non-vacuity: the L is reported at its concave corner, not if it is fixed; a rectangle made of two boxes is not reported. -/
example : rectOnlyCheck 1 ellMetal [] [ellOutline] = [⟨⟨1, 1⟩, ⟨3, 2⟩⟩, ⟨⟨1, 1⟩, ⟨2, 3⟩⟩] ∧ rectOnlyCheck 1 ellMetal ellMetal [ellOutline] = [] ∧
    rectOnlyCheck 1 [⟨⟨0, 0⟩, ⟨2, 2⟩⟩, ⟨⟨1, 0⟩, ⟨5, 2⟩⟩] [] [[(.E, ⟨5, 0⟩), (.N, ⟨5, 2⟩), (.W, ⟨0, 2⟩), (.S, ⟨0, 0⟩)]] = [] := by decide +kernel

theorem ell_metal {c : Point} : MetalCell ellMetal c ↔ (0 ≤ c.x ∧ c.x < 6 ∧ 0 ≤ c.y ∧ c.y < 2) ∨ (0 ≤ c.x ∧ c.x < 2 ∧ 2 ≤ c.y ∧ c.y < 5) := by
  simp [MetalCell, ellMetal, CellOf, Box.left, Box.right, Box.bottom, Box.top]

/-- Non-vacuity: the L meets the hypotheses of the second theorem. -/
example : (∀ p, ConcaveAt ellMetal p → ∃ ring ∈ [ellOutline], TurnsRightAt ring p) ∧ (∃ c, MetalCell ellMetal c) ∧
    (∀ c, MetalCell ellMetal c → ¬ MetalCell [] c) ∧ ¬ IsRectangle ellMetal ∧ OnePiece ellMetal := by
  refine ⟨fun p hp => ?_, ⟨⟨0, 0⟩, ell_metal.2 (by simp)⟩, fun c _ h => (by obtain ⟨b, hb, _⟩ := h; cases hb), fun h => ?_, fun a b ha hb => ?_⟩
  · unfold ConcaveAt at hp
    simp only [ell_metal] at hp
    have : p = ⟨2, 2⟩ := by cases p; simp only [Point.mk.injEq] at *; omega
    subst this
    exact ⟨_, List.mem_singleton.2 rfl, mem_concaveOf.1 (by decide)⟩
  · rw [← c114_rectangle] at h; revert h; decide +kernel
  · -- walk to the origin: first down, then left
    have symm : ∀ {u v : Point}, Beside u v → Beside v u := by
      intro u v h; unfold Beside at *; omega
    have trans : ∀ {u v w : Point}, MetalWalk ellMetal u v → MetalWalk ellMetal v w → MetalWalk ellMetal u w := by
      intro u v w huv hvw
      induction hvw with
      | here _ => exact huv
      | step _ hb hm ih => exact .step ih hb hm
    have start : ∀ {u v : Point}, MetalWalk ellMetal u v → MetalCell ellMetal u := by
      intro u v h
      induction h with
      | here h => exact h
      | step _ _ _ ih => exact ih
    have rev : ∀ {u v : Point}, MetalWalk ellMetal u v → MetalWalk ellMetal v u := by
      intro u v h
      induction h with
      | here h => exact .here _ h
      | step hw hb hm ih => exact trans (.step (.here _ hm) (symm hb) (start ih)) ih
    have down : ∀ (n : Nat) (c : Point), c.y = n → MetalCell ellMetal c → MetalWalk ellMetal c ⟨c.x, 0⟩ := by
      intro n
      induction n with
      | zero => intro c hc hm; have : c = ⟨c.x, 0⟩ := by cases c; simp_all
                rw [← this]; exact .here _ hm
      | succ n ih =>
        intro c hc hm
        have hm' : MetalCell ellMetal ⟨c.x, c.y - 1⟩ := by rw [ell_metal] at *; dsimp only; omega
        have := ih ⟨c.x, c.y - 1⟩ (by dsimp only; omega) hm'
        exact trans (.step (.here _ hm) (by unfold Beside; dsimp only; omega) hm') this
    have left : ∀ (n : Nat) (x : Int), x = n → MetalCell ellMetal ⟨x, 0⟩ → MetalWalk ellMetal ⟨x, 0⟩ ⟨0, 0⟩ := by
      intro n
      induction n with
      | zero => intro x hx hm; subst hx; exact .here _ hm
      | succ n ih =>
        intro x hx hm
        have hm' : MetalCell ellMetal ⟨x - 1, 0⟩ := by rw [ell_metal] at *; dsimp only at *; omega
        exact trans (.step (.here _ hm) (by unfold Beside; dsimp only; omega) hm') (ih (x - 1) (by omega) hm')
    have home : ∀ c, MetalCell ellMetal c → MetalWalk ellMetal c ⟨0, 0⟩ := by
      intro c hm
      have h := ell_metal.1 hm
      have h1 := down c.y.toNat c (by omega) hm
      exact trans h1 (left c.x.toNat c.x (by omega) (ell_metal.2 (by dsimp only; omega)))
    exact trans (home a ha) (rev (home b hb))

end TR
