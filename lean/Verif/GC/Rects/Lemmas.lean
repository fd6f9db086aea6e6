import Verif.GC.Rects.Spec
import Verif.GC.Lemmas
/-! # Lemmas: maximal rectangles -/
namespace TR

theorem insideAll_iff {bs : List Box} {r : Box} : insideAll bs r = true ↔ AllMetal bs r := by
  unfold insideAll AllMetal MetalCell
  rw [List.all_eq_true]
  constructor
  · intro h c hc
    have := h c (mem_unitCells.2 hc)
    rw [List.any_eq_true] at this
    obtain ⟨b, hb, h⟩ := this
    exact ⟨b, hb, cellIn_iff.1 h⟩
  · intro h c hc
    obtain ⟨b, hb, h⟩ := h c (mem_unitCells.1 hc)
    exact List.any_eq_true.2 ⟨b, hb, cellIn_iff.2 h⟩

theorem insideAll_false {bs : List Box} {r : Box} : insideAll bs r = false ↔ ¬ AllMetal bs r := by
  rw [← insideAll_iff]; simp

theorem liesIn_cells {r s : Box} (h : LiesIn r s) {c : Point} (hc : CellOf r c) : CellOf s c := by
  obtain ⟨h1, h2, h3, h4⟩ := h; obtain ⟨a, b, d, e⟩ := hc; exact ⟨by omega, by omega, by omega, by omega⟩

theorem cells_liesIn {r s : Box} (hr : Solid r) (h : ∀ c, CellOf r c → CellOf s c) : LiesIn r s := by
  obtain ⟨h1, h2⟩ := hr
  have a := h ⟨r.left, r.bottom⟩ ⟨by simp, h1, by simp, h2⟩
  have b := h ⟨r.right - 1, r.top - 1⟩ ⟨by dsimp only; omega, by dsimp only; omega, by dsimp only; omega, by dsimp only; omega⟩
  obtain ⟨a1, a2, a3, a4⟩ := a; obtain ⟨b1, b2, b3, b4⟩ := b
  dsimp only at *
  exact ⟨by omega, by omega, by omega, by omega⟩

theorem allMetal_liesIn {bs : List Box} {r s : Box} (h : LiesIn r s) (hs : AllMetal bs s) : AllMetal bs r := fun c hc => hs c (liesIn_cells h hc)

theorem liesIn_refl (r : Box) : LiesIn r r := ⟨Int.le_refl _, Int.le_refl _, Int.le_refl _, Int.le_refl _⟩
theorem LiesIn.trans {r s t : Box} (h : LiesIn r s) (h' : LiesIn s t) : LiesIn r t := by
  obtain ⟨a, b, c, d⟩ := h; obtain ⟨a', b', c', d'⟩ := h'; exact ⟨by omega, by omega, by omega, by omega⟩

theorem box_ext {r s : Box} (h1 : r.left = s.left) (h2 : r.right = s.right) (h3 : r.bottom = s.bottom) (h4 : r.top = s.top) : r = s := by
  cases r with | mk a b => cases a; cases b; cases s with | mk a b => cases a; cases b; simp_all [Box.left, Box.right, Box.bottom, Box.top]

@[simp] theorem growL_left (r : Box) : (growL r).left = r.left - 1 := rfl
@[simp] theorem growL_right (r : Box) : (growL r).right = r.right := rfl
@[simp] theorem growL_bottom (r : Box) : (growL r).bottom = r.bottom := rfl
@[simp] theorem growL_top (r : Box) : (growL r).top = r.top := rfl
@[simp] theorem growR_left (r : Box) : (growR r).left = r.left := rfl
@[simp] theorem growR_right (r : Box) : (growR r).right = r.right + 1 := rfl
@[simp] theorem growR_bottom (r : Box) : (growR r).bottom = r.bottom := rfl
@[simp] theorem growR_top (r : Box) : (growR r).top = r.top := rfl
@[simp] theorem growB_left (r : Box) : (growB r).left = r.left := rfl
@[simp] theorem growB_right (r : Box) : (growB r).right = r.right := rfl
@[simp] theorem growB_bottom (r : Box) : (growB r).bottom = r.bottom - 1 := rfl
@[simp] theorem growB_top (r : Box) : (growB r).top = r.top := rfl
@[simp] theorem growT_left (r : Box) : (growT r).left = r.left := rfl
@[simp] theorem growT_right (r : Box) : (growT r).right = r.right := rfl
@[simp] theorem growT_bottom (r : Box) : (growT r).bottom = r.bottom := rfl
@[simp] theorem growT_top (r : Box) : (growT r).top = r.top + 1 := rfl

/-- a rectangle of metal none of whose four neighbours can be added is maximal -/
theorem max_of_stuck {bs : List Box} {r : Box} (hs : Solid r) (hm : AllMetal bs r) (hl : ¬ AllMetal bs (growL r)) (hr : ¬ AllMetal bs (growR r))
    (hb : ¬ AllMetal bs (growB r)) (ht : ¬ AllMetal bs (growT r)) : IsMaxRect bs r := by
  refine ⟨hs, hm, fun s _ hsm hin => ?_⟩
  obtain ⟨h1, h2, h3, h4⟩ := hin
  have a1 : ¬ s.left < r.left := fun h => hl (allMetal_liesIn (s := s) ⟨by simp; omega, by simp; omega, by simp; omega, by simp; omega⟩ hsm)
  have a2 : ¬ r.right < s.right := fun h => hr (allMetal_liesIn (s := s) ⟨by simp; omega, by simp; omega, by simp; omega, by simp; omega⟩ hsm)
  have a3 : ¬ s.bottom < r.bottom := fun h => hb (allMetal_liesIn (s := s) ⟨by simp; omega, by simp; omega, by simp; omega, by simp; omega⟩ hsm)
  have a4 : ¬ r.top < s.top := fun h => ht (allMetal_liesIn (s := s) ⟨by simp; omega, by simp; omega, by simp; omega, by simp; omega⟩ hsm)
  exact box_ext (by omega) (by omega) (by omega) (by omega)

theorem stuck_of_max {bs : List Box} {r : Box} (h : IsMaxRect bs r) : ¬ AllMetal bs (growL r) ∧ ¬ AllMetal bs (growR r) ∧ ¬ AllMetal bs (growB r) ∧ ¬ AllMetal bs (growT r) := by
  obtain ⟨⟨h1, h2⟩, _, hmax⟩ := h
  refine ⟨fun hm => ?_, fun hm => ?_, fun hm => ?_, fun hm => ?_⟩
  · have := congrArg Box.left (hmax _ ⟨by simp; omega, by simp; omega⟩ hm ⟨by simp; omega, by simp, by simp, by simp⟩); simp at this; omega
  · have := congrArg Box.right (hmax _ ⟨by simp; omega, by simp; omega⟩ hm ⟨by simp, by simp; omega, by simp, by simp⟩); simp at this; omega
  · have := congrArg Box.bottom (hmax _ ⟨by simp; omega, by simp; omega⟩ hm ⟨by simp, by simp, by simp; omega, by simp⟩); simp at this; omega
  · have := congrArg Box.top (hmax _ ⟨by simp; omega, by simp; omega⟩ hm ⟨by simp, by simp, by simp, by simp; omega⟩); simp at this; omega

/-- the sides of a maximal rectangle are sides of boxes of the metal -/
theorem max_sides {bs : List Box} {r : Box} (h : IsMaxRect bs r) :
    (∃ b ∈ bs, b.left = r.left) ∧ (∃ b ∈ bs, b.right = r.right) ∧ (∃ b ∈ bs, b.bottom = r.bottom) ∧ (∃ b ∈ bs, b.top = r.top) := by
  obtain ⟨nl, nr, nb, nt⟩ := stuck_of_max h
  obtain ⟨⟨h1, h2⟩, hm, _⟩ := h
  refine ⟨Classical.byContradiction fun hn => nl fun c hc => ?_, Classical.byContradiction fun hn => nr fun c hc => ?_,
    Classical.byContradiction fun hn => nb fun c hc => ?_, Classical.byContradiction fun hn => nt fun c hc => ?_⟩
  · obtain ⟨c1, c2, c3, c4⟩ := hc; simp only [growL_left, growL_right, growL_bottom, growL_top] at c1 c2 c3 c4
    by_cases hx : r.left ≤ c.x
    · exact hm c ⟨hx, c2, c3, c4⟩
    · obtain ⟨b, hb, b1, b2, b3, b4⟩ := hm ⟨r.left, c.y⟩ ⟨by simp, h1, c3, c4⟩
      dsimp only at b1 b2 b3 b4
      have : b.left ≠ r.left := fun e => hn ⟨b, hb, e⟩
      exact ⟨b, hb, by omega, by omega, b3, b4⟩
  · obtain ⟨c1, c2, c3, c4⟩ := hc; simp only [growR_left, growR_right, growR_bottom, growR_top] at c1 c2 c3 c4
    by_cases hx : c.x < r.right
    · exact hm c ⟨c1, hx, c3, c4⟩
    · obtain ⟨b, hb, b1, b2, b3, b4⟩ := hm ⟨r.right - 1, c.y⟩ ⟨by dsimp only; omega, by dsimp only; omega, c3, c4⟩
      dsimp only at b1 b2 b3 b4
      have : b.right ≠ r.right := fun e => hn ⟨b, hb, e⟩
      exact ⟨b, hb, by omega, by omega, b3, b4⟩
  · obtain ⟨c1, c2, c3, c4⟩ := hc; simp only [growB_left, growB_right, growB_bottom, growB_top] at c1 c2 c3 c4
    by_cases hx : r.bottom ≤ c.y
    · exact hm c ⟨c1, c2, hx, c4⟩
    · obtain ⟨b, hb, b1, b2, b3, b4⟩ := hm ⟨c.x, r.bottom⟩ ⟨c1, c2, by simp, h2⟩
      dsimp only at b1 b2 b3 b4
      have : b.bottom ≠ r.bottom := fun e => hn ⟨b, hb, e⟩
      exact ⟨b, hb, b1, b2, by omega, by omega⟩
  · obtain ⟨c1, c2, c3, c4⟩ := hc; simp only [growT_left, growT_right, growT_bottom, growT_top] at c1 c2 c3 c4
    by_cases hx : c.y < r.top
    · exact hm c ⟨c1, c2, c3, hx⟩
    · obtain ⟨b, hb, b1, b2, b3, b4⟩ := hm ⟨c.x, r.top - 1⟩ ⟨c1, c2, by dsimp only; omega, by dsimp only; omega⟩
      dsimp only at b1 b2 b3 b4
      have : b.top ≠ r.top := fun e => hn ⟨b, hb, e⟩
      exact ⟨b, hb, b1, b2, by omega, by omega⟩

theorem mem_distinct {x : Box} : ∀ {l : List Box}, x ∈ distinctRects l ↔ x ∈ l := by
  intro l
  induction l with
  | nil => simp [distinctRects]
  | cons y l ih =>
    simp only [distinctRects]
    split
    · rw [ih, List.mem_cons]
      constructor
      · exact .inr
      · rintro (h | h)
        · subst h; rename_i hy; exact ih.1 hy
        · exact h
    · rw [List.mem_cons, List.mem_cons, ih]

theorem nodup_distinct : ∀ l : List Box, (distinctRects l).Nodup := by
  intro l
  induction l with
  | nil => simp [distinctRects]
  | cons y l ih =>
    simp only [distinctRects]
    split
    · exact ih
    · rename_i h; exact List.nodup_cons.2 ⟨h, ih⟩

theorem mem_maxRects {bs : List Box} {r : Box} : r ∈ maxRects bs ↔ IsMaxRect bs r := by
  unfold maxRects
  rw [mem_distinct, List.mem_filter]
  simp only [Bool.and_eq_true, decide_eq_true_eq, Bool.not_eq_true', insideAll_iff, insideAll_false]
  constructor
  · rintro ⟨_, ⟨⟨⟨⟨⟨⟨h1, h2⟩, h3⟩, h4⟩, h5⟩, h6⟩, h7⟩⟩
    exact max_of_stuck ⟨h1, h2⟩ h3 h4 h5 h6 h7
  · intro h
    obtain ⟨nl, nr, nb, nt⟩ := stuck_of_max h
    obtain ⟨⟨b1, hb1, e1⟩, ⟨b2, hb2, e2⟩, ⟨b3, hb3, e3⟩, ⟨b4, hb4, e4⟩⟩ := max_sides h
    refine ⟨?_, ⟨⟨⟨⟨⟨⟨h.solid.1, h.solid.2⟩, h.metal⟩, nl⟩, nr⟩, nb⟩, nt⟩⟩
    simp only [List.mem_flatMap, List.mem_map]
    exact ⟨_, ⟨b1, hb1, rfl⟩, _, ⟨b2, hb2, rfl⟩, _, ⟨b3, hb3, rfl⟩, _, ⟨b4, hb4, rfl⟩, box_ext e1 e2 e3 e4⟩

/-- all boxes lie in one -/
theorem hull_exists (bs : List Box) : ∃ h : Box, ∀ b ∈ bs, h.left ≤ b.left ∧ b.right ≤ h.right ∧ h.bottom ≤ b.bottom ∧ b.top ≤ h.top := by
  induction bs with
  | nil => exact ⟨⟨⟨0, 0⟩, ⟨0, 0⟩⟩, fun b hb => by cases hb⟩
  | cons x bs ih =>
    obtain ⟨h, hh⟩ := ih
    refine ⟨⟨⟨min h.left x.left, min h.bottom x.bottom⟩, ⟨max h.right x.right, max h.top x.top⟩⟩, fun b hb => ?_⟩
    simp only [Box.left, Box.right, Box.bottom, Box.top] at *
    cases hb with
    | head => exact ⟨by omega, by omega, by omega, by omega⟩
    | tail _ hb => obtain ⟨a, b, c, d⟩ := hh b hb; exact ⟨by omega, by omega, by omega, by omega⟩

theorem metal_in_hull {bs : List Box} {h : Box} (hh : ∀ b ∈ bs, h.left ≤ b.left ∧ b.right ≤ h.right ∧ h.bottom ≤ b.bottom ∧ b.top ≤ h.top)
    {r : Box} (hs : Solid r) (hm : AllMetal bs r) : LiesIn r h := by
  apply cells_liesIn hs
  intro c hc
  obtain ⟨b, hb, b1, b2, b3, b4⟩ := hm c hc
  obtain ⟨a1, a2, a3, a4⟩ := hh b hb
  exact ⟨by omega, by omega, by omega, by omega⟩

theorem grow_to_max {bs : List Box} {h : Box} (hh : ∀ b ∈ bs, h.left ≤ b.left ∧ b.right ≤ h.right ∧ h.bottom ≤ b.bottom ∧ b.top ≤ h.top) :
    ∀ (n : Nat) (r : Box), Solid r → AllMetal bs r → (r.left - h.left) + (h.right - r.right) + (r.bottom - h.bottom) + (h.top - r.top) < n →
      ∃ s, IsMaxRect bs s ∧ LiesIn r s := by
  intro n
  induction n with
  | zero =>
    intro r hs hm hn
    obtain ⟨a, b, c, d⟩ := metal_in_hull hh hs hm
    omega
  | succ n ih =>
    intro r hs hm hn
    obtain ⟨s1, s2⟩ := hs
    by_cases hl : AllMetal bs (growL r)
    · obtain ⟨s, h1, h2⟩ := ih (growL r) ⟨by simp; omega, by simp; omega⟩ hl (by simp; omega)
      exact ⟨s, h1, LiesIn.trans ⟨by simp; omega, by simp, by simp, by simp⟩ h2⟩
    by_cases hr : AllMetal bs (growR r)
    · obtain ⟨s, h1, h2⟩ := ih (growR r) ⟨by simp; omega, by simp; omega⟩ hr (by simp; omega)
      exact ⟨s, h1, LiesIn.trans ⟨by simp, by simp; omega, by simp, by simp⟩ h2⟩
    by_cases hb : AllMetal bs (growB r)
    · obtain ⟨s, h1, h2⟩ := ih (growB r) ⟨by simp; omega, by simp; omega⟩ hb (by simp; omega)
      exact ⟨s, h1, LiesIn.trans ⟨by simp, by simp, by simp; omega, by simp⟩ h2⟩
    by_cases ht : AllMetal bs (growT r)
    · obtain ⟨s, h1, h2⟩ := ih (growT r) ⟨by simp; omega, by simp; omega⟩ ht (by simp; omega)
      exact ⟨s, h1, LiesIn.trans ⟨by simp, by simp, by simp, by simp; omega⟩ h2⟩
    exact ⟨r, max_of_stuck ⟨s1, s2⟩ hm hl hr hb ht, liesIn_refl r⟩

theorem in_some_max {bs : List Box} {r : Box} (hs : Solid r) (hm : AllMetal bs r) : ∃ s ∈ maxRects bs, LiesIn r s := by
  obtain ⟨h, hh⟩ := hull_exists bs
  obtain ⟨s, h1, h2⟩ := grow_to_max hh (((r.left - h.left) + (h.right - r.right) + (r.bottom - h.bottom) + (h.top - r.top)).toNat + 1) r hs hm (by omega)
  exact ⟨s, mem_maxRects.2 h1, h2⟩

/-- the rectangle of one cell -/
def cellBox (c : Point) : Box := ⟨c, ⟨c.x + 1, c.y + 1⟩⟩

theorem cellBox_cells {c d : Point} : CellOf (cellBox c) d ↔ d = c := by
  unfold CellOf cellBox; simp only [Box.left, Box.right, Box.bottom, Box.top]
  constructor
  · rintro ⟨h1, h2, h3, h4⟩; cases c; cases d; simp only [Point.mk.injEq] at *; omega
  · rintro rfl; omega

theorem cell_in_max {bs : List Box} {c : Point} (h : MetalCell bs c) : ∃ s ∈ maxRects bs, CellOf s c := by
  obtain ⟨s, hs, h2⟩ := in_some_max (bs := bs) (r := cellBox c) (by unfold Solid cellBox; simp only [Box.left, Box.right, Box.bottom, Box.top]; omega)
    (fun d hd => by rw [cellBox_cells.1 hd]; exact h)
  exact ⟨s, hs, liesIn_cells h2 (cellBox_cells.2 rfl)⟩

end TR
