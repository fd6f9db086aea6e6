import Verif.Geom.Lemmas
/-! Property theorems C01–C05 (geometry). -/
namespace TR

/-- C01: `revert` undoes a placement, on both sides. -/
theorem c01_revert_inverse (t : Xform) (p : Point) :
    (p.transform t).transform t.revert = p ∧ (p.transform t.revert).transform t = p := by
  obtain ⟨ox, oy, ori⟩ := t
  obtain ⟨x, y⟩ := p
  cases ori <;> simp only [Point.transform, Xform.revert, Point.mk.injEq] <;> omega

/-- C01: reverting twice gives back the same placement. -/
theorem c01_revert_revert (t : Xform) : t.revert.revert = t := by
  obtain ⟨ox, oy, ori⟩ := t
  cases ori <;> simp [Xform.revert]

/-- C01: distinct points stay distinct, and every point is the image of some point. -/
theorem c01_bijective (t : Xform) :
    (∀ p q : Point, p.transform t = q.transform t → p = q) ∧ (∀ q, ∃ p : Point, p.transform t = q) := by
  constructor
  · intro p q h
    have hp := (c01_revert_inverse t p).1
    have hq := (c01_revert_inverse t q).1
    rw [h] at hp
    exact hp.symm.trans hq
  · intro q; exact ⟨q.transform t.revert, (c01_revert_inverse t q).2⟩

example : (⟨3, 7⟩ : Point).transform ⟨100, 200, .MYR90⟩ = ⟨93, 197⟩ := by decide

/-- C01: the orientation name survives being written and parsed back. -/
theorem c01_orient_name_roundtrip (o : Orient) : Orient.ofName o.name = o := by
  cases o <;> decide

/-- C02: distances are preserved. -/
theorem c02_rigid (t : Xform) (p q : Point) :
    manhattan (p.transform t) (q.transform t) = manhattan p q ∧
    distSq (p.transform t) (q.transform t) = distSq p q := by
  obtain ⟨ox, oy, ori⟩ := t
  obtain ⟨x, y⟩ := p
  obtain ⟨x', y'⟩ := q
  constructor
  · cases ori <;> simp only [Point.transform, manhattan, iabs] <;> omega
  · have e1 : ∀ a b c : Int, (a - b - (a - c)) = -(b - c) := by intros; omega
    have e2 : ∀ a b c : Int, (a + b - (a + c)) = (b - c) := by intros; omega
    cases ori <;> simp only [Point.transform, distSq, e1, e2, Int.neg_mul_neg, Int.add_comm]

/-- C02: the transformed box contains exactly the images of the points of the box. -/
theorem c02_box_transform_points (t : Xform) (b : Box) (hb : b.Valid) (p : Point) :
    (b.transform t).Mem (p.transform t) ↔ b.Mem p := by
  obtain ⟨ox, oy, ori⟩ := t
  obtain ⟨⟨x1, y1⟩, ⟨x2, y2⟩⟩ := b
  obtain ⟨x, y⟩ := p
  simp only [Box.Valid, Box.left, Box.right, Box.bottom, Box.top] at hb
  cases ori <;>
    simp only [Box.transform, Box.Mem, InRect, Box.mk4_eq, Point.transform, Box.left, Box.right,
      Box.bottom, Box.top] <;> omega

/-- C02: the result is normalised, keeps its dimensions (swapped exactly for the four
90-degree orientations), hence `width()` and `length()`. -/
theorem c02_box_transform_dims (t : Xform) (b : Box) (hb : b.Valid) :
    (b.transform t).Valid ∧
    (b.transform t).width = b.width ∧ (b.transform t).length = b.length ∧
    (b.transform t).right - (b.transform t).left =
      (if t.ori.swaps then b.top - b.bottom else b.right - b.left) ∧
    (b.transform t).top - (b.transform t).bottom =
      (if t.ori.swaps then b.right - b.left else b.top - b.bottom) := by
  obtain ⟨ox, oy, ori⟩ := t
  obtain ⟨⟨x1, y1⟩, ⟨x2, y2⟩⟩ := b
  simp only [Box.Valid, Box.left, Box.right, Box.bottom, Box.top] at hb
  cases ori <;>
    simp only [Box.transform, Box.Valid, Box.width, Box.length, Box.mk4_eq, Point.transform, Box.left,
      Box.right, Box.bottom, Box.top, Orient.swaps, if_true, if_false, Bool.false_eq_true] <;>
    refine ⟨?_, ?_, ?_, ?_, ?_⟩ <;> omega

/-- C02: two placed shapes overlap (or touch) iff the master shapes do. -/
theorem c02_overlap_invariant (t : Xform) (a b : Box) (ha : a.Valid) (hb : b.Valid) (e : Bool) :
    (a.transform t).overlaps (b.transform t) e = a.overlaps b e := by
  obtain ⟨ox, oy, ori⟩ := t
  obtain ⟨⟨x1, y1⟩, ⟨x2, y2⟩⟩ := a
  obtain ⟨⟨u1, v1⟩, ⟨u2, v2⟩⟩ := b
  simp only [Box.Valid, Box.left, Box.right, Box.bottom, Box.top] at ha hb
  rw [Bool.eq_iff_iff]
  cases e <;> simp only [Box.overlaps_true, Box.overlaps_false] <;> cases ori <;>
    simp only [Box.transform, Box.mk4_eq, Point.transform, Box.left, Box.right,
      Box.bottom, Box.top] <;> omega

example : (⟨⟨0, 0⟩, ⟨10, 4⟩⟩ : Box).Valid ∧
    (⟨⟨0, 0⟩, ⟨10, 4⟩⟩ : Box).transform ⟨50, 50, .R90⟩ = ⟨⟨46, 50⟩, ⟨50, 60⟩⟩ :=
  ⟨by simp [Box.Valid, Box.left, Box.right, Box.bottom, Box.top], by decide⟩

/-- C03: for a LEF macro with ORIGIN `o` and SIZE `s`, whose shapes therefore live in the
outline [-o, s-o], an instance placed at `(t.ox, t.oy)` with any orientation puts the
outline's image exactly on the DEF placement point: lower-left corner at the placement
point, dimensions those of the master (swapped for 90-degree orientations). The
precondition `o ≤ s` is what the code's re-normalisation of the boundary relies on. -/
theorem c03_placed_outline (t : Xform) (o s : Point) (h0 : 0 ≤ s.x ∧ 0 ≤ s.y)
    (hx : o.x ≤ s.x) (hy : o.y ≤ s.y) :
    let x := updatedXform t (blockBBox [lefBoundary o s] default)
    (⟨⟨-o.x, -o.y⟩, ⟨s.x - o.x, s.y - o.y⟩⟩ : Box).transform x =
      ⟨⟨t.ox, t.oy⟩,
       if t.ori.swaps then ⟨t.ox + s.y, t.oy + s.x⟩ else ⟨t.ox + s.x, t.oy + s.y⟩⟩ := by
  obtain ⟨ox, oy, ori⟩ := t
  obtain ⟨a, b⟩ := o
  obtain ⟨c, d⟩ := s
  simp only at h0 hx hy
  have hbb : blockBBox [lefBoundary ⟨a, b⟩ ⟨c, d⟩] default = ⟨⟨a, b⟩, ⟨c, d⟩⟩ := by
    simp only [blockBBox, lefBoundary, boundaryBBox, List.foldl, ite_lt_min, ite_gt_max, Box.mk4_eq,
      Box.left, Box.right, Box.bottom, Box.top]
    simp only [Box.mk.injEq, Point.mk.injEq]
    refine ⟨⟨?_, ?_⟩, ?_, ?_⟩ <;> omega
  simp only [hbb]
  cases ori <;>
    simp only [updatedXform, Xform.update, Box.transform, Box.mk4_eq, Point.transform, Box.left,
      Box.right, Box.bottom, Box.top, Orient.swaps, Bool.not_false, if_true, if_false,
      Bool.false_eq_true, Box.mk.injEq, Point.mk.injEq] <;>
    refine ⟨⟨?_, ?_⟩, ?_, ?_⟩ <;> omega

/-- C03: the precondition `o ≤ s` is needed: a macro with ORIGIN 5 0 and SIZE 3 3 is
placed at the wrong place by the code (its boundary box is silently re-normalised). -/
theorem c03_large_origin_misplaced :
    (⟨⟨-5, 0⟩, ⟨-2, 3⟩⟩ : Box).transform
      (updatedXform ⟨0, 0, .R0⟩ (blockBBox [lefBoundary ⟨5, 0⟩ ⟨3, 3⟩] default)) ≠
      ⟨⟨0, 0⟩, ⟨3, 3⟩⟩ := by decide

example : (⟨⟨-1, -2⟩, ⟨19, 8⟩⟩ : Box).transform
    (updatedXform ⟨1000, 2000, .R90⟩ (blockBBox [lefBoundary ⟨1, 2⟩ ⟨20, 10⟩] default)) =
    ⟨⟨1000, 2000⟩, ⟨1010, 2020⟩⟩ := by decide

/-- C04: `set` normalises, whatever the argument order. -/
theorem c04_set_normalises (a b c d : Int) :
    (Box.mk4 a b c d).Valid ∧
    (∀ p, (Box.mk4 a b c d).Mem p ↔ InRect (min a c) (min b d) (max a c) (max b d) p) := by
  constructor
  · simp only [Box.Valid, Box.mk4_eq, Box.left, Box.right, Box.bottom, Box.top]
    omega
  · intro p
    simp only [Box.Mem, InRect, Box.mk4_eq, Box.left, Box.right, Box.bottom, Box.top]

/-- C04: point containment is membership in the closed / open rectangle. -/
theorem c04_contains_point (b : Box) (p : Point) :
    (b.containsPt p true = true ↔ InRect b.left b.bottom b.right b.top p) ∧
    (b.containsPt p false = true ↔ InRectOpen b.left b.bottom b.right b.top p) := by
  simp [Box.containsPt, InRect, InRectOpen, Box.left, Box.right, Box.bottom, Box.top, and_assoc]

/-- C04: box containment is point-set inclusion, for a normalised inner box. -/
theorem c04_contains_box (b c : Box) (hc : c.Valid) :
    b.containsBox c true = true ↔ ∀ p, c.Mem p → b.Mem p := by
  obtain ⟨⟨u1, v1⟩, ⟨u2, v2⟩⟩ := c
  simp only [Box.Valid, Box.left, Box.right, Box.bottom, Box.top] at hc
  simp only [Box.containsBox_true, Box.Mem, InRect, Box.left, Box.right, Box.bottom, Box.top]
  constructor
  · rintro h p hp; omega
  · intro h
    have h1 := h ⟨u1, v1⟩ (by simp; omega)
    have h2 := h ⟨u2, v2⟩ (by simp; omega)
    simp only at h1 h2
    omega

/-- C04: `overlaps` with edges = the closed point sets meet (boxes normalised). -/
theorem c04_overlaps_closed (b c : Box) (hb : b.Valid) (hc : c.Valid) :
    b.overlaps c true = true ↔ ∃ p, b.Mem p ∧ c.Mem p := by
  obtain ⟨⟨x1, y1⟩, ⟨x2, y2⟩⟩ := b
  obtain ⟨⟨u1, v1⟩, ⟨u2, v2⟩⟩ := c
  simp only [Box.Valid, Box.left, Box.right, Box.bottom, Box.top] at hb hc
  simp only [Box.overlaps_true, Box.Mem, InRect, Box.left, Box.right, Box.bottom, Box.top]
  constructor
  · intro h
    exact ⟨⟨max x1 u1, max y1 v1⟩, by simp; omega, by simp; omega⟩
  · rintro ⟨p, h1, h2⟩; omega

/-- C04: `overlaps` without edges = the boxes share area, i.e. there is a rectangle with
positive width and height inside both (boxes with positive dimensions). -/
theorem c04_overlaps_open (b c : Box) (hb : b.left < b.right ∧ b.bottom < b.top)
    (hc : c.left < c.right ∧ c.bottom < c.top) :
    b.overlaps c false = true ↔
      ∃ x1 y1 x2 y2, x1 < x2 ∧ y1 < y2 ∧
        ∀ p, InRect x1 y1 x2 y2 p → b.Mem p ∧ c.Mem p := by
  obtain ⟨⟨x1, y1⟩, ⟨x2, y2⟩⟩ := b
  obtain ⟨⟨u1, v1⟩, ⟨u2, v2⟩⟩ := c
  simp only [Box.left, Box.right, Box.bottom, Box.top] at hb hc
  simp only [Box.overlaps_false, Box.Mem, InRect, Box.left, Box.right, Box.bottom, Box.top]
  constructor
  · intro h
    exact ⟨max x1 u1, max y1 v1, min x2 u2, min y2 v2, by omega, by omega, fun p hp => by omega⟩
  · rintro ⟨a, b, c, d, hac, hbd, h⟩
    have h1 := h ⟨a, b⟩ (by simp; omega)
    have h2 := h ⟨c, d⟩ (by simp; omega)
    simp only at h1 h2
    omega

/-- C04: bloating by `d ≥ 0` yields exactly the points within max-norm distance `d`. -/
theorem c04_bloat (b : Box) (hb : b.Valid) (d : Int) (hd : 0 ≤ d) (p : Point) :
    (b.bloat d).Mem p ↔ ∃ q, b.Mem q ∧ chebyshev p q ≤ d := by
  obtain ⟨⟨x1, y1⟩, ⟨x2, y2⟩⟩ := b
  obtain ⟨x, y⟩ := p
  simp only [Box.Valid, Box.left, Box.right, Box.bottom, Box.top] at hb
  simp only [Box.bloat, Box.Mem, InRect, Box.mk4_eq, Box.left, Box.right, Box.bottom, Box.top,
    chebyshev, iabs]
  constructor
  · intro h
    refine ⟨⟨max x1 (min x x2), max y1 (min y y2)⟩, ?_, ?_⟩
    · simp only; omega
    · simp only; omega
  · rintro ⟨q, h1, h2⟩
    omega

/-- C04: a bloat by `-d` that over-shrinks a box is *not* empty: the corners are swapped
back and a box reappears (here a 4-wide box shrunk by 3 becomes 2 wide). -/
theorem c04_negative_bloat_flips :
    (⟨⟨0, 0⟩, ⟨4, 4⟩⟩ : Box).bloat (-3) = ⟨⟨1, 1⟩, ⟨3, 3⟩⟩ := by decide

example : (⟨⟨0, 0⟩, ⟨10, 20⟩⟩ : Box).Valid ∧ (⟨⟨5, 5⟩, ⟨30, 30⟩⟩ : Box).Valid ∧
  (⟨⟨0, 0⟩, ⟨10, 20⟩⟩ : Box).overlaps ⟨⟨5, 5⟩, ⟨30, 30⟩⟩ false = true := by
  simp [Box.Valid, Box.left, Box.right, Box.bottom, Box.top, Box.overlaps]

/-- C05: `frPoint::operator<` is a strict total order. -/
theorem c05_point_order : StrictTotal Point.lt := by
  refine ⟨?_, ?_, ?_⟩
  · intro a; simp [Point.lt]
  · intro a b c; simp only [Point.lt_iff]; omega
  · rintro ⟨a, b⟩ ⟨c, d⟩ h
    simp only [Point.lt_iff, ne_eq, Point.mk.injEq] at *; omega

/-- C05: `frBox::operator<` is a strict total order. -/
theorem c05_box_order : StrictTotal Box.lt := by
  have hp := c05_point_order
  refine ⟨?_, ?_, ?_⟩
  · intro a; simp [Box.lt, hp.irrefl]
  · rintro ⟨a, b⟩ ⟨c, d⟩ ⟨e, f⟩ h1 h2
    simp only [Box.lt, beq_iff_eq] at *
    by_cases h3 : a = c
    · subst h3
      by_cases h4 : a = e
      · subst h4; simp_all; exact hp.trans _ _ _ h1 h2
      · simp_all
    · by_cases h4 : c = e
      · subst h4; simp_all
      · simp only [h3, h4, if_false] at h1 h2
        have h5 := hp.trans _ _ _ h1 h2
        by_cases h6 : a = e
        · subst h6; rw [hp.irrefl] at h5; cases h5
        · simp [h6, h5]
  · rintro ⟨a, b⟩ ⟨c, d⟩ h
    simp only [Box.lt, beq_iff_eq, ne_eq, Box.mk.injEq] at *
    by_cases h3 : a = c
    · subst h3; simp_all; exact hp.total _ _ h
    · have h3' : ¬ c = a := fun h => h3 h.symm
      simp only [h3, h3', if_false]; exact hp.total _ _ h3

example : Box.lt ⟨⟨0, 0⟩, ⟨4, 4⟩⟩ ⟨⟨0, 0⟩, ⟨4, 5⟩⟩ = true ∧ Point.lt ⟨1, 9⟩ ⟨2, 0⟩ = true := by decide

end TR
