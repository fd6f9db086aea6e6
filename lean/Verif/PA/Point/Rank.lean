import Verif.PA.Point.Props
/-! C67: what the rank of a via means. -/
namespace TR

/-- the pin comes within `m` of the left and right sides of the via metal -/
def SidesWithinX (m : Int) (v : Box) (shapes : List Box) : Prop :=
  (∃ r ∈ shapes, r.OverInside v ∧ r.ll.x ≤ v.ll.x + m) ∧ (∃ r ∈ shapes, r.OverInside v ∧ v.ur.x - m ≤ r.ur.x)

/-- the same for the bottom and top sides -/
def SidesWithinY (m : Int) (v : Box) (shapes : List Box) : Prop :=
  (∃ r ∈ shapes, r.OverInside v ∧ r.ll.y ≤ v.ll.y + m) ∧ (∃ r ∈ shapes, r.OverInside v ∧ v.ur.y - m ≤ r.ur.y)

/-- the point lies within three wire widths of the left or right edge of its cell -/
def NearCellEdge (T : PaTech) (E : PaEnv) (a : AccPt) : Prop :=
  ∃ b, E.bbox = some b ∧ (a.pt.x ≤ b.ll.x + 3 * T.width a.layer ∨ b.ur.x - 3 * T.width a.layer ≤ a.pt.x)

theorem lrBound_iff (T : PaTech) (E : PaEnv) (a : AccPt) : lrBound T E a = true ↔ NearCellEdge T E a := by
  unfold lrBound NearCellEdge
  cases E.bbox with
  | none => simp
  | some b => simp [Box.left, Box.right]

theorem exts_le (v : Box) (hx : v.ll.x < v.ur.x) (hy : v.ll.y < v.ur.y) (shapes : List Box) (m : Int) (hm : 0 ≤ m)
    (hover : ∃ r ∈ shapes, r.OverInside v) :
    ((viaExts v shapes).1 ≤ m ∧ (viaExts v shapes).2.1 ≤ m ↔ SidesWithinX m v shapes) ∧
    ((viaExts v shapes).2.2.1 ≤ m ∧ (viaExts v shapes).2.2.2 ≤ m ↔ SidesWithinY m v shapes) := by
  obtain ⟨r0, hr0, ho0⟩ := hover
  have hmem : ∀ r : Box, r ∈ shapes.filter (fun r => decide (max r.left v.left < min r.right v.right) && decide (max r.bottom v.bottom < min r.top v.top)) ↔
      r ∈ shapes ∧ r.OverInside v := by
    intro r
    rw [List.mem_filter]
    apply and_congr_right
    intro _
    simp only [Bool.and_eq_true, decide_eq_true_eq, Box.OverInside, Box.left, Box.right, Box.bottom, Box.top]
    omega
  unfold viaExts SidesWithinX SidesWithinY
  simp only
  generalize shapes.filter (fun r => decide (max r.left v.left < min r.right v.right) && decide (max r.bottom v.bottom < min r.top v.top)) = H at hmem
  have hne : H ≠ [] := by
    intro h
    have := (hmem r0).2 ⟨hr0, ho0⟩
    rw [h] at this
    cases this
  have key : ∀ (f : Box → Int) (P : Box → Prop) (c : Int), (∀ r, r.OverInside v → (f r ≤ c ↔ P r)) →
      (minOf 0 (H.map f) ≤ c ↔ ∃ r ∈ shapes, r.OverInside v ∧ P r) := by
    intro f P c hf
    rw [minOf_le]
    simp only [List.map_eq_nil_iff, List.mem_map, hne, false_and, false_or]
    constructor
    · rintro ⟨x, ⟨r, hr, rfl⟩, hle⟩
      exact ⟨r, ((hmem r).1 hr).1, ((hmem r).1 hr).2, (hf r ((hmem r).1 hr).2).1 hle⟩
    · rintro ⟨r, h1, h2, h3⟩
      exact ⟨f r, ⟨r, (hmem r).2 ⟨h1, h2⟩, rfl⟩, (hf r h2).2 h3⟩
  have key2 : ∀ (f : Box → Int) (P : Box → Prop) (c : Int), (∀ r, r.OverInside v → (c ≤ f r ↔ P r)) →
      (c ≤ maxOf 0 (H.map f) ↔ ∃ r ∈ shapes, r.OverInside v ∧ P r) := by
    intro f P c hf
    rw [maxOf_ge]
    simp only [List.map_eq_nil_iff, List.mem_map, hne, false_and, false_or]
    constructor
    · rintro ⟨x, ⟨r, hr, rfl⟩, hle⟩
      exact ⟨r, ((hmem r).1 hr).1, ((hmem r).1 hr).2, (hf r ((hmem r).1 hr).2).1 hle⟩
    · rintro ⟨r, h1, h2, h3⟩
      exact ⟨f r, ⟨r, (hmem r).2 ⟨h1, h2⟩, rfl⟩, (hf r h2).2 h3⟩
  have k1 := key (fun r => max r.left v.left) (fun r => r.ll.x ≤ v.ll.x + m) (v.left + m) (by intro r _; simp only [Box.left]; omega)
  have k2 := key2 (fun r => min r.right v.right) (fun r => v.ur.x - m ≤ r.ur.x) (v.right - m) (by intro r _; simp only [Box.right]; omega)
  have k3 := key (fun r => max r.bottom v.bottom) (fun r => r.ll.y ≤ v.ll.y + m) (v.bottom + m) (by intro r _; simp only [Box.bottom]; omega)
  have k4 := key2 (fun r => min r.top v.top) (fun r => v.ur.y - m ≤ r.ur.y) (v.top - m) (by intro r _; simp only [Box.top]; omega)
  rw [← k1, ← k2, ← k3, ← k4]
  omega

/-- **C67** The rank the vias of a point are ordered by is how far the via's metal sticks out of the pin under it: it is at most `m` iff the pin comes
within `m` of all four sides of the metal; near the left or right edge of the cell, where the via need not stay in the pin, only the left and right
sides count. -/
theorem c67_rank (T : PaTech) (E : PaEnv) (shapes : Int → List Box) (a : AccPt) (v : PVia)
    (hv : v.l1.ll.x < v.l1.ur.x ∧ v.l1.ll.y < v.l1.ur.y) (hover : ∃ r ∈ shapes a.layer, r.OverInside (v.l1.shift a.pt)) (m : Int) (hm : 0 ≤ m) :
    viaRank T E shapes a v ≤ m ↔ SidesWithinX m (v.l1.shift a.pt) (shapes a.layer) ∧
      ((NearCellEdge T E a ∧ ¬ T.InPin a) ∨ SidesWithinY m (v.l1.shift a.pt) (shapes a.layer)) := by
  obtain ⟨h1, h2⟩ := exts_le (v.l1.shift a.pt) (by simp only [Box.shift, Box.left, Box.right]; omega) (by simp only [Box.shift, Box.bottom, Box.top]; omega)
    (shapes a.layer) m hm hover
  rw [← h1, ← h2, ← lrBound_iff, ← inPin_iff]
  unfold viaRank
  simp only
  cases lrBound T E a <;> cases viaInPin T a <;>
    simp only [Bool.not_true, Bool.not_false, Bool.and_true, Bool.and_false, Bool.false_eq_true, if_false, if_true, false_and, and_false, true_and, not_false_eq_true,
      not_true_eq_false, false_or, true_or, and_true] <;> omega

/-- a via whose metal leaves the pin by one unit on the left and by two at the top: in the middle of a cell its rank is 2, near the right edge 1 -/
example : viaRank exPaTech ⟨fun _ _ _ => true, fun _ _ _ => true, some ⟨⟨0, 0⟩, ⟨200, 200⟩⟩⟩ (fun _ => [⟨⟨97, 90⟩, ⟨110, 102⟩⟩])
      ⟨⟨100, 100⟩, 2, true, true, true, true, true, 0, 0, []⟩ ⟨⟨⟨-4, -4⟩, ⟨4, 4⟩⟩, ⟨⟨-4, -6⟩, ⟨4, 6⟩⟩⟩ = 2 ∧
    viaRank exPaTech ⟨fun _ _ _ => true, fun _ _ _ => true, some ⟨⟨0, 0⟩, ⟨124, 200⟩⟩⟩ (fun _ => [⟨⟨97, 90⟩, ⟨110, 102⟩⟩])
      ⟨⟨100, 100⟩, 2, true, true, true, true, true, 0, 0, []⟩ ⟨⟨⟨-4, -4⟩, ⟨4, 4⟩⟩, ⟨⟨-4, -6⟩, ⟨4, 6⟩⟩⟩ = 1 := by decide

end TR
