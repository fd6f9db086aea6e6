import Verif.Geom.Spec
/-! Helper lemmas for geometry. -/
namespace TR

theorem Box.mk4_eq (a b c d : Int) :
    Box.mk4 a b c d = ⟨⟨min a c, min b d⟩, ⟨max a c, max b d⟩⟩ := by
  simp only [Box.mk4, Box.mk.injEq, Point.mk.injEq]
  refine ⟨⟨?_, ?_⟩, ?_, ?_⟩ <;> split <;> omega

theorem Box.overlaps_true (b c : Box) : b.overlaps c true = true ↔
    c.left ≤ b.right ∧ c.bottom ≤ b.top ∧ b.left ≤ c.right ∧ b.bottom ≤ c.top := by
  simp [Box.overlaps]; omega

theorem Box.overlaps_false (b c : Box) : b.overlaps c false = true ↔
    c.left < b.right ∧ c.bottom < b.top ∧ b.left < c.right ∧ b.bottom < c.top := by
  simp [Box.overlaps]; omega

theorem Point.lt_iff (a b : Point) : Point.lt a b = true ↔ a.x < b.x ∨ (a.x = b.x ∧ a.y < b.y) := by
  simp only [Point.lt, beq_iff_eq]
  split <;> simp <;> omega

theorem Box.containsBox_true (b c : Box) : b.containsBox c true = true ↔
    c.right ≤ b.right ∧ b.left ≤ c.left ∧ c.top ≤ b.top ∧ b.bottom ≤ c.bottom := by
  simp [Box.containsBox, Box.left, Box.right, Box.bottom, Box.top, and_assoc]

theorem ite_lt_min (a b : Int) : (if a < b then a else b) = min a b := by split <;> omega
theorem ite_gt_max (a b : Int) : (if a > b then a else b) = max a b := by split <;> omega

end TR
