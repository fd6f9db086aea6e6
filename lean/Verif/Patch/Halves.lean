import Verif.Patch.Choice
/-! # C96 and C98: what vias count for -/
namespace TR

/-- C96: the areas of the default via that a run is credited with are those of its half boxes: of a via of half sizes `x1`, `y1` below and
`x2`, `y2` above, centred on its origin. -/
theorem c96_half_via (x1 y1 x2 y2 : Int) (h1 : 0 ≤ x1) (h2 : 0 ≤ y1) (h3 : 0 ≤ x2) (h4 : 0 ≤ y2) :
    halfEncOf (some (⟨⟨-x1, -y1⟩, ⟨x1, y1⟩⟩, ⟨⟨-x2, -y2⟩, ⟨x2, y2⟩⟩)) = (x1 * (2 * y1), x2 * (2 * y2)) := by
  have key : ∀ x y : Int, 0 ≤ x → 0 ≤ y → (Box.width ⟨⟨-x, -y⟩, ⟨x, y⟩⟩) * (Box.length ⟨⟨-x, -y⟩, ⟨x, y⟩⟩) / 2 = x * (2 * y) := by
    intro x y hx hy
    have e1 : x - -x = 2 * x := by omega
    have e2 : y - -y = 2 * y := by omega
    have : (Box.width ⟨⟨-x, -y⟩, ⟨x, y⟩⟩) * (Box.length ⟨⟨-x, -y⟩, ⟨x, y⟩⟩) = 2 * (x * (2 * y)) := by
      unfold Box.width Box.length
      simp only [Box.left, Box.right, Box.bottom, Box.top, e1, e2]
      rcases Int.le_total (2 * x) (2 * y) with h | h
      · simp only [Int.min_def, Int.max_def, h, if_true]; rw [Int.mul_assoc]
      · by_cases h' : 2 * x ≤ 2 * y
        · simp only [Int.min_def, Int.max_def, h', if_true]; rw [Int.mul_assoc]
        · simp only [Int.min_def, Int.max_def, h', if_false]; rw [Int.mul_comm, Int.mul_assoc]
    rw [this]; omega
  simp only [halfEncOf]
  rw [key x1 y1 h1 h2, key x2 y2 h3 h4]

/-- Non-vacuity: a via of 200 by 100 below and 100 by 100 above. -/
example : halfEncOf (some (⟨⟨-100, -50⟩, ⟨100, 50⟩⟩, ⟨⟨-50, -50⟩, ⟨50, 50⟩⟩)) = (10000, 5000) := by decide

/-- C98: a via or patch that sits at the outer end of a leaving wire and is so large that it reaches the access point is counted: the via with
half its area, the patch with all of it. -/
theorem c98_far_end_reaching (routeBox : Box) (bp e : Point) (w : Int) (sb vb : Box) (he : routeBox.containsPt e = false)
    (hs : sb.containsPt bp = true) (hv : vb.containsPt bp = true) (hne : bp ≠ e) :
    boundaryArea routeBox bp [(sb, .seg bp e w), (vb, .via e)] = ((e.x - bp.x).natAbs + (e.y - bp.y).natAbs) * w + vb.width * vb.length / 2 ∧
    boundaryArea routeBox bp [(sb, .seg bp e w), (vb, .patch e)] = ((e.x - bp.x).natAbs + (e.y - bp.y).natAbs) * w + vb.width * vb.length ∧
    boundaryArea routeBox bp [(sb, .seg e bp w), (vb, .via e)] = ((e.x - bp.x).natAbs + (e.y - bp.y).natAbs) * w + vb.width * vb.length / 2 ∧
    boundaryArea routeBox bp [(sb, .seg e bp w), (vb, .patch e)] = ((e.x - bp.x).natAbs + (e.y - bp.y).natAbs) * w + vb.width * vb.length := by
  have c1 : ((bp.x - e.x).natAbs : Int) = (e.x - bp.x).natAbs := by omega
  have c2 : ((bp.y - e.y).natAbs : Int) = (e.y - bp.y).natAbs := by omega
  refine ⟨?_, ?_, ?_, ?_⟩ <;>
  · simp [boundaryArea, segArea, farArea, hs, hv, he, hne, Ne.symm hne, c1, c2]

/-- Non-vacuity: a wire of length 40 and width 60 that ends on a via of 200 by 100. -/
example : boundaryArea ⟨⟨0, 0⟩, ⟨1000, 1000⟩⟩ ⟨1000, 500⟩ [(⟨⟨970, 470⟩, ⟨1070, 530⟩⟩, .seg ⟨1000, 500⟩ ⟨1040, 500⟩ 60), (⟨⟨940, 450⟩, ⟨1140, 550⟩⟩, .via ⟨1040, 500⟩)] = 12400 := by
  decide +kernel

end TR
