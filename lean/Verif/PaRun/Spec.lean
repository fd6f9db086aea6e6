import Verif.PaRun.Model
/-! # What is said of the order of vias and of the parallel loops -/
namespace TR

/-- `v` is to be tried before `w`: a default via before others; then by the width of the lower metal, of the upper
metal, by whether the upper metal lies along its layer, by the area of the upper metal, of the lower metal, and by
whether the lower metal lies along its layer. -/
def Preferred (v w : RawVia) : Prop :=
  (v.isDefault = true ∧ w.isDefault = false) ∨ (v.isDefault = w.isDefault ∧
  (metalWidth v.figs1 < metalWidth w.figs1 ∨ (metalWidth v.figs1 = metalWidth w.figs1 ∧
  (metalWidth v.figs2 < metalWidth w.figs2 ∨ (metalWidth v.figs2 = metalWidth w.figs2 ∧
  ((metalAcross v.figs2 v.dir2 = false ∧ metalAcross w.figs2 w.dir2 = true) ∨ (metalAcross v.figs2 v.dir2 = metalAcross w.figs2 w.dir2 ∧
  (metalArea v.figs2 < metalArea w.figs2 ∨ (metalArea v.figs2 = metalArea w.figs2 ∧
  (metalArea v.figs1 < metalArea w.figs1 ∨ (metalArea v.figs1 = metalArea w.figs1 ∧
  (metalAcross v.figs1 v.dir1 = false ∧ metalAcross w.figs1 w.dir1 = true))))))))))))

/-- neither is to be tried before the other -/
def SameRank (v w : RawVia) : Prop := ¬ Preferred v w ∧ ¬ Preferred w v

/-- the box holds all rectangles and touches one of them on every side -/
def IsExtent (figs : List Box) (e : Box) : Prop :=
  (∀ b ∈ figs, e.left ≤ b.left ∧ e.bottom ≤ b.bottom ∧ b.right ≤ e.right ∧ b.top ≤ e.top) ∧
  (∃ b ∈ figs, b.left = e.left) ∧ (∃ b ∈ figs, b.bottom = e.bottom) ∧ (∃ b ∈ figs, b.right = e.right) ∧ (∃ b ∈ figs, b.top = e.top)

end TR
