import Verif.Setup.ViaModel
import Verif.Geom.Spec
/-! Specification for default vias. -/
namespace TR

/-- smallest box around the figures -/
def IsHull (figs : List Box) (b : Box) : Prop :=
  (∀ f ∈ figs, b.left ≤ f.left ∧ b.bottom ≤ f.bottom ∧ f.right ≤ b.right ∧ f.top ≤ b.top) ∧
  (∃ f ∈ figs, f.left = b.left) ∧ (∃ f ∈ figs, f.bottom = b.bottom) ∧
  (∃ f ∈ figs, f.right = b.right) ∧ (∃ f ∈ figs, f.top = b.top)

/-- metal lies across the preferred direction of its layer: strictly wider than high on a vertical
layer, or not wider than high on a horizontal one -/
def Across (dir : DirOf) (l : Int) (b : Box) : Prop :=
  (b.top - b.bottom < b.right - b.left ∧ dir l = some false) ∨ (b.right - b.left ≤ b.top - b.bottom ∧ dir l = some true)

/-- the order in which single-cut vias are preferred, most important criterion first: declared DEFAULT,
narrow metal below, narrow metal above, metal above along its layer, small area above, small area
below, metal below along its layer -/
def PreferVia (dir : DirOf) (a b : SVia) (a1 a2 b1 b2 : Box) : Prop :=
  (a.isDefault = true ∧ b.isDefault = false) ∨ (a.isDefault = b.isDefault ∧
  (a1.width < b1.width ∨ (a1.width = b1.width ∧
  (a2.width < b2.width ∨ (a2.width = b2.width ∧
  ((¬ Across dir a.layer2 a2 ∧ Across dir b.layer2 b2) ∨ ((Across dir a.layer2 a2 ↔ Across dir b.layer2 b2) ∧
  (a.area2 < b.area2 ∨ (a.area2 = b.area2 ∧
  (a.area1 < b.area1 ∨ (a.area1 = b.area1 ∧
  (¬ Across dir a.layer1 a1 ∧ Across dir b.layer1 b1)))))))))))) 

/-- metal along the preferred direction: not higher than wide on a horizontal layer, not wider than
high on any other -/
def AlongLayer (dir : DirOf) (l : Int) (b : Box) : Prop :=
  (dir l = some true → b.top - b.bottom ≤ b.right - b.left) ∧ (dir l ≠ some true → b.right - b.left ≤ b.top - b.bottom)

/-- wider than high exactly on a horizontal layer -/
def MatchesDir (dir : DirOf) (l : Int) (b : Box) : Prop := b.top - b.bottom < b.right - b.left ↔ dir l = some true

/-- the same size, possibly turned -/
def SameSize (a b : Box) : Prop :=
  (a.right - a.left = b.right - b.left ∧ a.top - a.bottom = b.top - b.bottom) ∨
  (a.right - a.left = b.top - b.bottom ∧ a.top - a.bottom = b.right - b.left)

/-- `a` encloses `b` -/
def Encloses (a b : Box) : Prop := a.left ≤ b.left ∧ a.bottom ≤ b.bottom ∧ b.right ≤ a.right ∧ b.top ≤ a.top

/-- a single-cut via that no other single-cut via of the layer is preferred to -/
def BestSingleCut (dir : DirOf) (defs : List SVia) (s : SVia) : Prop :=
  s ∈ defs ∧ s.cuts.length = 1 ∧
  ∀ w ∈ defs, w.cuts.length = 1 → ∀ w1 w2 s1 s2, IsHull w.figs1 w1 → IsHull w.figs2 w2 → IsHull s.figs1 s1 → IsHull s.figs2 s2 →
    ¬ PreferVia dir w s w1 w2 s1 s2

end TR
