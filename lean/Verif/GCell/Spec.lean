import Verif.GCell.Model
import Verif.Geom.Spec
/-! Specification vocabulary for the GCell grid. -/
namespace TR

/-- One axis of a GCell pattern fits the die span [dl, dh]: at least one GCell, positive
spacing, and both die edges lie outside the inner GCell lines, so that the first and last
GCell (which are stretched to the die edge) are not empty. -/
def AxisFits (p : GCellPat) (dl dh : Int) : Prop :=
  0 < p.spacing ∧ 0 < p.count ∧ dl < dh ∧ dl < p.start + p.spacing ∧
  p.start + p.spacing * (p.count - 1) < dh

/-- The grid fits the die. -/
def GGrid.Fits (g : GGrid) : Prop :=
  AxisFits g.xp g.die.left g.die.right ∧ AxisFits g.yp g.die.bottom g.die.top

/-- GCell index in range. -/
def GGrid.InRange (g : GGrid) (c : Point) : Prop :=
  0 ≤ c.x ∧ c.x < g.xp.count ∧ 0 ≤ c.y ∧ c.y < g.yp.count

/-- Two boxes share no interior point. -/
def NoInterior (a b : Box) : Prop :=
  ¬ ∃ x1 y1 x2 y2, x1 < x2 ∧ y1 < y2 ∧ ∀ p, InRect x1 y1 x2 y2 p → a.Mem p ∧ b.Mem p

/-- `a` contains every point of `b`. -/
def BoxSubset (b a : Box) : Prop := ∀ p, b.Mem p → a.Mem p

/-- The gap between two boxes, along x or along y, is at least `d`. -/
def GapAtLeast (d : Int) (a b : Box) : Prop :=
  a.right + d ≤ b.left ∨ b.right + d ≤ a.left ∨ a.top + d ≤ b.bottom ∨ b.top + d ≤ a.bottom

end TR
