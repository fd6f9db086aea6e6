import Verif.Run.Pins
import Verif.GCell.Spec
/-! Specification of the boundary pins of the first iteration. -/
namespace TR

/-- a wire that runs to the right, or upwards, by more than one unit and lies in the die -/
def TWire.Horz (w : TWire) : Prop := w.b.y = w.e.y ∧ w.b.x + 1 < w.e.x
def TWire.Vert (w : TWire) : Prop := w.b.x = w.e.x ∧ w.b.y + 1 < w.e.y
def TWire.InDie (g : GGrid) (w : TWire) : Prop := g.die.Mem w.b ∧ g.die.Mem w.e

/-- as track assignment leaves them: in the die, running right or upwards -/
def TWire.Ok (g : GGrid) (w : TWire) : Prop := w.InDie g ∧ (w.b.y = w.e.y ∧ w.b.x ≤ w.e.x ∨ w.b.x = w.e.x ∧ w.b.y ≤ w.e.y)

/-- the wire reaches the point, other than by beginning there -/
def TWire.ReachesH (w : TWire) (p : Point) : Prop := w.Horz ∧ p.y = w.b.y ∧ w.b.x < p.x ∧ p.x ≤ w.e.x
def TWire.ReachesV (w : TWire) (p : Point) : Prop := w.Vert ∧ p.x = w.b.x ∧ w.b.y < p.y ∧ p.y ≤ w.e.y

/-- heights (columns) that belong to a region: its lower (left) border does, its upper (right) one only at the edge of the die -/
def OwnsY (g : GGrid) (R : Box) (y : Int) : Prop := R.bottom ≤ y ∧ (y < R.top ∨ y = R.top ∧ R.top = g.die.top)
def OwnsX (g : GGrid) (R : Box) (x : Int) : Prop := R.left ≤ x ∧ (x < R.right ∨ x = R.right ∧ R.right = g.die.right)

/-- vertical and horizontal lines of the GCell grid -/
def LineX (g : GGrid) (c : Int) : Prop := ∃ k, 0 ≤ k ∧ k < g.xp.count ∧ (c = (g.box ⟨k, 0⟩).left ∨ c = (g.box ⟨k, 0⟩).right)
def LineY (g : GGrid) (c : Int) : Prop := ∃ k, 0 ≤ k ∧ k < g.yp.count ∧ (c = (g.box ⟨0, k⟩).bottom ∨ c = (g.box ⟨0, k⟩).top)

/-- a horizontal wire gives a region a pin at `p`: it belongs to the region and reaches `p`, on the left or right border, or, if it runs
along the upper or lower border, on any line of GCells in between -/
def PinH (g : GGrid) (R : Box) (w : TWire) (p : Point) : Prop :=
  w.ReachesH p ∧ OwnsY g R p.y ∧ (p.x = R.left ∨ p.x = R.right ∨ (p.y = R.bottom ∨ p.y = R.top) ∧ R.left ≤ p.x ∧ p.x ≤ R.right ∧ LineX g p.x)
def PinV (g : GGrid) (R : Box) (w : TWire) (p : Point) : Prop :=
  w.ReachesV p ∧ OwnsX g R p.x ∧ (p.y = R.bottom ∨ p.y = R.top ∨ (p.x = R.left ∨ p.x = R.right) ∧ R.bottom ≤ p.y ∧ p.y ≤ R.top ∧ LineY g p.y)

/-- coordinates of the borders of the regions of the first iteration -/
def BorderX (g : GGrid) (clip x : Int) : Prop := ∃ W ∈ genWorkers g clip 0, x = W.routeBox.left ∨ x = W.routeBox.right
def BorderY (g : GGrid) (clip y : Int) : Prop := ∃ W ∈ genWorkers g clip 0, y = W.routeBox.bottom ∨ y = W.routeBox.top

end TR
