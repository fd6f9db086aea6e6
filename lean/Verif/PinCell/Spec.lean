import Verif.PinCell.Model
import Verif.GCell.Spec
import Verif.WB.Model
/-! Specification vocabulary for the GCells of terminals. -/
namespace TR

/-- two boxes have a point in common, be it on their sides -/
def BoxesMeet (a b : Box) : Prop := a.left ≤ b.right ∧ b.left ≤ a.right ∧ a.bottom ≤ b.top ∧ b.bottom ≤ a.top

/-- the insides of two boxes have a point in common -/
def BoxesOverlap (a b : Box) : Prop := a.left < b.right ∧ b.left < a.right ∧ a.bottom < b.top ∧ b.bottom < a.top

/-- a rectangle with ordered corners that reaches into the die -/
def PcTech.Reaches (T : PcTech) (b : Box) : Prop :=
  b.left ≤ b.right ∧ b.bottom ≤ b.top ∧
  T.grid.die.left ≤ b.right ∧ b.left < T.grid.die.right ∧ T.grid.die.bottom ≤ b.top ∧ b.bottom < T.grid.die.top

/-- the GCell only touches the lower left of the rectangle: at its corner; or, if there are no tracks across the layers, at the side along
the tracks -/
def PcTech.OnlyTouches (T : PcTech) (l : Int) (c : Point) (b : Box) : Prop :=
  ((T.grid.box c).right = b.left ∧ (T.grid.box c).top = b.bottom) ∨
  (T.nonPref = false ∧ ((T.dir l = some false ∧ (T.grid.box c).right = b.left) ∨ (T.dir l = some true ∧ (T.grid.box c).top = b.bottom)))

/-- at most one GCell apart, in both directions -/
def NextCell (c d : Point) : Prop := c.x - 1 ≤ d.x ∧ d.x ≤ c.x + 1 ∧ c.y - 1 ≤ d.y ∧ d.y ≤ c.y + 1

/-- the access point of pin number `k` in instances of class `i`: the preferred one, otherwise the first -/
def PcPin.Chosen (i : Nat) (pref : List (Option (Point × Int))) (k : Nat) (p : PcPin) (a : Point × Int) : Prop :=
  pref.getD k none = some a ∨ (pref.getD k none = none ∧ (p.access.getD i []).head? = some a)

/-- `r` is a rectangle of the terminal as it lies in the design: with the component placed and turned, its outline at the place of the component -/
def PcTerm.RectAt (t : PcTerm) (r : Int × Box) : Prop :=
  ∃ p ∈ t.pins, ∃ s ∈ p.shapes, r.1 = s.1 ∧ ((t.inst = none ∧ r.2 = s.2) ∨ ∃ I, t.inst = some I ∧ r.2 = s.2.transform I.upd)

/-- `a` is where the access point chosen for a pin of a component's terminal lies, moved by the place of the component; pins without access
points are not counted -/
def PcTerm.AccessAt (t : PcTerm) (a : Point × Int) : Prop :=
  ∃ I i, t.inst = some I ∧ I.paIdx = some i ∧ ∃ (k : Nat) (p : PcPin) (b : Point × Int),
    (t.pins.filter fun q => !q.access.isEmpty)[k]? = some p ∧ p.Chosen i I.pref k b ∧ a = (⟨I.at'.ox + b.1.x, I.at'.oy + b.1.y⟩, b.2)

end TR
