import Verif.WB.Model
/-! Specification vocabulary for wires and regions, independent of the code. -/
namespace TR

/-- a wire is horizontal or vertical and its begin is not after its end -/
def DSeg.Ok (s : DSeg) : Prop :=
  (s.b.x = s.e.x ∧ s.b.y ≤ s.e.y) ∨ (s.b.y = s.e.y ∧ s.b.x ≤ s.e.x)

/-- a point lies on the centre line of a wire -/
def DSeg.On (s : DSeg) (p : Point) : Prop :=
  s.b.x ≤ p.x ∧ p.x ≤ s.e.x ∧ s.b.y ≤ p.y ∧ p.y ≤ s.e.y

/-- a point of a layer lies on the centre line of a wire of the net -/
def Wired (objs : List DObj) (net : Nat) (l : Int) (p : Point) : Prop :=
  ∃ s, .seg s ∈ objs ∧ s.net = net ∧ s.layer = l ∧ s.On p

def WiresOk (objs : List DObj) : Prop := ∀ s, .seg s ∈ objs → s.Ok

/-- in the closed region; strictly inside; on its frame -/
def Box.Has (R : Box) (p : Point) : Prop := R.left ≤ p.x ∧ p.x ≤ R.right ∧ R.bottom ≤ p.y ∧ p.y ≤ R.top
def Box.Inner (R : Box) (p : Point) : Prop := R.left < p.x ∧ p.x < R.right ∧ R.bottom < p.y ∧ p.y < R.top
def Box.Frame (R : Box) (p : Point) : Prop := R.Has p ∧ ¬ R.Inner p

def Box.Proper (R : Box) : Prop := R.left ≤ R.right ∧ R.bottom ≤ R.top

/-- wires of a net that end at a point of a layer -/
def endWires (objs : List DObj) (net : Nat) (n : Node) : List DSeg :=
  objs.filterMap (fun
    | .seg s => if s.net = net ∧ s.layer = n.layer ∧ (s.b = n.pt ∨ s.e = n.pt) then some s else none
    | _ => none)

/-- closed boxes have a point in common -/
def Touches (a b : Box) : Prop := ∃ p, a.Has p ∧ b.Has p

end TR
