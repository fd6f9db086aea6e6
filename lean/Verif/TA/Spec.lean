import Verif.TA.Model
/-! Specification vocabulary for track assignment. -/
namespace TR

/-- the quantity a pass of track assignment minimises: total cost in the first pass, violation cost later -/
def taKey (init : Bool) (cost drc : Int → Nat) (i : Int) : Nat := if init then cost i else drc i

/-- the tracks `seen` of a scan over `order` that stops after the first violation-free track -/
def Inspected (drc : Int → Nat) (order seen : List Int) : Prop :=
  ∃ rest, order = seen ++ rest ∧ (rest = [] ∨ ∃ init last, seen = init ++ [last] ∧ drc last = 0) ∧
    ∀ pre last, seen = pre ++ [last] → ∀ i ∈ pre, drc i ≠ 0

/-- a panel at the start of a pass: wires `todo`, none assigned yet -/
def taStart (todo : List Nat) : TAState := ⟨0, todo, fun _ => 0, []⟩

end TR
