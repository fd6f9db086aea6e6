import Verif.Setup.GcModel
/-! Specification vocabulary for the derived GCell grid. -/
namespace TR

/-- how often `x` occurs -/
def times (x : Int) (vals : List Int) : Nat := (vals.filter (fun y => decide (y = x))).length

/-- `m` is the most frequent value, the smallest one among equally frequent ones -/
def MostFrequent (vals : List Int) (m : Int) : Prop :=
  m ∈ vals ∧ ∀ x ∈ vals, times x vals < times m vals ∨ times x vals = times m vals ∧ m ≤ x

/-- `c` is on one of the lines start, start ± spacing, … -/
def OnGLine (start spacing c : Int) : Prop := ∃ k : Int, c = start + spacing * k

end TR
