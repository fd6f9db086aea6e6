/-! Specification vocabulary for graph connectivity, independent of the search. -/
namespace TR

/-- nodes reachable from `a` along `adj` without leaving the set `K` -/
inductive Within (adj : Nat → List Nat) (K : Nat → Prop) (a : Nat) : Nat → Prop
  | refl : K a → Within adj K a a
  | step {b c : Nat} : Within adj K a b → c ∈ adj b → K c → Within adj K a c

/-- nodes reachable from `a` along `adj` -/
def Reaches (adj : Nat → List Nat) (a b : Nat) : Prop := Within adj (fun _ => True) a b

end TR
