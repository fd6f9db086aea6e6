import Verif.PA.Pattern.Model
/-! # Access patterns: what the properties say -/
namespace TR

/-- one candidate is chosen for every item -/
def Selects (costs : List (List Int)) (xs : List Nat) : Prop :=
  xs.length = costs.length ∧ ∀ (k a : Nat) cs, xs[k]? = some a → costs[k]? = some cs → a < cs.length

/-- cost of choosing pattern `a` for cell `k` and pattern `b` for the next cell -/
def pairCost (clean : Nat → Nat → Nat → Bool) (costs : List (List Int)) (k a b : Nat) : Int :=
  if clean k a b then (((costs.getD k []).getD a 0) + ((costs.getD (k + 1) []).getD b 0)).tdiv 2 else 1000

/-- cost of a choice for the cells from number `k` on -/
def rowCost (w : Nat → Nat → Nat → Int) : Nat → List Nat → Int
  | _, [] => 0
  | _, [_] => 0
  | k, a :: b :: r => w k a b + rowCost w (k + 1) (b :: r)

/-- no two neighbouring cells from number `k` on have conflicting patterns -/
def RowClean (clean : Nat → Nat → Nat → Bool) : Nat → List Nat → Prop
  | _, [] => True
  | _, [_] => True
  | k, a :: b :: r => clean k a b = true ∧ RowClean clean (k + 1) (b :: r)

/-- `b` continues the row of `a`: same height, no gap before it -/
def Abuts (a b : RowInst) : Prop := b.y = a.y ∧ b.x ≤ a.right

/-- neighbours in the list are related -/
def Consec {α : Type} (R : α → α → Prop) : List α → Prop
  | [] => True
  | [_] => True
  | a :: b :: r => R a b ∧ Consec R (b :: r)

end TR
