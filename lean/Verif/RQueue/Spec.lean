import Verif.RQueue.Model
/-! Specification vocabulary for the reroute queue. -/
namespace TR

/-- all owners named by the checker and the initial markers come from `U` -/
def QMarker.From (U : List Nat) (m : QMarker) : Prop := (∀ o, some o ∈ m.aggr → o ∈ U) ∧ ∀ o, some o ∈ m.srcs → o ∈ U

/-- reported markers involve only owners in `U` -/
def GcFrom (U : List Nat) (gc : Nat → Option (List QMarker)) : Prop := ∀ t ms, gc t = some ms → ∀ m ∈ ms, m.From U

/-- states reached from `s` by passes of the loop -/
inductive QReach (E : QEnv) (gc : Nat → Option (List QMarker)) (routed : Nat → Bool) (s : QState) : QState → Prop
  | refl : QReach E gc routed s s
  | step {a b : QState} : QReach E gc routed s a → a.queue ≠ [] → qStep E gc routed a = some b → QReach E gc routed s b

end TR
