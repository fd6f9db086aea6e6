import Verif.CutIn.Model
import Verif.GC.Cut.Spec
/-! # What the SPACING rules of a cut layer say -/
namespace TR

/-- `c` is the rule that SPACING number `i` says, without its second layer; a missing number is -1 (a missing number of cuts: no such condition) -/
def SaidBy (c : CutSpRule) (i : Nat) (x : LefCut) : Prop :=
  c.id = i ∧ c.spacing = x.spacing ∧ c.c2c = x.c2c ∧ c.sameNet = x.sameNet ∧ c.stack = x.stack ∧ c.exceptPG = x.exceptPG ∧ c.parOverlap = x.parOverlap ∧
  (∀ k, c.adj = some k ↔ (x.adj = k ∧ k ≠ 0)) ∧ (c.within = x.within ∧ x.within ≠ 0 ∨ c.within = -1 ∧ x.within = 0) ∧
  (c.area = x.area ∧ x.area ≠ 0 ∨ c.area = -1 ∧ x.area = 0)

/-- SPACING number `i` is the first with that second layer, for cuts of one net (`same`) or of any two nets -/
def FirstFor (cs : List LefCut) (same : Bool) (name : String) (i : Nat) (x : LefCut) : Prop :=
  cs[i]? = some x ∧ x.layer = name ∧ x.sameNet = same ∧ ∀ (j : Nat) (y : LefCut), j < i → cs[j]? = some y → y.layer = name → y.sameNet ≠ same

/-- the rule of the first such SPACING, linked to layer `l` -/
def RuleFor (cs : List LefCut) (same : Bool) (name : String) (l : Int) (c : CutSpRule) : Prop :=
  ∃ i x, FirstFor cs same name i x ∧ SaidBy c i x ∧ c.second = some l

end TR
