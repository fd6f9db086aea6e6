import Verif.Scale.Model

/-!
# Lengths in database units
-/

namespace TR

/-- `k` database units are exactly `v` millionths of a micron, at `N` units per micron -/
def LsExact (N : Nat) (v k : Int) : Prop := k * 1000000 = v * N

/-- ... up to half a unit -/
def LsNear (N : Nat) (v k : Int) : Prop := 2 * (k * 1000000 - v * N) ≤ 1000000 ∧ 2 * (v * N - k * 1000000) ≤ 1000000

/-- `k` square units are `v` millionths of a square micron, up to half -/
def LsNearArea (N : Nat) (v k : Int) : Prop := 2 * (k * 1000000 - v * N * N) ≤ 1000000 ∧ 2 * (v * N * N - k * 1000000) ≤ 1000000

/-- cut off: a number that is not negative is never made larger, and loses less than a unit -/
def LsBelow (N : Nat) (v k : Int) : Prop := 0 ≤ v → k * 1000000 ≤ v * N ∧ v * N < k * 1000000 + 1000000

/-- the numbers that are stored stand for those of the statement, at `N` units per micron -/
def LsHolds (N : Nat) : LsStmt → LsItem → Prop
  | .grid v, .grid k => LsNear N v k
  | .routing l, .routing w m p a st =>
      LsNear N l.width w ∧ m ≤ w ∧
      (match l.minWidth with | none => m = w | some x => LsNear N x m ∨ m = w ∧ ∀ k, LsNear N x k → w ≤ k) ∧
      LsNear N l.pitch p ∧
      (match l.area with | none => a = none | some x => ∃ k, a = some k ∧ LsNearArea N x k) ∧
      (match l.steps.getLast? with
        | none => st = none
        | some s => ∃ k m, st = some (k, m) ∧ LsBelow N s.1 k ∧ match s.2 with | none => m = -1 | some x => LsBelow N x m)
  | .cut ss, .cut ks =>
      ks.length = ss.length ∧ ∀ (i : Nat) c, ss[i]? = some c → ∃ k, ks[i]? = some k ∧ LsNear N c.spacing k.1 ∧
        (k.2.1 = -1 ∧ LsNear N c.within 0 ∨ LsNear N c.within k.2.1)
  | .rect xl yl xh yh, .rect a b c d => LsNear N xl a ∧ LsNear N yl b ∧ LsNear N xh c ∧ LsNear N yh d
  | .size xl yl xh yh, .size a b c d => LsNear N xl a ∧ LsNear N yl b ∧ LsNear N xh c ∧ LsNear N yh d
  | _, _ => False

/-- there is no `UNITS` in it -/
def LsPlain (f : List LsStmt) : Prop := ∀ n, LsStmt.units n ∉ f

end TR
