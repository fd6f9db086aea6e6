import Verif.Seek.Props
import Verif.Tech.Props
/-! # The forbidden lengths the costs refer to: part of property C91 -/
namespace TR

/-- C91: with prepared tables, two vias are at a forbidden distance iff the distance is in a range computed for the previous via, this
via, in this order, and the direction; a turn is, iff it is in a range computed for the via -/
theorem c91_forbidden_lengths {T : SeekTech} {P : RTech} {z : Int} {l : Int} {down up : Option RVia}
    (h1 : T.v2v[z.toNat]? = some (v2vTable P l down up)) (h2 : T.vturn[z.toNat]? = some (turnTable P l down up)) (prevBelow below dirX : Bool) (len : Int) :
    (T.v2vForbidden z prevBelow below dirX len = true ↔
      InRanges (storeRanges (v2vRanges P l (if prevBelow then down else up) (if below then down else up) dirX)) len) ∧
    (T.turnForbidden z below dirX len = true ↔ InRanges (storeRanges (turnRanges P l (if below then down else up) dirX)) len) := by
  unfold SeekTech.v2vForbidden SeekTech.turnForbidden
  rw [h1, h2]
  dsimp only
  rw [c39_via2via_query, c39_turn_query, Option.getD_some, Option.getD_some, c39_included, c39_included]
  exact ⟨Iff.rfl, Iff.rfl⟩

/-- tables for which the order of the two vias matters -/
example : (SeekTech.mk [] 8 32 true (fun _ => 10) [v2vTable techDemoMinCut 4 (some techDemoLow) (some techDemoHigh)] []).v2vForbidden 0 true false true 40 = true ∧
    (SeekTech.mk [] 8 32 true (fun _ => 10) [v2vTable techDemoMinCut 4 (some techDemoLow) (some techDemoHigh)] []).v2vForbidden 0 false true true 40 = false := by decide

end TR
