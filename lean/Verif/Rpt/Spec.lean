import Verif.Rpt.Model
/-! Specification vocabulary for the summary and the report. -/
namespace TR

/-- a wire drawn from its lower or left end -/
def WireOrdered (w : Nat × Point × Point) : Prop := w.2.1.x ≤ w.2.2.x ∧ w.2.1.y ≤ w.2.2.y

def allWires (nets : List SumNet) : List (Nat × Point × Point) := nets.flatMap (·.wires)
def allVias (nets : List SumNet) : List (Nat × Bool) := nets.flatMap (·.vias)

/-- the length of a wire along the axes -/
def wireLen (w : Nat × Point × Point) : Nat := (w.2.2.x - w.2.1.x).natAbs + (w.2.2.y - w.2.1.y).natAbs

/-- total length of the wires for which `f` holds -/
def wireLength (f : Nat → Bool) (nets : List SumNet) : Nat := (((allWires nets).filter fun w => f w.1).map wireLen).sum

/-- number of vias on the cut layers for which `f` holds, with several cuts or one -/
def viaCount (f : Nat → Bool) (multi : Bool) (nets : List SumNet) : Nat := (allVias nets).countP fun v => f v.1 && v.2 == multi

def RptTech.InStack (T : RptTech) (k : LayerKind) (l : Nat) : Prop := T.bottom ≤ l ∧ l ≤ T.top ∧ T.kind l = k

/-- numerator and denominator of `|c| / d` in units of ten to the `e` -/
def inUnits (c : Int) (d : Nat) (e : Int) : Nat × Nat :=
  if 0 ≤ e then (c.natAbs, d * 10 ^ e.toNat) else (c.natAbs * 10 ^ (-e).toNat, d)

/-- the printed number is `c / d` rounded to its last digit -/
def Printed.Rounds (p : Printed) (c : Int) (d : Nat) : Prop :=
  (p.neg = true ↔ c < 0) ∧ 2 * (inUnits c d p.exp).1 ≤ (2 * p.digits + 1) * (inUnits c d p.exp).2 ∧
  2 * p.digits * (inUnits c d p.exp).2 ≤ 2 * (inUnits c d p.exp).1 + (inUnits c d p.exp).2

/-- the printed number is `c / d` -/
def Printed.Exactly (p : Printed) (c : Int) (d : Nat) : Prop :=
  (p.neg = true ↔ c < 0) ∧ (inUnits c d p.exp).1 = p.digits * (inUnits c d p.exp).2

/-- `c / d` is a decimal number with at most six digits -/
def SixDigits (c : Int) (d : Nat) : Prop := ∃ m : Nat, ∃ e : Int, m < 10 ^ 6 ∧ (inUnits c d e).1 = m * (inUnits c d e).2

/-- rules that are printed with the same word -/
def SameWord (a b : RuleKind) : Prop :=
  a = b ∨ (a ∈ [RuleKind.spacing, .spacingTable, .sameNet] ∧ b ∈ [RuleKind.spacing, .spacingTable, .sameNet]) ∨
  (a ∈ [RuleKind.cutSpacing, .lef58Cut] ∧ b ∈ [RuleKind.cutSpacing, .lef58Cut]) ∨
  (a ∈ [RuleKind.minStep, .lef58MinStep] ∧ b ∈ [RuleKind.minStep, .lef58MinStep])

/-- the words of the report for the rules -/
def rptWords : List (RuleKind × String) :=
  [(.minWidth, "MinWid"), (.spacing, "MetSpc"), (.spacingTable, "MetSpc"), (.sameNet, "MetSpc"), (.eol, "EOLSpc"), (.cutSpacing, "CutSpc"),
   (.lef58Cut, "CutSpc"), (.minStep, "MinStp"), (.lef58MinStep, "MinStp"), (.nsMetal, "NSMet"), (.offGrid, "OffGrid"), (.minEnclosed, "MinHole"),
   (.area, "MinArea"), (.cornerSpacing, "CornerSpc"), (.rectOnly, "RectOnly"), (.rightWay, "RightWayOnGridOnly")]

/-- `w` names the source `s` of a violation -/
inductive SrcNamed : RptSrc → String → Prop
  | net (n : String) : SrcNamed (.net n) n
  | pin (i t : String) : SrcNamed (.instTerm i t) (i ++ "/" ++ t)
  | port (n : String) : SrcNamed (.term n) ("PIN/" ++ n)
  | obs (i : String) : SrcNamed (.instBlockage i) (i ++ "/OBS")
  | block : SrcNamed .blockage "PIN/OBS"

end TR
