import Verif.Conn.MergeModel
/-! Specification vocabulary for wires on tracks, independent of the merging code. -/
namespace TR

/-- an axis-parallel wire of positive length, begin before end, within 32-bit coordinates -/
def CWire.Proper (w : CWire) : Prop :=
  ((w.b.x = w.e.x ∧ w.b.y < w.e.y) ∨ (w.b.y = w.e.y ∧ w.b.x < w.e.x)) ∧
  -2147483648 ≤ w.b.x ∧ -2147483648 ≤ w.b.y

/-- wire `w` covers the unit step from `p` to the right (`horz`) or upwards, on layer `l` -/
def CWire.CoversStep (w : CWire) (l : Int) (horz : Bool) (p : Point) : Prop :=
  w.layer = l ∧
  if horz then w.b.y = p.y ∧ w.e.y = p.y ∧ w.b.x ≤ p.x ∧ p.x + 1 ≤ w.e.x
  else w.b.x = p.x ∧ w.e.x = p.x ∧ w.b.y ≤ p.y ∧ p.y + 1 ≤ w.e.y

/-- two wires share a piece of centre line of positive length -/
def CWire.Overlap (v w : CWire) : Prop := ∃ l h p, v.CoversStep l h p ∧ w.CoversStep l h p

end TR
