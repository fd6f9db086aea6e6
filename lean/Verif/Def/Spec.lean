import Verif.Def.Model
import Verif.WB.Spec
/-! Specification vocabulary for routes written to a file, independent of the code. -/
namespace TR

/-- the wires of a list of routes -/
def OWire (figs : List OFig) (s : DSeg) : Prop := OFig.seg s ∈ figs

/-- all wires are horizontal or vertical with their ends in order -/
def OWiresOk (figs : List OFig) : Prop := ∀ s, OWire figs s → s.Ok

/-- the wires in order -/
def figSegs (figs : List OFig) : List DSeg := figs.filterMap (fun | .seg s => some s | _ => none)

/-- equal or neighbouring grid points: wires end at grid points, so they cover the same part of the plane when they
cover the same points and the same steps between neighbours -/
def NearPts (p q : Point) : Prop := (p.x - q.x).natAbs + (p.y - q.y).natAbs ≤ 1

/-- the step from `p` to `q` (or the point, when they are equal) of a layer is on the centre line of one wire -/
def OnLine (figs : List OFig) (l : Int) (p q : Point) : Prop :=
  ∃ s, OWire figs s ∧ s.b ≠ s.e ∧ s.layer = l ∧ s.On p ∧ s.On q

/-- two wires lie on one line of one layer -/
def SameLine (s t : DSeg) : Prop :=
  s.layer = t.layer ∧
  ((s.b.x = s.e.x ∧ t.b.x = t.e.x ∧ s.b.x = t.b.x) ∨ (s.b.y = s.e.y ∧ t.b.y = t.e.y ∧ s.b.y = t.b.y))

/-- the metal of a wire of width `w`: the centre line, longer by the extensions at the ends and wider by half of the
width on both sides -/
def DSeg.MetalW (s : DSeg) (w : Nat) (p : Point) : Prop :=
  (s.b.x = s.e.x ∧ s.b.x - (w / 2 : Nat) ≤ p.x ∧ p.x ≤ s.b.x + (w / 2 : Nat) ∧
    s.b.y - s.st.beginExt ≤ p.y ∧ p.y ≤ s.e.y + s.st.endExt) ∨
  (s.b.x ≠ s.e.x ∧ s.b.y - (w / 2 : Nat) ≤ p.y ∧ p.y ≤ s.b.y + (w / 2 : Nat) ∧
    s.b.x - s.st.beginExt ≤ p.x ∧ p.x ≤ s.e.x + s.st.endExt)

/-- the style says what can be written: an extended end goes half of the default width further, a truncated end not
at all, any other end by a positive amount; the width is the default width -/
def SegStyle.Plain (st : SegStyle) (w : Nat) : Prop :=
  st.width = w ∧
  (st.beginKind = .extend → st.beginExt = w / 2) ∧ (st.beginKind = .truncate → st.beginExt = 0) ∧
  (st.beginKind = .variable → 0 < st.beginExt) ∧
  (st.endKind = .extend → st.endExt = w / 2) ∧ (st.endKind = .truncate → st.endExt = 0) ∧
  (st.endKind = .variable → 0 < st.endExt)

end TR
