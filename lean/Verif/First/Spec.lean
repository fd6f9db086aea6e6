import Verif.First.Model
import Verif.TaInit.Spec
import Verif.Run.PinsSpec
/-! Specification: the terminals of a net hang together through its guides. -/
namespace TR

/-- two points in one GCell: no left border of a column and no lower border of a row of GCells is between them. A point on a line belongs to the
GCell to the right of it or above it. -/
def SameCell (g : GGrid) (p q : Point) : Prop :=
  (∀ k, 0 ≤ k → k < g.xp.count → ((g.box ⟨k, 0⟩).left ≤ p.x ↔ (g.box ⟨k, 0⟩).left ≤ q.x)) ∧
  (∀ k, 0 ≤ k → k < g.yp.count → ((g.box ⟨0, k⟩).bottom ≤ p.y ↔ (g.box ⟨0, k⟩).bottom ≤ q.y))

/-- a guide in the die that runs straight, right or upwards -/
def GuideOk (g : GGrid) (d : TGuide) : Prop :=
  g.die.Mem d.b ∧ g.die.Mem d.e ∧ (d.b.y = d.e.y ∧ d.b.x ≤ d.e.x ∨ d.b.x = d.e.x ∧ d.b.y ≤ d.e.y)

/-- a wire of the net runs from the GCell of the begin of the guide to the GCell of its end -/
def WiredFrom (g : GGrid) (ws : List TWire) (d : TGuide) : Prop :=
  ∃ w ∈ ws, w.net = d.net ∧ SameCell g w.b d.b ∧ SameCell g w.e d.e

/-- places of a net that hang together: the ends and other places of one guide, and the places of one terminal -/
inductive Hang (net : Nat) (gs : List TGuide) (ts : List GrTerm) : Point → Point → Prop where
  | refl (p : Point) : Hang net gs ts p p
  | guide {p q r : Point} {d : TGuide} : Hang net gs ts p q → d ∈ gs → d.net = net → d.Passes q → d.Passes r → Hang net gs ts p r
  | term {p q r : Point} {t : Nat} : Hang net gs ts p q → ⟨t, net, q⟩ ∈ ts → ⟨t, net, r⟩ ∈ ts → Hang net gs ts p r

/-- the tracks of the guides of direction `h` lie in their GCells, which do not include the upper (right) border -/
def InCells (E : TaEnv) (g : GGrid) (h : Bool) (tr : Nat → Int) (gs : List TGuide) : Prop :=
  ∀ (i : Nat) (d : TGuide), gs[i]? = some d → E.dir d.layer = h →
    (g.row h (d.b.c h)).1 ≤ tr i ∧ tr i < (g.row h (d.b.c h)).2

end TR
