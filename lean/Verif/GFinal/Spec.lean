import Verif.GFinal.Model
/-! Specification vocabulary for the guides that are kept. -/
namespace TR

/-- a GCell, on its layer, lies on a final guide -/
def GFinal.On (T : GuideTech) (F : GFinal) (n : Node) : Prop := ∃ i s, (i, s) ∈ F.guides ∧ s.Has T n

/-- a GCell, on its layer, is an end of a final guide -/
def GFinal.End (T : GuideTech) (F : GFinal) (n : Node) : Prop := ∃ i s, (i, s) ∈ F.guides ∧ n ∈ s.ends T

/-- two GCells are joined: by a guide, by a change of layer between ends of guides, or by the metal of one pin (`through k`: pin `k` may be passed) -/
def GFinal.Link (T : GuideTech) (through : Nat → Prop) (F : GFinal) (a b : Node) : Prop :=
  (∃ i s, (i, s) ∈ F.guides ∧ s.Has T a ∧ s.Has T b) ∨
  (a.pt = b.pt ∧ (b.layer = a.layer + 2 ∨ a.layer = b.layer + 2) ∧ F.End T a ∧ F.End T b) ∨
  ∃ k, through k ∧ (k, a) ∈ F.pins ∧ (k, b) ∈ F.pins

/-- an end of guide `i` is used: a pin is there, or another guide ends there, on its layer or one above or below -/
def GFinal.Used (T : GuideTech) (F : GFinal) (i : Nat) (n : Node) : Prop :=
  (∃ k, (k, n) ∈ F.pins) ∨ ∃ (j : Nat) (s : GSeg) (n' : Node), (j, s) ∈ F.guides ∧ n' ∈ s.ends T ∧ n'.pt = n.pt ∧
    ((j ≠ i ∧ n'.layer = n.layer) ∨ n'.layer = n.layer + 2 ∨ n.layer = n'.layer + 2)

end TR
