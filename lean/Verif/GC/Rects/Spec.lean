import Verif.GC.Rects.Model
import Verif.GC.Spec
/-! # Specification: maximal rectangles -/
namespace TR

/-- a unit cell is metal -/
def MetalCell (bs : List Box) (c : Point) : Prop := ∃ b ∈ bs, CellOf b c

/-- a rectangle with an area -/
def Solid (r : Box) : Prop := r.left < r.right ∧ r.bottom < r.top

/-- one rectangle lies in another -/
def LiesIn (r s : Box) : Prop := s.left ≤ r.left ∧ r.right ≤ s.right ∧ s.bottom ≤ r.bottom ∧ r.top ≤ s.top

/-- the whole rectangle is metal -/
def AllMetal (bs : List Box) (r : Box) : Prop := ∀ c, CellOf r c → MetalCell bs c

/-- a rectangle of metal that lies in no larger one -/
structure IsMaxRect (bs : List Box) (r : Box) : Prop where
  solid : Solid r
  metal : AllMetal bs r
  max : ∀ s, Solid s → AllMetal bs s → LiesIn r s → s = r

/-- the metal is a rectangle -/
def IsRectangle (bs : List Box) : Prop := ∃ r, Solid r ∧ ∀ c, MetalCell bs c ↔ CellOf r c

/-- exactly three of the four cells around a point are metal -/
def ConcaveAt (bs : List Box) (p : Point) : Prop :=
  let a := MetalCell bs ⟨p.x - 1, p.y - 1⟩
  let b := MetalCell bs ⟨p.x, p.y - 1⟩
  let c := MetalCell bs ⟨p.x - 1, p.y⟩
  let d := MetalCell bs ⟨p.x, p.y⟩
  (a ∧ b ∧ c ∧ ¬ d) ∨ (a ∧ b ∧ ¬ c ∧ d) ∨ (a ∧ ¬ b ∧ c ∧ d) ∨ (¬ a ∧ b ∧ c ∧ d)

/-- two cells share a side -/
def Beside (c d : Point) : Prop := (c.y = d.y ∧ (d.x = c.x + 1 ∨ d.x = c.x - 1)) ∨ (c.x = d.x ∧ (d.y = c.y + 1 ∨ d.y = c.y - 1))

/-- one can walk over metal from one cell to another -/
inductive MetalWalk (bs : List Box) : Point → Point → Prop
  | here (c : Point) : MetalCell bs c → MetalWalk bs c c
  | step {c d e : Point} : MetalWalk bs c d → Beside d e → MetalCell bs e → MetalWalk bs c e

/-- the metal is in one piece -/
def OnePiece (bs : List Box) : Prop := ∀ c d, MetalCell bs c → MetalCell bs d → MetalWalk bs c d

/-- the outline turns right at `p`: an edge ends there and the next one, counting around, goes on to its right -/
def TurnsRightAt (ring : List REdge) (p : Point) : Prop :=
  ∃ (d e : EDir) (q : Point), (∃ i, ring[i]? = some (d, p) ∧ ring[if i + 1 = ring.length then 0 else i + 1]? = some (e, q)) ∧
    ((d = .E ∧ e = .S) ∨ (d = .S ∧ e = .W) ∨ (d = .W ∧ e = .N) ∨ (d = .N ∧ e = .E))

end TR
