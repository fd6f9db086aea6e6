import Verif.GcEdge.Model
import Verif.GC.CornerSpec
/-! # Specification: edges and corners of metal -/
namespace TR

/-- `q` comes right after `p` around the outline -/
def NextVertex (vs : List Point) (p q : Point) : Prop := ∃ k, vs[k]? = some p ∧ vs[(k + 1) % vs.length]? = some q

/-- the fixed metal alone has an outline with an edge from `p` to `q` -/
def FixedSide (s : GeShapes) (p q : Point) : Prop :=
  (∃ g ∈ s.fixedPolys, ∃ ring, (ring = g.outer ∨ ring ∈ g.holes) ∧ NextVertex ring p q) ∨
  ∃ b ∈ s.fixedRects, NextVertex [⟨b.left, b.bottom⟩, ⟨b.right, b.bottom⟩, ⟨b.right, b.top⟩, ⟨b.left, b.top⟩] p q

/-- edge `k` of an outline with vertices `vs`: from vertex `k` to the next one around, linked to its neighbours around -/
structure SideOf (s : GeShapes) (vs : List Point) (k : Nat) (e : GeEdge) : Prop where
  lo : vs[k]? = some e.lo
  hi : vs[(k + 1) % vs.length]? = some e.hi
  next : e.next = some ((k + 1) % vs.length)
  prev : e.prev = some ((k + vs.length - 1) % vs.length)
  fixed : e.fixed = true ↔ FixedSide s e.lo e.hi

/-- an outline with sides along the axes and a right angle at each vertex -/
structure RightAngled (vs : List Point) : Prop where
  four : 4 ≤ vs.length
  angle : ∀ (k : Nat) (p q r : Point), vs[k % vs.length]? = some p → vs[(k + 1) % vs.length]? = some q → vs[(k + 2) % vs.length]? = some r →
    (p.x = q.x ∧ p.y ≠ q.y ∧ q.y = r.y ∧ q.x ≠ r.x) ∨ (p.y = q.y ∧ p.x ≠ q.x ∧ q.x = r.x ∧ q.y ≠ r.y)

/-- an edge as the checks for corners see it -/
def GeEdge.seen (n : Nat) (e : GeEdge) : GEdge := ⟨n, geDir e.lo e.hi, e.lo, e.hi⟩

end TR
