import Verif.Wq.Model
import Verif.Geom.Spec

/-!
# What is found in a region
-/

namespace TR

/-- a box that is moved has the point -/
def Box.HasAt (b : Box) (o p : Point) : Prop :=
  b.left + o.x ≤ p.x ∧ p.x ≤ b.right + o.x ∧ b.bottom + o.y ≤ p.y ∧ p.y ≤ b.top + o.y

/-- the metal or cut of an object has the point on the layer. A wire has half of its width on both sides and its extensions
beyond its ends. -/
def WqFig.Covers : WqFig → Int → Point → Prop
  | .seg l b e bx ex w, k, p => k = l ∧
      (b.y = e.y ∧ b.x ≠ e.x ∧ b.x - bx ≤ p.x ∧ p.x ≤ e.x + ex ∧ 2 * (p.y - b.y) ≤ w ∧ 2 * (b.y - p.y) ≤ w ∨
       b.x = e.x ∧ b.y - bx ≤ p.y ∧ p.y ≤ e.y + ex ∧ 2 * (p.x - b.x) ≤ w ∧ 2 * (b.x - p.x) ≤ w)
  | .via o l1 l2 cut f1 f2 fc, k, p =>
      k = l1 ∧ (∃ b ∈ f1, b.HasAt o p) ∨ k = l2 ∧ (∃ b ∈ f2, b.HasAt o p) ∨ k = cut ∧ ∃ b ∈ fc, b.HasAt o p
  | .patch l o off, k, p => k = l ∧ off.HasAt o p

/-- wires are straight, from the lower to the upper end, and not shortened; boxes are in order -/
def WqFig.Ok : WqFig → Prop
  | .seg _ b e bx ex _ => (b.y = e.y ∧ b.x ≤ e.x ∨ b.x = e.x ∧ b.y ≤ e.y) ∧ 0 ≤ bx ∧ 0 ≤ ex
  | .via _ _ _ _ f1 f2 fc => ∀ b ∈ f1 ++ f2 ++ fc, b.Valid
  | .patch _ _ off => off.Valid

/-- the objects of all nets, inside and outside -/
def wqFigs (ns : List WqNet) : List (Nat × WqFig) := ns.flatMap fun n => n.routes ++ n.ext

/-- the nets after what routing does: the routes outside stay; ripping up leaves a net without routes inside, routing gives
it one more -/
def wqNets (ns : List WqNet) : WqOp → List WqNet
  | .ripup k => ns.mapIdx fun i n => if i = k then { n with routes := [] } else n
  | .route k id f => ns.mapIdx fun i n => if i = k then { n with routes := n.routes ++ [(id, f)] } else n

end TR
