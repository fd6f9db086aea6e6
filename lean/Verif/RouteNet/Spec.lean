import Verif.RouteNet.Model
import Verif.Astar.Spec
/-! Specification vocabulary for a routed net. -/
namespace TR

/-- the maze nodes a shape touches -/
def DFig.Covers : DFig → MIdx → Prop
  | .seg _ _ _ m1 m2 _ _, n => m1.x ≤ n.x ∧ n.x ≤ m2.x ∧ m1.y ≤ n.y ∧ n.y ≤ m2.y ∧ m1.z ≤ n.z ∧ n.z ≤ m2.z
  | .via _ _ m1 m2, n => n = m1 ∨ n = m2

/-- two nodes are joined by walking through shapes that share nodes -/
inductive Linked (figs : List DFig) : MIdx → MIdx → Prop
  | refl (a) : Linked figs a a
  | step (a b c f) : Linked figs a b → f ∈ figs → f.Covers b → f.Covers c → Linked figs a c

/-- A well formed shape on the grid: a wire lies on one layer, is axis-parallel, begins strictly
before it ends, sits at the location of its maze nodes, and every edge it covers exists; a via joins a
node with the node above it over an existing edge, on the cut layer above the lower layer. -/
def FigOK (g : Grid) : DFig → Prop
  | .seg layer b e m1 m2 _ _ =>
    g.On m1 ∧ g.On m2 ∧ m1.z = m2.z ∧ g.zs[m1.z.toNat]? = some layer ∧
    g.point m1 = some b ∧ g.point m2 = some e ∧
    ((b.x < e.x ∧ b.y = e.y ∧ m1.y = m2.y ∧ m1.x < m2.x ∧
        ∀ i, m1.x ≤ i → i < m2.x → g.hasEdge ⟨i, m1.y, m1.z⟩ .E = true) ∨
     (b.x = e.x ∧ b.y < e.y ∧ m1.x = m2.x ∧ m1.y < m2.y ∧
        ∀ i, m1.y ≤ i → i < m2.y → g.hasEdge ⟨m1.x, i, m1.z⟩ .N = true))
  | .via o cut m1 m2 =>
    g.On m1 ∧ g.On m2 ∧ m2 = m1.nbr .U ∧ g.hasEdge m1 .U = true ∧ g.point m1 = some o ∧
    g.zs[m1.z.toNat]? = some (cut - 1)

/-- The situation in which the router starts a net: edges stay on the grid, all flags cleared
(`resetStatus`), grid coordinates strictly increasing, every pin has an access pattern and all of
them are on the grid. -/
structure NetReady (g : Grid) (pins : List RPin) : Prop where
  edges : ∀ n d, g.hasEdge n d = true → g.On n ∧ g.On (n.nbr d)
  nosrc : ∀ n, g.On n → g.isSrc n = false
  nodst : ∀ n, g.On n → g.isDst n = false
  xs : g.xs.Pairwise (· < ·)
  ys : g.ys.Pairwise (· < ·)
  ap : ∀ p ∈ pins, p.aps ≠ []
  on : ∀ p ∈ pins, ∀ ap ∈ p.aps, g.On ap.mi
  nodup : pins.Nodup

/-- coordinates far from the 32-bit limit -/
def SmallCoords (g : Grid) (zH : ZHeights) : Prop :=
  (∀ x ∈ g.xs, -2^28 ≤ x ∧ x ≤ 2^28) ∧ (∀ y ∈ g.ys, -2^28 ≤ y ∧ y ≤ 2^28) ∧ (∀ z, -2^28 ≤ zH z ∧ zH z ≤ 2^28)

end TR
