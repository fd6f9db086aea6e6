import Verif.Run.Schedule
/-! # Specification: the iterations of detailed routing -/
namespace TR

/-- what the run assumes of its parts: results only for nets of the design, routes only of nets reported as rerouted, the
clean-up of a net gives shapes of that net; the query returns each wire once, and boundary points only as they were found -/
structure RunEnv.Ok (R : RunEnv) : Prop where
  nets : ∀ i W D n, (R.router i W D).mod n = true → n ∈ R.nets
  routes : ∀ i W D, ∀ o ∈ (R.router i W D).routes, (R.router i W D).mod o.net = true
  clean : ∀ n os os', R.clean n os = some os' → ∀ o ∈ os', o.net = n
  ord : ∀ l, (R.E.ord l).Perm l
  arrange : ∀ l, ∀ x ∈ R.E.arrange l, x ∈ l

/-- a violation smaller than a region by twice the distance to which regions look for violations -/
def Compact (g : GGrid) (size : Int) (m : DMarker) : Prop :=
  m.box.right - m.box.left + 2 * DRCSAFEDIST < g.xp.spacing * size ∧ m.box.top - m.box.bottom + 2 * DRCSAFEDIST < g.yp.spacing * size

/-- the point is inside a region and not on its border, except on the border of the die -/
def InsideRegion (g : GGrid) (W : Worker) (p : Point) : Prop :=
  (W.routeBox.left < p.x ∨ W.routeBox.left = g.die.left ∧ p.x = g.die.left) ∧ (p.x < W.routeBox.right ∨ W.routeBox.right = g.die.right ∧ p.x = g.die.right) ∧
  (W.routeBox.bottom < p.y ∨ W.routeBox.bottom = g.die.bottom ∧ p.y = g.die.bottom) ∧ (p.y < W.routeBox.top ∨ W.routeBox.top = g.die.top ∧ p.y = g.die.top)

end TR
