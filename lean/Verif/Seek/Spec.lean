import Verif.Seek.Model
import Verif.Astar.Spec
/-!
# What a route costs — specification

A walk is a list of steps, the latest first; a step is the node that is left and the direction
taken. Its cost is defined step by step from the steps before, without any running state.
-/
namespace TR

abbrev Walk := List (MIdx × Dir)

/-- `w` is a walk over existing edges from `s` to `n` -/
inductive Grid.Walks (g : Grid) (s : MIdx) : Walk → MIdx → Prop
  | here : Grid.Walks g s [] s
  | step (w n d) : Grid.Walks g s w n → g.hasEdge n d = true → Grid.Walks g s ((n, d) :: w) (n.nbr d)

/-- distance between two nodes, heights of layers included -/
def Grid.gap (g : Grid) (T : SeekTech) (a b : MIdx) : Nat :=
  (coordAt g.xs a.x - coordAt g.xs b.x).natAbs + (coordAt g.ys a.y - coordAt g.ys b.y).natAbs +
    (coordAt T.heights a.z - coordAt T.heights b.z).natAbs

/-- what crossing an edge costs by itself: its length times one plus the factors of the flags it
carries, plus a fixed amount when blocked -/
def Grid.weight (g : Grid) (T : SeekTech) (n : MIdx) (d : Dir) : Nat :=
  g.gap T n (n.nbr d) * (1 + (if g.hasGridCost n d then 2 else 0) + (if g.hasDRCCost n d then T.drc else 0)
      + (if g.hasMarkerCost n d then T.marker else 0) + (if g.hasShapeCost n d then 8 else 0)
      + (if g.hasGuide n d then 0 else 1))
    + (if g.isBlocked n d then 640 * T.width n.z else 0)

/-- the direction of the latest step -/
def Walk.last : Walk → Dir
  | [] => .UNKNOWN
  | s :: _ => s.2

/-- the steps since the latest via -/
def Walk.sinceVia (w : Walk) : Walk := w.takeWhile (fun s => !s.2.vert)

/-- the direction of the latest via -/
def Walk.via (w : Walk) : Option Dir := (w.find? (fun s => s.2.vert)).map (·.2)

/-- length travelled along one axis since the latest via; the largest length if there was no via -/
def Walk.travel (w : Walk) (g : Grid) (T : SeekTech) (axis : Dir → Bool) : Int :=
  if w.via = none then frMax
  else (((w.sinceVia.filter (fun s => axis s.2)).map (fun s => g.gap T s.1 (s.1.nbr s.2))).sum : Nat)

/-- the latest via lies below the current layer (a walk that went up came from a via below) -/
def Walk.viaBelow (w : Walk) : Bool := decide (w.via = some .U)

/-- a via in direction `d` at `n` is at a forbidden distance from the latest via: forbidden along
the one axis travelled, or along both -/
def Walk.ForbiddenVia (w : Walk) (T : SeekTech) (g : Grid) (n : MIdx) (d : Dir) : Prop :=
  let x := w.travel g T Dir.alongX
  let y := w.travel g T Dir.alongY
  let bad := fun dirX len => T.v2vForbidden n.z w.viaBelow (decide (d = .D)) dirX len = true
  (x ≠ 0 ∨ y ≠ 0) ∧ (x ≠ 0 → bad true x) ∧ (y ≠ 0 → bad false y)

/-- a turn at `n` is at a forbidden distance, along the axis just travelled, from the latest via -/
def Walk.ForbiddenTurn (w : Walk) (T : SeekTech) (g : Grid) (n : MIdx) : Prop :=
  (w.last.alongX = true ∧ T.turnForbidden n.z w.viaBelow true (w.travel g T Dir.alongX) = true) ∨
  (w.last.alongY = true ∧ T.turnForbidden n.z w.viaBelow false (w.travel g T Dir.alongY) = true)

instance (w : Walk) (T g n d) : Decidable (w.ForbiddenVia T g n d) := by
  unfold Walk.ForbiddenVia; infer_instance

instance (w : Walk) (T g n) : Decidable (w.ForbiddenTurn T g n) := by
  unfold Walk.ForbiddenTurn; infer_instance

/-- cost of a step after the walk `w`: weight of the edge, 1 for a bend, a penalty for a via at a
forbidden distance from the previous one and for a planar turn at a forbidden distance from it -/
def Walk.stepCost (w : Walk) (g : Grid) (T : SeekTech) (n : MIdx) (d : Dir) : Nat :=
  g.weight T n d
    + (if w ≠ [] ∧ w.last ≠ d then 1 else 0)
    + (if d.vert = true ∧ w.ForbiddenVia T g n d then (if T.late then T.marker else T.drc) * g.gap T n (n.nbr d) else 0)
    + (if d.vert = false ∧ w ≠ [] ∧ w.last ≠ d ∧ w.ForbiddenTurn T g n then
        (if T.late then T.drc else T.marker) * g.gap T n (n.nbr d) else 0)

/-- cost of a walk -/
def Walk.cost (g : Grid) (T : SeekTech) : Walk → Nat
  | [] => 0
  | (n, d) :: w => Walk.cost g T w + Walk.stepCost w g T n d

/-- the weights of the edges of a walk, without bends and penalties -/
def Walk.bare (g : Grid) (T : SeekTech) (w : Walk) : Nat := (w.map (fun s => g.weight T s.1 s.2)).sum

/-- the nodes of a walk that ends at `n`, the last one first -/
def Walk.nodes (w : Walk) (n : MIdx) : List MIdx := n :: w.map (·.1)

/-- `top` returns the position of an entry to which no other is preferred -/
def IsTop (top : List SeekEnt → Nat) : Prop :=
  ∀ q : List SeekEnt, q ≠ [] → ∃ a, q[top q]? = some a ∧ ∀ b ∈ q, ¬ WavePrefer b.key a.key

/-- The situation in which the router starts a search for a pin: as in `Grid.Ready`, coordinates
and heights increase, and the destinations are access points of the pin, which lie on the grid. -/
structure Grid.SeekReady (g : Grid) (T : SeekTech) (comps aps : List MIdx) : Prop where
  ready : g.Ready comps
  xInc : g.xs.Pairwise (· ≤ ·)
  yInc : g.ys.Pairwise (· ≤ ·)
  hInc : T.heights.Pairwise (· ≤ ·)
  hLen : T.heights.length = g.zs.length
  apsOn : ∀ m ∈ aps, g.On m
  dst : ∀ m, g.On m → g.isDst m = true → m ∈ aps

end TR
