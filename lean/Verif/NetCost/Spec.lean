import Verif.NetCost.Model
import Verif.Cost.HistSpec
/-! What the counters of a worker's grid should say. -/
namespace TR

/-- how often terminals charge a counter of fixed shapes -/
def termCharge (T : CTech) (g : Grid) (sv : MIdx → Option MzVia) (skipVia : Bool) (t : CTgt) (ss : List TermRect) : Nat :=
  (ss.map fun s => (termTargets T g sv skipVia s).count t).sum

/-- how often all fixed shapes and terminals charge a counter of fixed shapes -/
def WEnv.fixedCharge (E : WEnv) (g : Grid) (t : CTgt) : Nat :=
  (E.fixed.map fun f => (fixTargets E.T g f).count t).sum + (E.terms.map (termCharge E.T g noSv false t)).sum

/-- how often the terminals of a net are taken off a counter of fixed shapes while the net is routed -/
def WEnv.ownCharge (E : WEnv) (g : Grid) (n : WNet) (t : CTgt) : Nat := termCharge E.T g E.sv true t (E.termsOf n)

/-- how often the minimum cut rules charge a counter for the vias of some shapes -/
def minCutCharge (T : CTech) (g : Grid) (sv : MIdx → Option MzVia) (t : CTgt) (fs : List CFig) : Nat :=
  (fs.map fun f => (minCutTargets T g sv f).count t).sum

/-- the counters of fixed shapes -/
def fixAttr (via : Bool) : Attr := if via then .shapeV else .shapeP

/-- what net `i` owes a counter of routed shapes while net `busy` is routed: its shapes, its shapes outside the region — but
those of the net being routed count only by the minimum cut rules — and the via reserved for it until it is routed -/
def WEnv.owedBy (E : WEnv) (g : Grid) (s : WState) (busy : Option Nat) (t : CTgt) (i : Nat) : Nat :=
  match E.nets[i]?, s.figs[i]?, s.tries[i]? with
  | some n, some fs, some tr =>
    (if busy = some i then minCutCharge E.T g E.sv t n.ext else chargeOf E.T g E.sv t n.ext) + chargeOf E.T g E.sv t fs +
      (if E.fresh = true ∧ tr = 0 ∧ busy ≠ some i then chargeOf E.T g E.sv t n.reserved else 0)
  | _, _, _ => 0

/-- what all nets owe -/
def WEnv.owed (E : WEnv) (g : Grid) (s : WState) (busy : Option Nat) (t : CTgt) : Nat :=
  ((List.range E.nets.length).map (E.owedBy g s busy t)).sum

/-- everything lies on the grid -/
structure WEnv.Fits (E : WEnv) (g : Grid) : Prop where
  sorted : g.Sorted
  vias : ViasFit E.T g
  ext : ∀ n ∈ E.nets, ∀ f ∈ n.ext, f.OnGrid g
  route : ∀ n ∈ E.nets, ∀ f ∈ n.route, f.OnGrid g
  aps : ∀ n ∈ E.nets, ∀ a ∈ n.aps, g.On a.at' ∧ (a.via.isSome = true → a.at'.z + 1 < g.zs.length)

/-- the states of a worker that routes its nets in any order and any number of times, from an empty grid `g`; the second index
is the net being routed. `lim`: the counters of routed shapes that never have to hold more than 255; `pat`: may the checker
add patches? -/
inductive WRun (E : WEnv) (g : Grid) (lim : CTgt → Prop) (pat : Bool) : WState → Option Nat → Prop where
  | start : (∀ t, lim t → g.attr t.1 (ctrAttr t.2) + E.owed g (E.start g) none t ≤ 255) → WRun E g lim pat (E.start g) none
  | begin {s s' k} : WRun E g lim pat s none → E.begin s k = some s' →
      (∀ t n, lim t → E.nets[k]? = some n → g.attr t.1 (ctrAttr t.2) + E.owed g s none t + minCutCharge E.T g E.sv t n.ext ≤ 255) →
      WRun E g lim pat s' (some k)
  | finish {s s' k new patches} : WRun E g lim pat s (some k) → E.finish s k new patches = some s' →
      (∀ f ∈ new, f.OnGrid g) → (∀ p ∈ patches, p.2.OnGrid g) → (pat = false → patches = []) →
      (∀ t n, lim t → E.nets[k]? = some n → g.attr t.1 (ctrAttr t.2) + E.owed g s (some k) t + chargeOf E.T g E.sv t new +
        chargeOf E.T g E.sv t n.ext ≤ 255) →
      WRun E g lim pat s' none

/-- position along a direction -/
def alongOf (d : Dir) (m : MIdx) : Int := if d = .E ∨ d = .W then m.x else m.y

/-- position across a direction -/
def acrossOf (d : Dir) (m : MIdx) : Int := if d = .E ∨ d = .W then m.y else m.x

/-- the coordinates along a direction -/
def Grid.coordsOf (g : Grid) (d : Dir) : List Int := if d = .E ∨ d = .W then g.xs else g.ys

/-- `m` lies on the grid line from `m0` in direction `d`, and the node after `m` is at most `b` further than the node after
`m0` -/
structure OnStretch (g : Grid) (m0 : MIdx) (d : Dir) (b : Int) (m : MIdx) : Prop where
  layer : m.z = m0.z
  line : acrossOf d m = acrossOf d m0
  ahead : if d = .E ∨ d = .N then alongOf d m0 ≤ alongOf d m else alongOf d m ≤ alongOf d m0
  near : ∃ a c, coordIf (g.coordsOf d) (alongOf d (m.nbr d)) = some a ∧ coordIf (g.coordsOf d) (alongOf d (m0.nbr d)) = some c ∧
    a - c ≤ b ∧ c - a ≤ b

/-- the access point is on a track of the layer, by the direction of its wires -/
def NetAp.OnTrackOf (T : CTech) (l : Int) (a : NetAp) : Prop := if T.horz l = true then a.onH = true else a.onV = true

/-- the net makes wires off the tracks cheap from `m0` in direction `d` for `b`, because of an access point of a pin with a terminal: along its own
layer, unless the pin is of a standard cell, in each direction it can be left; and along the layer above, if it has a via up and is not on a track of
that layer, unless the pin is of a standard cell and has some other access point with a via up to a track. Ten widths of a wire of that layer. -/
def WNet.HasLine (T : CTech) (g : Grid) (n : WNet) (m0 : MIdx) (d : Dir) (b : Int) : Prop :=
  ∃ p ∈ n.pins, p.kind ≠ .none ∧ ∃ a ∈ p.aps,
    (p.kind ≠ .cell ∧ (d = .E ∨ d = .W ∨ d = .N ∨ d = .S) ∧ a.valid d = true ∧ m0 = a.at' ∧ b = 10 * T.width (g.lay a.at'.z)) ∨
    (a.valid .U = true ∧ g.lay a.at'.z + 2 ≤ T.top ∧ ¬ a.OnTrackOf T (g.lay a.at'.z + 2) ∧
      ¬ (p.kind = .cell ∧ ∃ a' ∈ p.aps, a'.valid .U = true ∧ a'.OnTrackOf T (g.lay a'.at'.z + 2)) ∧
      (if T.horz (g.lay a.at'.z + 2) = true then d = .E ∨ d = .W else d = .N ∨ d = .S) ∧
      m0 = ⟨a.at'.x, a.at'.y, a.at'.z + 1⟩ ∧ b = 10 * T.width (g.lay a.at'.z + 2))

/-- the edge is on a line of the net: along the line, or a via on it -/
def WNet.Lined (T : CTech) (g : Grid) (n : WNet) (m : MIdx) (e : Dir) : Prop :=
  ∃ m0 d b, n.HasLine T g m0 d b ∧ ∃ m', OnStretch g m0 d b m' ∧ ∃ f, (f = d ∨ f = .D ∨ f = .U) ∧ SameEdge m' f m e

/-- an access point of a pin with a terminal, with a via up, is at the node -/
def WNet.ViaUpAt (n : WNet) (m : MIdx) : Prop :=
  ∃ p ∈ n.pins, p.kind ≠ .none ∧ ∃ a ∈ p.aps, a.valid .U = true ∧ a.at' = m

end TR
