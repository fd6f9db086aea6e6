import Verif.Hist.Lemmas
import Verif.Seek.Spec
/-! Specification vocabulary for the memory of past violations. -/
namespace TR

/-- the worker may move the shape: it lies in the box the worker routes in -/
def HFig.Movable (R : Box) : HFig → Prop
  | .wire bp ep _ _ _ => R.Has bp ∧ R.Has ep
  | .via o _ _ => R.Has o
  | .patch o _ => R.Has o

instance (R : Box) (f : HFig) : Decidable (f.Movable R) := by
  cases f <;> simp only [HFig.Movable, Box.Has] <;> infer_instance

/-- the nodes whose wire counter a shape raises -/
def HFig.nodes (g : Grid) (mk : Box) (z : Int) : HFig → List MIdx
  | .wire _ _ m1 m2 w => wireNodes g mk m1 m2 w
  | .via _ _ _ => []
  | .patch _ box => patchNodes g box z

/-- the shape makes node `m` costlier for wires -/
def HFig.Hits (R : Box) (g : Grid) (mk : Box) (z : Int) (m : MIdx) (f : HFig) : Prop := f.Movable R ∧ m ∈ f.nodes g mk z

instance (R : Box) (g : Grid) (mk : Box) (z : Int) (m : MIdx) (f : HFig) : Decidable (f.Hits R g mk z m) := by
  unfold HFig.Hits; infer_instance

/-- how many of the shapes found at a marker make node `m` costlier for wires -/
def HMark.hits (R : Box) (g : Grid) (k : HMark) (m : MIdx) : Nat := k.found.countP fun f => decide (f.Hits R g k.box k.z m)

/-- a straight wire from node to node; a via at a node; a patch that does not reach beyond the last lines of the grid -/
def HFig.Placed (g : Grid) (z : Int) : HFig → Prop
  | .wire _ _ m1 m2 w => g.On m1 ∧ g.On m2 ∧ m1.z = m2.z ∧ 0 ≤ w ∧
      ((m1.y = m2.y ∧ m1.x ≤ m2.x) ∨ (m1.x = m2.x ∧ m1.y ≤ m2.y))
  | .via _ _ m => g.On m
  | .patch _ box => (∃ v ∈ g.xs, box.right ≤ v) ∧ (∃ v ∈ g.ys, box.top ≤ v) ∧ 0 ≤ z ∧ z < g.zs.length

def HMark.Placed (g : Grid) (k : HMark) : Prop := k.box.Proper ∧ ∀ f ∈ k.found, f.Placed g k.z

def HStep.Placed (g : Grid) : HStep → Prop
  | .record k => k.Placed g
  | .decay => True

/-- no patch is recorded -/
def HStep.NoPatch : HStep → Prop
  | .record k => ∀ f ∈ k.found, ∀ o b, f ≠ .patch o b
  | .decay => True

/-- the memory at the start of the queue: nothing remembered, all counters zero -/
def HState.Clean (s : HState) : Prop :=
  s.planar = [] ∧ s.via = [] ∧ ∀ m, s.grid.On m → s.grid.attr m .markP = 0 ∧ s.grid.attr m .markV = 0

/-- node `m` belongs to the wire from `m1` to `m2` -/
def OnWire (m1 m2 m : MIdx) : Prop :=
  m.z = m1.z ∧ m1.x ≤ m.x ∧ m.x ≤ m2.x ∧ m1.y ≤ m.y ∧ m.y ≤ m2.y

/-- along the wire, node `m` is at most `d` away from the box -/
def NearAlong (g : Grid) (mk : Box) (m1 m2 m : MIdx) (d : Int) : Prop :=
  if m1.y = m2.y then mk.left - d ≤ coordAt g.xs m.x ∧ coordAt g.xs m.x ≤ mk.right + d
  else mk.bottom - d ≤ coordAt g.ys m.y ∧ coordAt g.ys m.y ≤ mk.top + d

end TR
