import Verif.Maze.GridSpec
/-!
# Maze search on an abstract graph (proof device)

A cleaned-up version of the search used only inside proofs: predecessor labels are a function,
the buffer is a pair of directions and every frontier entry carries its ghost walk back to a
source. `Verif.Astar.Sim` shows that the model of the code follows it step by step.
-/
namespace TR.Abs

structure View where
  edge : MIdx → Dir → Bool
  src : MIdx → Bool
  dst : MIdx → Bool

structure Ent where
  n : MIdx
  d1 : Dir
  d2 : Dir
  walk : List MIdx

structure St where
  q : List Ent
  prev : MIdx → Dir

/-- the node before `n` when it was entered in direction `d` -/
def back (n : MIdx) (d : Dir) : MIdx := n.nbr d.opp

def setPrev (p : MIdx → Dir) (v : MIdx) (d : Dir) : MIdx → Dir := fun m => if m = v then d else p m

def expandable (V : View) (p : MIdx → Dir) (e : Ent) (d : Dir) : Prop :=
  V.edge e.n d = true ∧ V.src (e.n.nbr d) = false ∧ p (e.n.nbr d) = .UNKNOWN ∧ e.d1 ≠ d.opp

instance (V p e d) : Decidable (expandable V p e d) := by unfold expandable; infer_instance

def push (e : Ent) (d : Dir) : Ent := ⟨e.n.nbr d, d, e.d1, e.n.nbr d :: e.walk⟩

def expandDir (V : View) (e : Ent) (s : St) (d : Dir) : St :=
  if expandable V s.prev e d then
    if e.d2 ≠ .UNKNOWN then
      if s.prev (back e.n e.d1) = .UNKNOWN ∨ s.prev (back e.n e.d1) = e.d2 then
        ⟨s.q ++ [push e d], setPrev s.prev (back e.n e.d1) e.d2⟩
      else s
    else ⟨s.q ++ [push e d], s.prev⟩
  else s

def allDirs : List Dir := [.N, .E, .S, .W, .U, .D]

def expandAll (V : View) (e : Ent) (s : St) : St := allDirs.foldl (expandDir V e) s

def loop (V : View) (pick : Nat → Nat) : Nat → Nat → St → Option (St × Option Ent)
  | 0, _, _ => none
  | f + 1, k, s =>
    match s.q[pick k % s.q.length]? with
    | none => some (s, none)
    | some e =>
      let s' : St := ⟨s.q.eraseIdx (pick k % s.q.length), s.prev⟩
      if s.prev e.n ≠ .UNKNOWN then loop V pick f (k + 1) s'
      else if V.dst e.n then some (s', some e)
      else loop V pick f (k + 1) (expandAll V e s')

end TR.Abs
