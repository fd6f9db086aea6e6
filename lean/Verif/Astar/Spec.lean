import Verif.Maze.GridSpec
/-! Specification vocabulary for maze paths, independent of the search. -/
namespace TR

/-- `R` holds between every two neighbouring list elements -/
def Consecutive {α : Type} (R : α → α → Prop) : List α → Prop
  | a :: b :: t => R a b ∧ Consecutive R (b :: t)
  | _ => True

/-- the node `k` steps away in direction `d` -/
def MIdx.move (n : MIdx) (d : Dir) (k : Int) : MIdx :=
  ⟨n.x + k * d.delta.1, n.y + k * d.delta.2.1, n.z + k * d.delta.2.2⟩

/-- two different nodes on a common grid line -/
def Straight (a b : MIdx) : Prop :=
  (a.x ≠ b.x ∧ a.y = b.y ∧ a.z = b.z) ∨ (a.x = b.x ∧ a.y ≠ b.y ∧ a.z = b.z) ∨
  (a.x = b.x ∧ a.y = b.y ∧ a.z ≠ b.z)

/-- the direction in which `b` lies from `a` on a common grid line -/
def dirTo (a b : MIdx) : Dir :=
  if a.x < b.x then .E else if b.x < a.x then .W
  else if a.y < b.y then .N else if b.y < a.y then .S
  else if a.z < b.z then .U else if b.z < a.z then .D else .UNKNOWN

/-- the nodes from `a` (included) to `b` (excluded) on a common grid line -/
def cellsTo (a b : MIdx) : List MIdx :=
  (List.range ((b.x - a.x).natAbs + (b.y - a.y).natAbs + (b.z - a.z).natAbs)).map
    (fun k : Nat => a.move (dirTo a b) k)

/-- all nodes passed by the polyline with the given corner points, without the last point -/
def openCells : List MIdx → List MIdx
  | a :: b :: t => cellsTo a b ++ openCells (b :: t)
  | _ => []

/-- all nodes passed by the polyline with the given corner points, in order -/
def cells (path : List MIdx) : List MIdx := openCells path ++ path.getLast?.toList

/-- directions of the legs of a polyline -/
def legDirs : List MIdx → List Dir
  | a :: b :: t => dirTo a b :: legDirs (b :: t)
  | _ => []

/-- nodes reachable from a set over existing edges -/
inductive Grid.Reach (g : Grid) (from_ : List MIdx) : MIdx → Prop
  | start (n) : n ∈ from_ → Grid.Reach g from_ n
  | step (n d) : Grid.Reach g from_ n → g.hasEdge n d = true → Grid.Reach g from_ (n.nbr d)

/-- The situation in which the router starts a search: edges stay on the grid, the component list
is exactly the set of source nodes, labels are cleared. -/
structure Grid.Ready (g : Grid) (comps : List MIdx) : Prop where
  edges : ∀ n d, g.hasEdge n d = true → g.On n ∧ g.On (n.nbr d)
  on : ∀ n ∈ comps, g.On n
  src : ∀ n, g.On n → (g.isSrc n = true ↔ n ∈ comps)
  clear : ∀ n, g.On n → g.getPrevDir n = .UNKNOWN

end TR
