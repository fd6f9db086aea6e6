import Verif.Geom.Model
/-!
# Maze directions, indices and wavefront elements

Models `frDirEnum` (src/frBaseTypes.h:212), `FlexMazeIdx` (src/dr/FlexMazeTypes.h:33-84),
`FlexWavefrontGrid` (src/dr/FlexWavefront.h:42-165) and the neighbour functions of
`FlexGridGraph` (src/dr/FlexGridGraph.h:853-928, src/dr/FlexGridGraph_maze.cpp:305-355).
-/
namespace TR

/-- `frDirEnum` — src/frBaseTypes.h:212. -/
inductive Dir where
  | UNKNOWN | D | S | W | E | N | U
deriving DecidableEq, Repr, Inhabited

/-- numeric value of the enumerator — src/frBaseTypes.h:212. -/
def Dir.code : Dir → Nat
  | .UNKNOWN => 0 | .D => 1 | .S => 2 | .W => 3 | .E => 4 | .N => 5 | .U => 6

/-- cast back from a number, `(frDirEnum)v`; 7 is no enumerator and never written by the
code (mapped to UNKNOWN here). -/
def Dir.ofCode : Nat → Dir
  | 1 => .D | 2 => .S | 3 => .W | 4 => .E | 5 => .N | 6 => .U | _ => .UNKNOWN

/-- `FlexMazeIdx` — src/dr/FlexMazeTypes.h:33-84. -/
structure MIdx where
  x : Int
  y : Int
  z : Int
deriving DecidableEq, Repr, Inhabited

/-- `FlexMazeIdx::operator<` — src/dr/FlexMazeTypes.h:62-70. -/
def MIdx.lt (a b : MIdx) : Bool :=
  if a.x ≠ b.x then decide (a.x < b.x)
  else if a.y ≠ b.y then decide (a.y < b.y)
  else decide (a.z < b.z)

/-- `FlexGridGraph::correct` — src/dr/FlexGridGraph.h:853-871. -/
def correct (n : MIdx) (d : Dir) : MIdx × Dir :=
  match d with
  | .W => ({ n with x := n.x - 1 }, .E)
  | .S => ({ n with y := n.y - 1 }, .N)
  | .D => ({ n with z := n.z - 1 }, .U)
  | d => (n, d)

/-- `FlexGridGraph::correctU` — src/dr/FlexGridGraph.h:872-882. -/
def correctU (n : MIdx) (d : Dir) : MIdx × Dir :=
  match d with
  | .D => ({ n with z := n.z - 1 }, .U)
  | d => (n, d)

/-- `FlexGridGraph::reverse` — src/dr/FlexGridGraph.h:883-913. -/
def reverse (n : MIdx) (d : Dir) : MIdx × Dir :=
  match d with
  | .E => ({ n with x := n.x + 1 }, .W)
  | .S => ({ n with y := n.y - 1 }, .N)
  | .W => ({ n with x := n.x - 1 }, .E)
  | .N => ({ n with y := n.y + 1 }, .S)
  | .U => ({ n with z := n.z + 1 }, .D)
  | .D => ({ n with z := n.z - 1 }, .U)
  | .UNKNOWN => (n, .UNKNOWN)

/-- `FlexGridGraph::getNextGrid` — src/dr/FlexGridGraph_maze.cpp:305-329. -/
def nextGrid (n : MIdx) (d : Dir) : MIdx :=
  match d with
  | .E => { n with x := n.x + 1 }
  | .S => { n with y := n.y - 1 }
  | .W => { n with x := n.x - 1 }
  | .N => { n with y := n.y + 1 }
  | .U => { n with z := n.z + 1 }
  | .D => { n with z := n.z - 1 }
  | .UNKNOWN => n

/-- `FlexGridGraph::getPrevGrid` — src/dr/FlexGridGraph_maze.cpp:331-355. -/
def prevGrid (n : MIdx) (d : Dir) : MIdx :=
  match d with
  | .E => { n with x := n.x - 1 }
  | .S => { n with y := n.y + 1 }
  | .W => { n with x := n.x + 1 }
  | .N => { n with y := n.y - 1 }
  | .U => { n with z := n.z - 1 }
  | .D => { n with z := n.z + 1 }
  | .UNKNOWN => n

/-- The ordering fields of `FlexWavefrontGrid` — src/dr/FlexWavefront.h:152-162. -/
structure WaveKey where
  cost : Nat
  dist : Int
  z : Int
  pathCost : Nat
deriving DecidableEq, Repr, Inhabited

/-- `FlexWavefrontGrid::operator<` — src/dr/FlexWavefront.h:64-78. -/
def WaveKey.lt (a b : WaveKey) : Bool :=
  if a.cost ≠ b.cost then decide (a.cost > b.cost)
  else if a.dist ≠ b.dist then decide (a.dist > b.dist)
  else if a.z ≠ b.z then decide (a.z < b.z)
  else decide (a.pathCost < b.pathCost)

/-- `std::priority_queue::top` on a non-empty container: the contract is that no element
compares greater than the returned one — used at src/dr/FlexWavefront.h:185-187. Modelled
by a left-to-right scan keeping the current maximum. -/
def waveTop (h : WaveKey) : List WaveKey → WaveKey
  | [] => h
  | k :: ks => if WaveKey.lt h k then waveTop k ks else waveTop h ks

/-- `backTraceBuffer` (6 bits, two directions) and `getLastDir` — src/dr/FlexWavefront.h:129-132. -/
def bufLastDir (b : BitVec 6) : Dir := Dir.ofCode ((b.toNat) &&& 7)

/-- `shiftAddBuffer` — src/dr/FlexWavefront.h:137-143: returns the direction shifted out and
the new buffer. -/
def bufShiftAdd (b : BitVec 6) (d : Dir) : Dir × BitVec 6 :=
  (Dir.ofCode (b >>> 3).toNat, (b <<< 3) ||| BitVec.ofNat 6 d.code)

end TR
