import Verif.Maze.Grid
/-!
# Track enumeration and coordinate lookup

Models `FlexGridGraph::initTracks` (src/dr/FlexGridGraph.cpp:353-400),
`FlexGridGraph::initGrids` coordinate vectors (src/dr/FlexGridGraph.cpp:44-62),
`FlexTAWorker::initTracks` (src/ta/FlexTA_init.cpp:34-90), the coordinate lookups of
`FlexGridGraph` (src/dr/FlexGridGraph.h:147-186) and `FlexTAWorker::getTrackIdx`
(src/ta/FlexTA.h:154-157). Simplification: coordinates are unbounded integers (32-bit in the
code).
-/
namespace TR

/-- `frTrackPattern` — src/db/obj/frTrackPattern.h:37-96. -/
structure TrackPat where
  start : Int
  num : Int
  spacing : Int
deriving DecidableEq, Repr

/-- the `for` loop — src/dr/FlexGridGraph.cpp:381-391, src/ta/FlexTA_init.cpp:69-73; `fuel` bounds
the number of rounds (at most `num`). -/
def trackLoop (p : TrackPat) (hi : Int) : Nat → Int → List Int
  | 0, _ => []
  | f + 1, k =>
    if k < p.num ∧ k * p.spacing + p.start < hi then
      (k * p.spacing + p.start) :: trackLoop p hi f (k + 1)
    else []

/-- first track index — src/dr/FlexGridGraph.cpp:374-380, src/ta/FlexTA_init.cpp:62-68. -/
def trackFirst (p : TrackPat) (lo : Int) : Int :=
  let n := (lo - p.start).tdiv p.spacing
  let n := if n < 0 then 0 else n
  if n * p.spacing + p.start < lo then n + 1 else n

/-- all track coordinates a pattern contributes to the window `[lo, hi)` —
src/dr/FlexGridGraph.cpp:374-391, src/ta/FlexTA_init.cpp:60-73. -/
def trackCoords (p : TrackPat) (lo hi : Int) : List Int :=
  trackLoop p hi (p.num - trackFirst p lo).toNat (trackFirst p lo)

/-- insertion into `std::set<frCoord>` / a key of `std::map<frCoord, ..>` kept in key order —
src/ta/FlexTA_init.cpp:72, src/dr/FlexGridGraph.cpp:387-389. -/
def setInsert (v : Int) : List Int → List Int
  | [] => [v]
  | a :: l => if v < a then v :: a :: l else if a < v then a :: setInsert v l else a :: l

/-- the coordinate vector built from all patterns — src/ta/FlexTA_init.cpp:49-88;
src/dr/FlexGridGraph.cpp:360-392 followed by initGrids 50-55. -/
def coordVector (ps : List TrackPat) (lo hi : Int) : List Int :=
  (ps.flatMap (fun p => trackCoords p lo hi)).foldl (fun s v => setInsert v s) []

/-- `std::lower_bound` (halving loop of libstdc++), used at src/dr/FlexGridGraph.h:162-178;
`fuel` ≥ `len` suffices. -/
def lowerGo (l : List Int) (v : Int) : Nat → Nat → Nat → Nat
  | 0, first, _ => first
  | f + 1, first, len =>
    if len = 0 then first
    else
      let half := len / 2
      if l.getD (first + half) 0 < v then lowerGo l v f (first + half + 1) (len - half - 1)
      else lowerGo l v f first half
def lowerBound (l : List Int) (v : Int) : Nat := lowerGo l v l.length 0 l.length

/-- `std::upper_bound`, used at src/dr/FlexGridGraph.h:181-183 and src/ta/FlexTA.h:156. -/
def upperGo (l : List Int) (v : Int) : Nat → Nat → Nat → Nat
  | 0, first, _ => first
  | f + 1, first, len =>
    if len = 0 then first
    else
      let half := len / 2
      if v < l.getD (first + half) 0 then upperGo l v f first half
      else upperGo l v f (first + half + 1) (len - half - 1)
def upperBound (l : List Int) (v : Int) : Nat := upperGo l v l.length 0 l.length

/-- `std::binary_search`, used at src/dr/FlexGridGraph.h:147-155. -/
def binarySearch (l : List Int) (v : Int) : Bool :=
  let i := lowerBound l v
  decide (i ≠ l.length) && !decide (v < l.getD i 0)

namespace Grid
/-- `getMazeXIdx` etc. — src/dr/FlexGridGraph.h:162-173. -/
def mazeXIdx (g : Grid) (c : Int) : Int := lowerBound g.xs c
def mazeYIdx (g : Grid) (c : Int) : Int := lowerBound g.ys c
def mazeZIdx (g : Grid) (c : Int) : Int := lowerBound g.zs c
/-- `getMazeIdx` — src/dr/FlexGridGraph.h:174-177. -/
def mazeIdx (g : Grid) (p : Point) (lNum : Int) : MIdx := ⟨g.mazeXIdx p.x, g.mazeYIdx p.y, g.mazeZIdx lNum⟩
/-- `hasMazeIdx` / `hasIdx` — src/dr/FlexGridGraph.h:147-161. -/
def hasMazeIdx (g : Grid) (p : Point) (lNum : Int) : Bool :=
  binarySearch g.xs p.x && binarySearch g.ys p.y && binarySearch g.zs lNum
/-- `getIdxBox` (x, y parts) — src/dr/FlexGridGraph.h:179-186. -/
def idxBox (g : Grid) (b : Box) : (Int × Int) × (Int × Int) :=
  ((lowerBound g.xs b.left, lowerBound g.ys b.bottom),
   ((upperBound g.xs b.right : Int) - 1, (upperBound g.ys b.top : Int) - 1))
end Grid

/-- `FlexTAWorker::getTrackIdx` — src/ta/FlexTA.h:154-157. -/
def taTrackIdx (locs : List Int) (loc1 loc2 : Int) : Int × Int :=
  (lowerBound locs loc1, (upperBound locs loc2 : Int) - 1)

end TR
