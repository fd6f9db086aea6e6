import Verif.GC.Model
/-! # Geometry checker: shape rules — minimum step, minimum width, grid

Models `checkMetalShape_minStep`, `checkMetalShape_minStep_helper`, `checkMetalShape_minWidth` and `checkMetalShape_offGrid` of
`src/gc/FlexGC_main.cpp`.

Simplifications: the outline of a polygon is the circular list of its edges; `getNextEdge` is the next one in it.  The slices that
boost::polygon's `get_rectangles` cuts a polygon into are given. -/
namespace TR

/-- `gcSegment` as an edge of an outline -/
structure OEdge where
  lo : Point
  hi : Point
  fixed : Bool
deriving Inhabited, DecidableEq

/-- length of an axis-parallel edge (boost::polygon `length`) -/
def OEdge.len (e : OEdge) : Int := (e.hi.x - e.lo.x).natAbs + (e.hi.y - e.lo.y).natAbs

/-- `frMinstepTypeEnum` — the three kinds that the check distinguishes -/
inductive StepType where | inside | outside | step
deriving DecidableEq

/-- `frMinStepConstraint` -/
structure StepRule where
  len : Int
  type : Option StepType
  maxLength : Int
  maxEdges : Option Int

/-- the variables of `checkMetalShape_minStep` that describe the current group of short edges -/
structure StepRun where
  edges : Int
  length : Int
  route : Bool
  box : Box
deriving DecidableEq

/-- an empty group after a long edge — src/gc/FlexGC_main.cpp:1572-1581, 1608-1618. -/
def StepRun.start (e : OEdge) : StepRun := ⟨0, 0, !e.fixed, ⟨e.hi, e.hi⟩⟩

/-- one more short edge — src/gc/FlexGC_main.cpp:1585-1591. -/
def StepRun.add (r : StepRun) (e : OEdge) : StepRun :=
  ⟨r.edges + 1, r.length + e.len, r.route || !e.fixed,
   ⟨⟨min r.box.left e.hi.x, min r.box.bottom e.hi.y⟩, ⟨max r.box.right e.hi.x, max r.box.top e.hi.y⟩⟩⟩

/-- the `while (true)` of `checkMetalShape_minStep` — src/gc/FlexGC_main.cpp:1582-1619: `cur`, `be`, `first` are positions in the outline;
the groups handed to the helper, in order.  `none`: the loop did not end within `fuel` rounds. -/
def stepLoop (es : List OEdge) (msl : Int) (first : Nat) : Nat → Nat → Nat → StepRun → Option (List StepRun)
  | 0, _, _, _ => none
  | fuel + 1, cur, be, run =>
    let nxt := (cur + 1) % es.length
    let e := es.getD nxt default
    if e.len < msl then stepLoop es msl first fuel nxt be (run.add e)
    else if nxt = be then some []
    else
      let r := { run with route := run.route || !e.fixed }
      if nxt = first then some [r]
      else (stepLoop es msl first fuel nxt nxt (StepRun.start e)).map (r :: ·)

/-- one outline — src/gc/FlexGC_main.cpp:1557-1620. -/
def stepOutline (es : List OEdge) (msl : Int) : Option (List StepRun) :=
  match es.findIdx? (fun e => decide (e.len ≥ msl)) with
  | none => some []
  | some f => stepLoop es msl f es.length f f (StepRun.start (es.getD f default))

/-- `checkMetalShape_minStep_helper` — src/gc/FlexGC_main.cpp:1219-1262; the corner and step flags are those of the caller, which are
never set (src/gc/FlexGC_main.cpp:1551-1553, 1577-1579, 1612-1614). -/
def stepReported (c : StepRule) (hasInside hasOutside hasStep : Bool) (r : StepRun) : Bool :=
  if r.edges = 0 then false
  else if !r.route then false
  else
    match c.type with
    | some t =>
      if (match t with | .inside => !hasInside | .outside => !hasOutside | .step => !hasStep) then false
      else if r.length ≤ c.maxLength then false
      else true
    | none =>
      match c.maxEdges with
      | some k => if r.edges ≤ k then false else true
      | none => true

/-- `checkMetalShape_minStep` on one outline: the boxes of the reported violations -/
def minStepCheck (c : StepRule) (es : List OEdge) : Option (List Box) :=
  (stepOutline es c.len).map (fun rs => (rs.filter (stepReported c false false false)).map
    (fun r => Box.mk4 r.box.left r.box.bottom r.box.right r.box.top))

/-! ### minimum width -/

/-- `checkMetalShape_minWidth` — src/gc/FlexGC_main.cpp:1157-1179: is the slice reported -/
def minWidthReported (minWidth : Nat) (fixed : List Box) (isH : Bool) (b : Box) : Bool :=
  let xLen := b.right - b.left
  let yLen := b.top - b.bottom
  if isH && decide (xLen ≥ minWidth) then false
  else if !isH && decide (yLen ≥ minWidth) then false
  else if coveredArea b fixed = (unitCells b).length then false
  else true

/-- minimum width in `checkMetalShape_main` — src/gc/FlexGC_main.cpp:1856-1872: slices along horizontal lines, then along vertical lines -/
def minWidthCheck (minWidth : Nat) (fixed : List Box) (hSlices vSlices : List Box) : List Box :=
  hSlices.filter (minWidthReported minWidth fixed true) ++ vSlices.filter (minWidthReported minWidth fixed false)

/-! ### manufacturing grid -/

/-- `checkMetalShape_offGrid` — src/gc/FlexGC_main.cpp:1720-1744 for the maximal rectangles of a pin; `none`: division by zero -/
def offGridCheck (grid : Int) (route : List Box) (rects : List Box) : Option (List Box) :=
  if grid = 0 ∧ rects ≠ [] then none
  else some (rects.filter (fun b =>
    (decide (b.left.tmod grid ≠ 0) || decide (b.right.tmod grid ≠ 0) || decide (b.bottom.tmod grid ≠ 0) || decide (b.top.tmod grid ≠ 0)) &&
      decide (coveredArea b route ≠ 0)))

end TR
