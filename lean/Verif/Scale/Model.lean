/-!
# From the numbers of the technology file to database units

Models how lengths and areas of LEF are turned into database units: `getLefUnits`, `getLefManufacturingGrid`
(src/io/io.cpp:4486-4495, 4520-4529), the numbers of layers (3560-3582, 3653-3701, 4017-4036), of cells (4110-4126) and of the
rectangles of pins, obstructions and vias (4258-4261, 4383-4386, 4583-4586); and `getDefUnits` (1058-1067) with the position of
a placed cell.

Simplifications: a number of LEF is given in millionths of a micron (of a square micron for areas) and the product with the
units is exact, where the code has `double`; database numbers have no bound; a cell is placed in orientation N; of a layer
only the numbers named above are kept.
-/

namespace TR

/-- `round` of a number given in millionths: to the nearest integer, halves away from zero -/
def lsRound (p : Int) : Int :=
  if 0 ≤ p then (p + 500000) / 1000000 else -((-p + 500000) / 1000000)

/-- `round(x * DBUPerUU)` — e.g. src/io/io.cpp:3561 -/
def lsLen (d : Nat) (v : Int) : Int := lsRound (v * d)

/-- `round(x * DBUPerUU * DBUPerUU)` — src/io/io.cpp:3654 -/
def lsArea (d : Nat) (v : Int) : Int := lsRound (v * d * d)

/-- a `double` given to a `frCoord`: cut off toward zero — src/io/io.cpp:3690, 3699 -/
def lsTrunc (d : Nat) (v : Int) : Int := (v * d).tdiv 1000000

/-- a routing layer of LEF: `steps` are the `MINSTEP` rules, each with its `LENGTHSUM` -/
structure LsRouting where
  width : Int
  minWidth : Option Int := none
  pitch : Int := 0
  area : Option Int := none
  steps : List (Int × Option Int) := []
deriving DecidableEq, Repr

/-- a `SPACING` of a cut layer -/
structure LsCut where
  spacing : Int
  within : Int := 0
  area : Int := 0
deriving DecidableEq, Repr

/-- statements of LEF -/
inductive LsStmt
  | units (n : Nat)
  | grid (v : Int)
  | routing (l : LsRouting)
  | cut (ss : List LsCut)
  | rect (xl yl xh yh : Int)
  | size (ox oy sx sy : Int)
deriving DecidableEq, Repr

/-- what is stored for a statement -/
inductive LsItem
  | grid (v : Int)
  | routing (width minWidth pitch : Int) (area : Option Int) (step : Option (Int × Int))
  | cut (ss : List (Int × Int × Int))
  | rect (xl yl xh yh : Int)
  | size (ox oy sx sy : Int)
deriving DecidableEq, Repr

/-- the widths of a routing layer — src/io/io.cpp:3561-3570 -/
def lsMinWidth (d : Nat) (l : LsRouting) : Int := match l.minWidth with
  | none => lsLen d l.width
  | some m => if lsLen d l.width < lsLen d m then lsLen d l.width else lsLen d m

/-- the rule that `setMinStepConstraint` leaves: the last one; a missing `LENGTHSUM` is -1 (src/db/tech/frConstraint.h:218)
— src/io/io.cpp:3659-3703 -/
def lsStep (d : Nat) (ss : List (Int × Option Int)) : Option (Int × Int) :=
  ss.getLast?.map fun s => (lsTrunc d s.1, match s.2 with | none => -1 | some m => lsTrunc d m)

/-- zero stands for "absent" — src/io/io.cpp:4034-4036 -/
def lsZero (v : Int) : Int := if v = 0 then -1 else v

/-- one `SPACING` of a cut layer: spacing, `WITHIN`, `AREA`, the last multiplied by the units once — src/io/io.cpp:4018-4036 -/
def lsCut (d : Nat) (c : LsCut) : Int × Int × Int := (lsLen d c.spacing, lsZero (lsLen d c.within), lsZero (lsLen d c.area))

/-- what is stored for a statement when the units are `d`; `UNITS` stores nothing here. The grid is given to an unsigned
number; a negative one is not modelled — src/io/io.cpp:3560-3703, 4017-4058, 4110-4126, 4258-4261, 4524 -/
def lsItem (d : Nat) : LsStmt → Option LsItem
  | .units _ => none
  | .grid v => some (.grid (lsLen d v))
  | .routing l => some (.routing (lsLen d l.width) (lsMinWidth d l) (lsLen d l.pitch) (l.area.map (lsArea d)) (lsStep d l.steps))
  | .cut ss => some (.cut (ss.map (lsCut d)))
  | .rect xl yl xh yh => some (.rect (lsLen d xl) (lsLen d yl) (lsLen d xh) (lsLen d yh))
  | .size ox oy sx sy => some (.size (lsLen d ox) (lsLen d oy) (lsLen d sx) (lsLen d sy))

/-- the units after a statement — src/io/io.cpp:4490 -/
def lsUnits (d : Nat) : LsStmt → Nat
  | .units n => n
  | _ => d

/-- `readLef`: statement by statement, from units `d` — src/io/io.cpp:4804-4837 -/
def lsFrom (d : Nat) : List LsStmt → List LsItem
  | [] => []
  | s :: r => (lsItem d s).toList ++ lsFrom (lsUnits d s) r

/-- the units of a new technology are 0 — src/db/tech/frTechObject.h:48 -/
def lsRead (f : List LsStmt) : List LsItem := lsFrom 0 f

/-- the units that LEF leaves -/
def lsLast (f : List LsStmt) : Nat := f.foldl lsUnits 0

/-- a design: its units, and cells, each with a rectangle of LEF and its place -/
structure LsDesign where
  units : Nat
  comps : List ((Int × Int × Int × Int) × Int × Int)
deriving DecidableEq, Repr

/-- the rectangles of the placed cells; the units of the design are stored for the writer and compared with nothing
— src/io/io.cpp:1058-1067, 413-477 -/
def lsPlaced (f : List LsStmt) (g : LsDesign) : Nat × List (Int × Int × Int × Int) :=
  let d := lsLast f
  (g.units, g.comps.map fun c => (lsLen d c.1.1 + c.2.1, lsLen d c.1.2.1 + c.2.2, lsLen d c.1.2.2.1 + c.2.1, lsLen d c.1.2.2.2 + c.2.2))

/-- a rule with `AREA` takes part for a cut of this area in square database units — src/ta/FlexTA_assign.cpp:483-487,
src/dr/FlexDR_maze.cpp:1266-1268 -/
def lsAreaApplies (stored area : Int) : Bool := stored ≤ area

end TR
