import Verif.Setup.ViaModel
import Verif.GCell.Model
/-!
# The GCell grid derived from the guides

Models `io::Parser::buildGCellPatterns` and its helpers (src/io/io_parser_helper.cpp:732-927).

Simplifications: coordinates are unbounded integers; the messages are left out; the number of tracks
counted for every GCell (lines 896-926) is never used and left out, except for the access to the layer
(line 901), which stops the program if there is no such layer.  What the counting does to the program
is modelled in `Verif.Setup.Steps`.
-/
namespace TR

/-- a guide as read: layer and box -/
structure SGuide where
  layer : Int
  box : Box
deriving DecidableEq, Repr

/-- `m[key]++` on a `std::map<frCoord, int>`, a list of pairs with increasing keys —
src/io/io_parser_helper.cpp:751-759, 812-819. -/
def countUp (key : Int) : List (Int × Nat) → List (Int × Nat)
  | [] => [(key, 1)]
  | (k, n) :: m => if key < k then (key, 1) :: (k, n) :: m else if key = k then (k, n + 1) :: m else (k, n) :: countUp key m

/-- the scan for the key of largest count — src/io/io_parser_helper.cpp:764-780, 822-837. -/
def scanMax : List (Int × Nat) → Int × Int → Int × Int
  | [], a => a
  | (k, n) :: m, a => scanMax m (if (n : Int) > a.2 then (k, (n : Int)) else a)

/-- the value found by counting and scanning, -1 if there is none -/
def popular (vals : List Int) : Int := (scanMax (vals.foldl (fun m v => countUp v m) []) (-1, -1)).1

/-- widths across their layer of the guides on layers of one direction —
src/io/io_parser_helper.cpp:742-760. -/
def widthsX (dir : DirOf) (gs : List SGuide) : List Int :=
  (gs.filter (fun g => dir g.layer == some false)).map (fun g => g.box.right - g.box.left)
def widthsY (dir : DirOf) (gs : List SGuide) : List Int :=
  (gs.filter (fun g => dir g.layer == some true)).map (fun g => g.box.top - g.box.bottom)

/-- offset of a guide — src/io/io_parser_helper.cpp:804-811 (`%` has the sign of the dividend). -/
def guideOffset (g c : Int) : Int := if c.tmod g < 0 then g - c.tmod g else c.tmod g

/-- outcome: a division by zero, the program stops with an error, `vector::at` throws, or patterns -/
inductive PatOut (α : Type) where
  | divZero
  | stopped
  | thrown
  | ok (a : α)
deriving DecidableEq, Repr

/-- one axis of the pattern — src/io/io_parser_helper.cpp:861-873, 877-888. -/
def axisPattern (dl dh g off : Int) : PatOut GCellPat :=
  let s0 := dl.tdiv g * g + off
  let start := if s0 > dl then s0 - g else s0
  if (dh - off).tdiv g < 1 then .stopped else .ok ⟨start, g, (dh - start).tdiv g⟩

/-- `buildGCellPatterns` for a technology of `layers` layers — src/io/io_parser_helper.cpp:851-927;
the division by the steps of track patterns, line 910, is in `stRead` (Setup/Steps.lean). -/
def buildPatterns (dir : DirOf) (layers : Nat) (die : Box) (gs : List SGuide) : PatOut GGrid :=
  let gx := popular (widthsX dir gs)
  let gy := popular (widthsY dir gs)
  if gx = -1 then .stopped else if gy = -1 then .stopped else
  if gx = 0 then .divZero else if gy = 0 then .divZero else
  let ox := popular (gs.map (fun g => guideOffset gx g.box.left))
  let oy := popular (gs.map (fun g => guideOffset gy g.box.bottom))
  if ox = -1 then .stopped else if oy = -1 then .stopped else
  match axisPattern die.left die.right gx ox, axisPattern die.bottom die.top gy oy with
  | .ok xp, .ok yp => if layers % 2 = 0 && decide (0 < xp.count) && decide (0 < yp.count) then .thrown else .ok ⟨die, xp, yp⟩
  | _, _ => .stopped

end TR
