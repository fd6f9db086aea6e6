import Verif.PA.Track.Model

/-!
# The layers of the tracks that instances of a cell are compared by

Models `initUniqueInstance_refBlock2PinLayerRange` and its use (src/pa/FlexPA_init.cpp:55-105, 156), `isSkipTerm`
(src/pa/FlexPA_prep.cpp:1710-1717) and the two layers whose tracks give the access points of a pin
(src/pa/FlexPA_prep.cpp:300-310).

Simplifications: cells are numbered, and of a terminal only its kind and the layers of its shapes are kept, which are rectangles or
polygons (the reader makes no others).
-/

namespace TR

/-- a terminal of a cell: `signal` if its type is normal or clock, and the layers of the shapes of its pins -/
structure PlrTerm where
  signal : Bool
  layers : List Int
deriving DecidableEq, Repr

/-- `std::numeric_limits<frLayerNum>::max()`, `min()` -/
def plrMax : Int := 2147483647
def plrMin : Int := -2147483648

/-- one shape: only layers from the bottom layer, 0, on count for the lower end — src/pa/FlexPA_init.cpp:75-86,
src/db/tech/frTechObject.h:73-75 -/
def plrShape (r : Int × Int) (l : Int) : Int × Int := (if l ≥ 0 then min r.1 l else r.1, max r.2 l)

/-- all shapes of the terminals that are not skipped — src/pa/FlexPA_init.cpp:64-91 -/
def plrShapes (ts : List PlrTerm) : Int × Int :=
  ts.foldl (fun r t => if t.signal then t.layers.foldl plrShape r else r) (plrMax, plrMin)

/-- the entry of a cell, none if it is skipped with a warning; `n`: number of layers of the technology
— src/pa/FlexPA_init.cpp:92-98, src/db/tech/frTechObject.h:76-78 -/
def plrRange (n : Nat) (ts : List PlrTerm) : Option (Int × Int) :=
  let r := plrShapes ts
  if r.1 < 0 ∨ r.2 > (n : Int) - 1 then none else some (r.1, min (r.2 + 2) n)

/-- `refBlock2PinLayerRange.find(...)->second`, where the cell is one of the design; `none`: the end of the map is used as if it
were an entry — src/pa/FlexPA_init.cpp:156 -/
def plrFind (n : Nat) (cells : Nat → List PlrTerm) (block : Nat) : Option (Int × Int) := plrRange n (cells block)

/-- `secondLayerNum`: besides those of its own layer, the tracks of this layer give the access points of a pin; `none`: the
program stops — src/pa/FlexPA_prep.cpp:300-310 -/
def plrSecond (n : Nat) (l : Int) : Option Int :=
  if l + 2 ≤ (n : Int) - 1 then some (l + 2) else if l - 2 ≥ 0 then some (l - 2) else none

end TR
