import Verif.PA.Track.Range

/-!
# The analysis of instances when a design is read

Models `instAnalysis` (src/io/io_pin.cpp:34-153): after reading, instances are grouped by cell,
orientation and position relative to the tracks, and the number of groups is reported.

Simplified: of a cell only the layers of the shapes of its pins are kept; instances, tracks and
remainders are those of PA/Track/Model.lean.
-/

namespace TR

/-- The layers of the pins of a cell with `n` layers in the technology: from the lowest one to two
above the highest one — src/io/io_pin.cpp:57-76.  All terminals count, whatever their kind. -/
def iaRange (n : Nat) (ts : List PlrTerm) : Int × Int :=
  let ls := ts.flatMap (·.layers)
  (ls.foldl min (n : Int), min (ls.foldl max 0 + 2) (n : Int))

/-- The tracks an instance of a cell with these layers is compared by — src/io/io_pin.cpp:97-98. -/
def iaTracks (prefs : List PTrack) (r : Int × Int) : List PTrack :=
  prefs.filter (fun t => decide (t.layer ≥ r.1) && decide (t.layer ≤ r.2))

/-- The offsets of an instance — src/io/io_pin.cpp:96-110; `none`: division by zero. -/
def iaOffsets (i : PInst) : List PTrack → Option (List Int)
  | [] => some []
  | t :: r =>
    if t.spc = 0 then none
    else (iaOffsets i r).map (fun os => (if t.vert then uMod i.origin.x t.spc else uMod i.origin.y t.spc) :: os)

/-- The group of an instance — src/io/io_pin.cpp:89-111. -/
def iaKey (n : Nat) (cells : Nat → List PlrTerm) (prefs : List PTrack) (i : PInst) :
    Option (Nat × Orient × List Int) :=
  (iaOffsets i (iaTracks prefs (iaRange n (cells i.block)))).map (fun os => (i.block, i.orient, os))

/-- The groups of all instances, each once — src/io/io_pin.cpp:88-111. -/
def iaGroups (n : Nat) (cells : Nat → List PlrTerm) (prefs : List PTrack) :
    List PInst → List (Nat × Orient × List Int) → Option (List (Nat × Orient × List Int))
  | [], ks => some ks
  | i :: r, ks =>
    match iaKey n cells prefs i with
    | none => none
    | some k => iaGroups n cells prefs r (if k ∈ ks then ks else ks ++ [k])

/-- `instAnalysis`: the number that is reported, `none` if the program divides by zero —
src/io/io_pin.cpp:34-152. -/
def instAnalysis (dirH : Int → Bool) (n : Nat) (cells : Nat → List PlrTerm) (pats : List PTrack)
    (insts : List PInst) : Option Nat :=
  (iaGroups n cells (prefTracks dirH pats) insts []).map List.length

end TR
