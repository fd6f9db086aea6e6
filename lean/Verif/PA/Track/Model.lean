import Verif.PA.CMap
import Verif.Geom.Model
/-! # Pin access: track coordinates and unique instances

Models `getPrefTrackPatterns`, `hasTrackPattern`, `initUniqueInstance_main`, `initPinAccess` and `initTrackCoords` of `src/pa/FlexPA_init.cpp` and
`revertAccessPoints` of `src/pa/FlexPA_prep.cpp`.

Simplifications: coordinates are unbounded integers, except that the remainder of the origin is computed in unsigned 32-bit arithmetic as in the code
(`frUInt4` track spacing); the order of the maps that group the instances (addresses of objects are ordered by id) is an arbitrary order of the
classes; the layer range of a cell's pins is given. -/
namespace TR

/-- `frTrackPattern` — src/db/obj/frTrackPattern.h:38-84.  `vert`: `isHorizontal()`, which is true for vertical tracks. -/
structure PTrack where
  vert : Bool
  start : Int
  num : Nat
  spc : Nat
  layer : Int

/-- the coordinates visited in a track pattern — src/pa/FlexPA_init.cpp:366-370. -/
def PTrack.coords (t : PTrack) : List Int := (List.range t.num).map (fun (i : Nat) => t.start + (i : Int) * (t.spc : Int))

/-- tracks of one layer — src/pa/FlexPA_init.cpp:361-372. `lv`: the layer's preferred direction is vertical -/
def fullCoords (pats : List PTrack) (layer : Int) (lv : Bool) : CMap :=
  ((pats.filter (fun t => t.layer == layer && t.vert == lv)).flatMap PTrack.coords).foldl (fun m c => cSet c 0 m) []

/-- src/pa/FlexPA_init.cpp:391: C++ division -/
def halfCoord (g p q : Int) : Int := ((p + q).tdiv 2).tdiv g * g

/-- src/pa/FlexPA_init.cpp:388-397.  `none`: `prevFullCoord` still has its initial value, the largest integer -/
def halfCoords (g : Int) : Option Int → CMap → List Int
  | _, [] => []
  | none, (c, _) :: m => halfCoords g (some c) m
  | some p, (c, _) :: m =>
    if c > p ∧ halfCoord g p c ≠ c ∧ halfCoord g p c ≠ p then halfCoord g p c :: halfCoords g (some c) m
    else halfCoords g (some c) m

/-- `initTrackCoords` for one layer — src/pa/FlexPA_init.cpp:347-411. -/
def layerCoords (g : Int) (pats : List PTrack) (layer : Int) (lv : Bool) : CMap :=
  (halfCoords g none (fullCoords pats layer lv)).foldl (fun m c => cSet c 1 m) (fullCoords pats layer lv)

/-- an instance (`frInst`): its cell, orientation, origin and boundary box -/
structure PInst where
  id : Nat
  block : Nat
  orient : Orient
  origin : Point
  bbox : Box

/-- `getPrefTrackPatterns` — src/pa/FlexPA_init.cpp:39-52. `dirH l`: the preferred direction of layer `l` is horizontal -/
def prefTracks (dirH : Int → Bool) (pats : List PTrack) : List PTrack :=
  pats.filter (fun t => if dirH t.layer then !t.vert else t.vert)

/-- last track of a pattern — src/pa/FlexPA_init.cpp:111-112. -/
def PTrack.high (t : PTrack) : Int := t.start + (t.spc : Int) * ((t.num : Int) - 1)

/-- `hasTrackPattern` — src/pa/FlexPA_init.cpp:107-122. -/
def hasTracks (t : PTrack) (b : Box) : Bool :=
  if t.vert then !(decide (t.start > b.right) || decide (t.high < b.left))
  else !(decide (t.start > b.top) || decide (t.high < b.bottom))

/-- `origin.x() % tp->getTrackSpacing()`: the signed coordinate is converted to `unsigned int` — src/pa/FlexPA_init.cpp:161, 167. -/
def uMod (c : Int) (s : Nat) : Int := (c % 4294967296) % (s : Int)

/-- one entry of the offset vector — src/pa/FlexPA_init.cpp:157-179. `lo`, `hi`: layers of the cell's pins -/
def trackOffset (lo hi : Int) (i : PInst) (t : PTrack) : Int :=
  if t.layer ≥ lo ∧ t.layer ≤ hi then
    if hasTracks t i.bbox then
      if t.vert then uMod i.origin.x t.spc else uMod i.origin.y t.spc
    else (t.spc : Int)
  else (t.spc : Int)

/-- what the instances are grouped by — src/pa/FlexPA_init.cpp:131-133, 180. `range`: `refBlock2PinLayerRange` -/
def classKey (range : Nat → Int × Int) (prefs : List PTrack) (i : PInst) : Nat × Orient × List Int :=
  (i.block, i.orient, prefs.map (trackOffset (range i.block).1 (range i.block).2 i))

/-- first instance of a set ordered by id -/
def minInst : List PInst → Option PInst
  | [] => none
  | i :: l => match minInst l with
    | none => some i
    | some j => if i.id < j.id then some i else some j

/-- the representative of a class — src/pa/FlexPA_init.cpp:211-218. -/
def repOf (key : PInst → Nat × Orient × List Int) (insts : List PInst) (k : Nat × Orient × List Int) : Option PInst :=
  minInst (insts.filter (fun i => key i == k))

/-- keys in order of first appearance -/
def keysOf (key : PInst → Nat × Orient × List Int) : List PInst → List (Nat × Orient × List Int)
  | [] => []
  | i :: l => if (keysOf key l).contains (key i) then keysOf key l else key i :: keysOf key l

/-- `uniqueInstances` — src/pa/FlexPA_init.cpp:201-223. `ord`: order of the nested maps -/
def uniqueInsts (key : PInst → Nat × Orient × List Int) (ord : List (Nat × Orient × List Int) → List (Nat × Orient × List Int))
    (insts : List PInst) : List PInst :=
  (ord (keysOf key insts)).filterMap (repOf key insts)

/-- `initPinAccess`: every unique instance takes the number of pin-access objects the pins of its cell have so far, and adds one to each of them —
src/pa/FlexPA_init.cpp:250-264. `cnt`: that number for every cell; `pins`: the cell has pins -/
def paIndices (pins : Nat → Bool) : (Nat → Nat) → List PInst → List (Nat × Nat)
  | _, [] => []
  | cnt, u :: us => (u.id, cnt u.block) :: paIndices pins (fun b => if b = u.block ∧ pins b = true then cnt b + 1 else cnt b) us

/-- the pin-access objects the pins of a cell have in the end -/
def paCount (pins : Nat → Bool) : (Nat → Nat) → List PInst → Nat → Nat
  | cnt, [] => cnt
  | cnt, u :: us => paCount pins (fun b => if b = u.block ∧ pins b = true then cnt b + 1 else cnt b) us

/-- `inst->getPinAccessIdx()` after `initPinAccess` — src/pa/FlexPA_init.cpp:265-268. -/
def paIdx (pins : Nat → Bool) (key : PInst → Nat × Orient × List Int)
    (ord : List (Nat × Orient × List Int) → List (Nat × Orient × List Int)) (insts : List PInst) (i : PInst) : Option Nat :=
  (repOf key insts (key i)).bind (fun u =>
    ((paIndices pins (fun _ => 0) (uniqueInsts key ord insts)).find? (fun e => e.1 == u.id)).map (·.2))

/-- an access point of a unique instance is stored relative to its origin and read relative to the origin of the instance —
src/pa/FlexPA_prep.cpp:1338-1362; src/dr/FlexDR_init.cpp:1355-1400. -/
def movePoint (u i : PInst) (p : Point) : Point :=
  ⟨p.x - u.origin.x + i.origin.x, p.y - u.origin.y + i.origin.y⟩

end TR
