import Verif.Geom.Model
/-!
# Default vias, cut layer widths and rules between cut layers

Models `io::Parser::initDefaultVias`, `initConstraintLayerIdx`, `initCutLayerWidth` and
`getViaRawPriority` (src/io/io_parser_helper.cpp:46-296).

Simplifications: coordinates are unbounded integers; the areas of the metal of a via, which boost
computes from the union of its rectangles, are given with the via; the process-specific overrides
(`initDefaultVias_N16`, `_GF14`) and messages are left out.
-/
namespace TR

/-- `frViaDef` with figures, layers, the DEFAULT flag of LEF and the areas of its metal. -/
structure SVia where
  isDefault : Bool
  layer1 : Int
  cutLayer : Int
  layer2 : Int
  figs1 : List Box
  cuts : List Box
  figs2 : List Box
  area1 : Int
  area2 : Int
  generated : Bool
deriving DecidableEq, Repr

/-- bounding box of figures — src/db/obj/frVia.h:79-108 (`getCutBBox`; the two others alike) and
`extents` in src/io/io_parser_helper.cpp:275-276, 291-292. -/
def figHull : List Box → Box
  | [] => ⟨⟨0, 0⟩, ⟨0, 0⟩⟩
  | b :: bs => bs.foldl (fun a c => ⟨⟨min a.left c.left, min a.bottom c.bottom⟩, ⟨max a.right c.right, max a.top c.top⟩⟩) b

/-- is the box wider than high — e.g. src/io/io_parser_helper.cpp:84, 277. -/
def isWide (b : Box) : Bool := decide (b.right - b.left > b.top - b.bottom)

/-- preferred direction of a layer; `none` neither -/
abbrev DirOf := Int → Option Bool

/-- `isNotLowerAlign`, `isNotUpperAlign` — src/io/io_parser_helper.cpp:279-280, 295-296. -/
def notAligned (dir : DirOf) (l : Int) (b : Box) : Bool :=
  (isWide b && dir l == some false) || (!isWide b && dir l == some true)

/-- `viaRawPriorityTuple` — src/io/io.h:40; booleans as 0 and 1. -/
structure ViaKey where
  notDefault : Int
  width1 : Int
  width2 : Int
  notUpper : Int
  area2 : Int
  area1 : Int
  notLower : Int
deriving DecidableEq, Repr

def bit (b : Bool) : Int := if b then 1 else 0

/-- `getViaRawPriority` — src/io/io_parser_helper.cpp:261-302. -/
def viaKey (dir : DirOf) (v : SVia) : ViaKey :=
  let b1 := figHull v.figs1
  let b2 := figHull v.figs2
  { notDefault := bit (!v.isDefault)
    width1 := min (b1.right - b1.left) (b1.top - b1.bottom)
    width2 := min (b2.right - b2.left) (b2.top - b2.bottom)
    notUpper := bit (notAligned dir v.layer2 b2)
    area2 := v.area2
    area1 := v.area1
    notLower := bit (notAligned dir v.layer1 b1) }

/-- `<` of `std::tuple` -/
def ViaKey.lt (a b : ViaKey) : Bool :=
  if a.notDefault ≠ b.notDefault then decide (a.notDefault < b.notDefault)
  else if a.width1 ≠ b.width1 then decide (a.width1 < b.width1)
  else if a.width2 ≠ b.width2 then decide (a.width2 < b.width2)
  else if a.notUpper ≠ b.notUpper then decide (a.notUpper < b.notUpper)
  else if a.area2 ≠ b.area2 then decide (a.area2 < b.area2)
  else if a.area1 ≠ b.area1 then decide (a.area1 < b.area1)
  else decide (a.notLower < b.notLower)

/-- first entry of the map from priorities to vias after inserting `v`: a via with the same priority
replaces the one inserted before — src/io/io_parser_helper.cpp:63, 66. -/
def keepFirst (dir : DirOf) (best : Option SVia) (v : SVia) : Option SVia :=
  match best with
  | none => some v
  | some b => if (viaKey dir b).lt (viaKey dir v) then some b else some v

/-- the default via before generation — src/io/io_parser_helper.cpp:59-67. `defs` are the vias of the
cut layer in the order of the set `viaDefs` (src/db/tech/frLayer.h:94, 462), which is that of their
addresses. -/
def bestSingleCut (dir : DirOf) (defs : List SVia) : Option SVia :=
  (defs.filter (fun v => v.cuts.length = 1)).foldl (keepFirst dir) none

/-- the box with x and y exchanged — src/io/io_parser_helper.cpp:104, 107. -/
def turned (b : Box) : Box := Box.mk4 b.bottom b.left b.top b.right

/-- is a new via generated — src/io/io_parser_helper.cpp:77-92: `isH` tells whether the preferred
direction of a layer is horizontal. -/
def needsGen (isH : Int → Bool) (v : SVia) : Bool :=
  (isWide (figHull v.figs1) != isH v.layer1) || (isWide (figHull v.figs2) != isH v.layer2)

/-- the generated via — src/io/io_parser_helper.cpp:94-135. -/
def genVia (isH : Int → Bool) (v : SVia) : SVia :=
  let b1 := figHull v.figs1
  let b2 := figHull v.figs2
  let b1 := if isWide b1 != isH v.layer1 then turned b1 else b1
  let b2 := if isWide b2 != isH v.layer2 then turned b2 else b2
  { isDefault := false, layer1 := v.layer1, cutLayer := v.cutLayer, layer2 := v.layer2, figs1 := [b1], cuts := [figHull v.cuts],
    figs2 := [b2], area1 := b1.width * b1.length, area2 := b2.width * b2.length, generated := true }

/-- result of setting up a layer: the program exits with an error, or goes on with a value -/
inductive SetupOut (α : Type) where
  | error
  | ok (a : α)
deriving DecidableEq, Repr

/-- the default via of a cut layer — src/io/io_parser_helper.cpp:55-139. `gen`: `ENABLE_VIA_GEN`,
`bottom`: `BOTTOM_ROUTING_LAYER`. -/
def defaultVia (dir : DirOf) (gen : Bool) (bottom l : Int) (defs : List SVia) : SetupOut (Option SVia) :=
  let isH := fun k => dir k == some true
  match bestSingleCut dir defs with
  | none => if l ≥ bottom then .error else .ok none
  | some v => .ok (some (if gen && decide (l ≥ bottom) && needsGen isH v then genVia isH v else v))

/-- `initCutLayerWidth` — src/io/io_parser_helper.cpp:210-259: `w` is the width given in LEF or 0; the
first cut of the default via counts (reading it is undefined without cuts; then 0 here). -/
def cutLayerWidth (bottom l w : Int) (via : Option SVia) : SetupOut Int :=
  if w = 0 then
    match via with
    | some v => .ok ((v.cuts.headD ⟨⟨0, 0⟩, ⟨0, 0⟩⟩).width)
    | none => if l ≥ bottom then .error else .ok 0
  else .ok w

/-! ### rules between cut layers -/

/-- one pass over a map from layer names to rules — src/io/io_parser_helper.cpp:152-164 and 170-181:
`layerNo` resolves names; rules for unknown layers are skipped. -/
def placeRules {ρ : Type} (layerNo : String → Option Nat) (rules : List (String × ρ)) (tab : Nat → Option ρ) : Nat → Option ρ :=
  rules.foldl (fun t r => match layerNo r.1 with | some n => fun k => if k = n then some r.2 else t k | none => t) tab

/-- `initConstraintLayerIdx` for one layer — src/io/io_parser_helper.cpp:143-191: the tables for
different nets and for one net, indexed by the other layer. -/
def interTables {ρ : Type} (layerNo : String → Option Nat) (diff same : List (String × ρ)) : (Nat → Option ρ) × (Nat → Option ρ) :=
  let d := placeRules layerNo diff (fun _ => none)
  let s := placeRules layerNo same (fun _ => none)
  (d, fun k => if (d k).isNone then none else s k)

end TR
