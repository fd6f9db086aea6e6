import Verif.GC.Cut.Model
/-! # The spacing rules of a cut layer: reading, storing and linking

Models the SPACING part of `getLefLayers` for a cut layer (src/io/io.cpp:4014-4059), `frLayer::addCutSpacingConstraint` (src/db/tech/frLayer.h:282-304)
and the part of `initConstraintLayerIdx` for these rules (src/io/io_parser_helper.cpp:142-189).

Simplifications: lengths are already in database units; messages are left out; the maps of rules by the name of the second layer are lists in the
order in which the names were added (the code goes over them by name, but each name has its own place in the table that is filled). -/
namespace TR

/-- a SPACING as the LEF parser gives it: 0 where a number is missing, "" for no second layer — src/io/io.cpp:4016-4025. -/
structure LefCut where
  spacing : Int := 0
  c2c : Bool := false
  sameNet : Bool := false
  layer : String := ""
  stack : Bool := false
  adj : Nat := 0
  within : Int := 0
  exceptPG : Bool := false
  parOverlap : Bool := false
  area : Int := 0
deriving DecidableEq

/-- the rule that is made of it — src/io/io.cpp:4034-4053, src/db/tech/frConstraint.h:1116-1140: `id` is its number. -/
def LefCut.rule (id : Nat) (c : LefCut) : CutSpRule where
  id := id
  spacing := c.spacing
  c2c := c.c2c
  sameNet := c.sameNet
  second := none
  stack := c.stack
  adj := if c.adj = 0 then none else some c.adj
  within := if c.within = 0 then -1 else c.within
  exceptPG := c.exceptPG
  parOverlap := c.parOverlap
  area := if c.area = 0 then -1 else c.area

/-- the lists and maps of a layer — src/db/tech/frLayer.h (`cutConstraints`, `cutSpacingSamenetConstraints`, the two maps) -/
structure CutStore where
  cons : List CutSpRule := []
  consSame : List CutSpRule := []
  map : List (String × CutSpRule) := []
  mapSame : List (String × CutSpRule) := []

/-- `addCutSpacingConstraint` — src/db/tech/frLayer.h:282-304. -/
def CutStore.add (st : CutStore) (name : String) (c : CutSpRule) : CutStore :=
  if name = "" then
    if c.sameNet then { st with consSame := st.consSame ++ [c] } else { st with cons := st.cons ++ [c] }
  else if !c.sameNet then
    if st.map.any (·.1 = name) then st else { st with map := st.map ++ [(name, c)] }
  else
    if st.mapSame.any (·.1 = name) then st else { st with mapSame := st.mapSame ++ [(name, c)] }

/-- the loop over the SPACINGs of a layer — src/io/io.cpp:4015-4059: rule number `i` comes from the `i`-th one. -/
def storeCuts (cs : List LefCut) : CutStore :=
  cs.zipIdx.foldl (fun st p => st.add p.1.layer (p.1.rule p.2)) {}

/-- `frTechObject::getLayer(name)` and its number — src/db/tech/frTechObject.h:56-64, 106-108: the last layer of that name -/
def layerOf (layers : List String) (n : String) : Option Nat :=
  layers.zipIdx.foldl (fun r p => if p.1 = n then some p.2 else r) none

/-- one rule of the table — src/io/io_parser_helper.cpp:152-163, 169-181; a name without a layer is left out. -/
def cutPut (layers : List String) (t : List (Option CutSpRule)) (p : String × CutSpRule) : List (Option CutSpRule) :=
  match layerOf layers p.1 with
  | none => t
  | some l => t.set l (some { p.2 with second := some (l : Int) })

/-- the table of rules by the number of the second layer — src/io/io_parser_helper.cpp:148-163, 166-181. -/
def cutTable (layers : List String) (m : List (String × CutSpRule)) : List (Option CutSpRule) :=
  m.foldl (cutPut layers) (List.replicate layers.length none)

/-- same-net rules are dropped where there is no rule for different nets — src/io/io_parser_helper.cpp:183-189. -/
def resetSame (t ts : List (Option CutSpRule)) : List (Option CutSpRule) :=
  ts.zipIdx.map fun p => if (t[p.2]?.getD none).isNone then none else p.1

/-- the rules of a layer as they are checked — src/gc/FlexGC_main.cpp:3550-3568: `base` gives the shapes, `own` is the number of the layer -/
def cutDbOf (layers : List String) (cs : List LefCut) (base : CutDb) : CutDb :=
  let st := storeCuts cs
  let t := cutTable layers st.map
  let ts := resetSame t (cutTable layers st.mapSame)
  { base with
    cons := st.cons
    consSame := st.consSame
    inter := t.zipIdx.filterMap fun p => p.1.map fun c => (c, ts[p.2]?.getD none)
    interSame := fun l => decide (0 ≤ l) && (ts[l.toNat]?.getD none).isSome }

end TR
