import Verif.Echo.Net

/-!
# Pins of the design

Models the case `defrPinCbkType` of `cls` (src/io/defw.cpp:2000-2266). Left out: the masks of vias. The eight kinds of
antenna options and `ANTENNAMODEL` are one kind here; each is a word without `+`, a number and possibly a layer.
-/

namespace TR

/-- the rule of a shape of a pin: at most one of `SPACING` and `DESIGNRULEWIDTH` — def.y:1029-1075 -/
inductive EhRule
  | none
  | spacing (v : Int)
  | width (v : Int)
deriving DecidableEq, Repr

/-- a rectangle of a pin; mask 0 is no mask -/
structure EhBox where
  layer : String
  mask : Int := 0
  rule : EhRule := .none
  box : Int × Int × Int × Int
deriving DecidableEq, Repr

/-- a polygon of a pin -/
structure EhPoly where
  layer : String
  mask : Int := 0
  rule : EhRule := .none
  pts : List (Int × Int)
deriving DecidableEq, Repr

/-- a port of a pin -/
structure EhPort where
  boxes : List EhBox := []
  polys : List EhPoly := []
  vias : List (String × Int × Int) := []
  place : Option (EhPlace × Int × Int × Int) := none
deriving DecidableEq, Repr

/-- a pin as the library gives it to the callback -/
structure EhPin where
  name : String
  net : String
  dir : Option String := none
  use : Option String := none
  netExpr : Option String := none
  supply : Option String := none
  ground : Option String := none
  boxes : List EhBox := []
  polys : List EhPoly := []
  vias : List (String × Int × Int) := []
  ports : List EhPort := []
  place : Option (EhPlace × Int × Int × Int) := none
  special : Bool := false
  antennas : List (Int × Option String) := []
deriving DecidableEq, Repr

/-- `MASK`, `SPACING` and `DESIGNRULEWIDTH` of a shape, e.g. src/io/defw.cpp:2025-2033 -/
def ehAttrs (mask : Int) (rule : EhRule) : List EhTok :=
  (if mask = 0 then [] else [.kw .mask, .num mask])
  ++ (match rule with
      | .none => []
      | .spacing v => [.kw .spacing, .num v]
      | .width v => [.kw .designrulewidth, .num v])

/-- `PLACED`, `COVER` and `FIXED` of a pin or port; the grammar gives no other state —
src/io/defw.cpp:2122-2169 -/
def ehPinPlace (p : EhPlace × Int × Int × Int) : List EhTok :=
  match p.1 with
  | .placed => [.plus, .kw .placed, .lp, .num p.2.1, .num p.2.2.1, .rp, ehOri p.2.2.2]
  | .cover => [.plus, .kw .cover, .lp, .num p.2.1, .num p.2.2.1, .rp, ehOri p.2.2.2]
  | .fixed => [.plus, .kw .fixed, .lp, .num p.2.1, .num p.2.2.1, .rp, ehOri p.2.2.2]
  | .unplaced => [.plus, .kw .unplaced]

/-- a rectangle of a pin — src/io/defw.cpp:2023-2036 -/
def ehPinBox (b : EhBox) : List EhTok :=
  [.plus, .kw .layer, .word b.layer] ++ ehAttrs b.mask b.rule
  ++ [.lp, .num b.box.1, .num b.box.2.1, .rp, .lp, .num b.box.2.2.1, .num b.box.2.2.2, .rp]

/-- a polygon of a pin, without parentheses — src/io/defw.cpp:2037-2052 -/
def ehPinPoly (b : EhPoly) : List EhTok :=
  [.plus, .kw .polygon, .word b.layer] ++ ehAttrs b.mask b.rule ++ b.pts.flatMap (fun q => [.num q.1, .num q.2])

/-- a via of a pin, without parentheses — src/io/defw.cpp:2053-2066 -/
def ehPinVia (v : String × Int × Int) : List EhTok := [.plus, .kw .via, .word v.1, .num v.2.1, .num v.2.2]

/-- a rectangle of a port, without parentheses — src/io/defw.cpp:2075-2089 -/
def ehPortBox (b : EhBox) : List EhTok :=
  [.plus, .kw .layer, .word b.layer] ++ ehAttrs b.mask b.rule
  ++ [.num b.box.1, .num b.box.2.1, .num b.box.2.2.1, .num b.box.2.2.2]

/-- a polygon of a port — src/io/defw.cpp:2090-2105 -/
def ehPortPoly (b : EhPoly) : List EhTok :=
  [.plus, .kw .polygon, .word b.layer] ++ ehAttrs b.mask b.rule ++ b.pts.flatMap (fun q => [.lp, .num q.1, .num q.2, .rp])

/-- a via of a port — src/io/defw.cpp:2106-2121 -/
def ehPortVia (v : String × Int × Int) : List EhTok := [.plus, .kw .via, .word v.1, .lp, .num v.2.1, .num v.2.2, .rp]

/-- a port — src/io/defw.cpp:2072-2145 -/
def ehPort (p : EhPort) : List EhTok :=
  [.plus, .kw .port] ++ p.boxes.flatMap ehPortBox ++ p.polys.flatMap ehPortPoly ++ p.vias.flatMap ehPortVia
  ++ (match p.place with | some l => ehPinPlace l | none => [])

/-- an antenna option, without `+` — src/io/defw.cpp:2174-2257 -/
def ehAntenna (a : Int × Option String) : List EhTok :=
  [.kw .antenna, .num a.1] ++ (match a.2 with | some l => [.kw .layer, .word l] | none => [])

/-- a pin: the shapes only if there is a rectangle or polygon (`hasLayer`) — src/io/defw.cpp:2000-2266,
module/def/5.8-p029/def/defiPinCap.cpp:1314-1319 -/
def ehPin (p : EhPin) : List EhTok :=
  [.minus, .word p.name, .plus, .kw .net, .word p.net]
  ++ (match p.dir with | some s => [.plus, .kw .direction, .word s] | none => [])
  ++ (match p.use with | some s => [.plus, .kw .use, .word s] | none => [])
  ++ (match p.netExpr with | some s => [.plus, .kw .netexpr, .quoted s] | none => [])
  ++ (match p.supply with | some s => [.plus, .kw .supply, .word s] | none => [])
  ++ (match p.ground with | some s => [.plus, .kw .ground, .word s] | none => [])
  ++ (if p.boxes = [] ∧ p.polys = [] then []
      else p.boxes.flatMap ehPinBox ++ p.polys.flatMap ehPinPoly ++ p.vias.flatMap ehPinVia)
  ++ p.ports.flatMap ehPort
  ++ (match p.place with | some l => ehPinPlace l | none => [])
  ++ (if p.special then [.plus, .kw .special] else [])
  ++ p.antennas.flatMap ehAntenna
  ++ [.semi]

end TR
