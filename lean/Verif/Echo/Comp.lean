import Verif.Echo.Tok

/-!
# Components

Models `compf` (src/io/defw.cpp:148-266).
-/

namespace TR

/-- how a component is placed -/
inductive EhPlace
  | fixed | cover | placed | unplaced
deriving DecidableEq, Repr

/-- a component as the DEF library gives it to the callback. `maskShift` is kept last digit first, as the library
keeps it. -/
structure EhComp where
  id : String
  name : String
  nets : List String := []
  source : Option String := none
  place : Option (EhPlace × Int × Int × Int) := none
  generate : Option (String × Option String) := none
  weight : Option Int := none
  eeq : Option String := none
  region : Option String := none
  bounds : List (Int × Int × Int × Int) := []
  maskShift : List Nat := []
  halo : Option (Bool × Int × Int × Int × Int) := none
  routeHalo : Option (Int × String × String) := none
  foreign : Option (String × Int × Int × Int) := none
  props : List (String × EhVal × EhPT) := []
deriving DecidableEq, Repr

/-- the placement — src/io/defw.cpp:170-196 -/
def ehPlace : EhPlace × Int × Int × Int → List EhTok
  | (.fixed, x, y, o) => [.plus, .kw .fixed] ++ ehPt x y ++ [ehOri o]
  | (.cover, x, y, o) => [.plus, .kw .cover, .num x, .num y, ehOri o]
  | (.placed, x, y, o) => [.plus, .kw .placed] ++ ehPt x y ++ [ehOri o]
  | (.unplaced, x, y, o) =>
      [.plus, .kw .unplaced] ++ (if x ≠ -1 ∨ y ≠ -1 then [.num x, .num y, ehOri o] else [])

/-- `compf` — src/io/defw.cpp:155-259, without the end of the section (260-262). -/
def ehComp (c : EhComp) : List EhTok :=
  [.minus, .word c.id, .word c.name] ++ c.nets.map .word
  ++ (match c.source with | some s => [.plus, .kw .source, .word s] | none => [])
  ++ (match c.place with | some p => ehPlace p | none => [])
  ++ (match c.generate with
      | some (g, some m) => [.plus, .kw .generate, .word g, .word m]
      | some (g, none) => [.plus, .kw .generate, .word g]
      | none => [])
  ++ (match c.weight with | some w => [.plus, .kw .weight, .num w] | none => [])
  ++ (match c.eeq with | some s => [.plus, .kw .eeqmaster, .word s] | none => [])
  ++ (match c.region with | some s => [.plus, .kw .region, .word s] | none => [])
  ++ c.bounds.flatMap (fun b => [.plus, .kw .region, .num b.1, .num b.2.1, .num b.2.2.1, .num b.2.2.2])
  ++ (if c.maskShift.length ≠ 0 then [.plus, .kw .maskshift, .digits c.maskShift.reverse] else [])
  ++ (match c.halo with
      | some (soft, l, b, r, t) =>
          [.plus, .kw .halo] ++ (if soft then [.kw .soft] else []) ++ [.num l, .num b, .num r, .num t]
      | none => [])
  ++ (match c.routeHalo with
      | some (d, lo, hi) => [.plus, .kw .routehalo, .num d, .word lo, .word hi] | none => [])
  ++ (match c.foreign with
      | some (f, x, y, o) => [.plus, .kw .foreign, .word f, .num x, .num y, ehOri o, .num o] | none => [])
  ++ c.props.flatMap (fun p => [.plus, .kw .property, .word p.1, p.2.1.tok, .kw p.2.2.kw])
  ++ [.semi]

end TR
