import Verif.Echo.Pin

/-!
# Vias and blockages of the design

Models the cases `defrViaCbkType` and `defrBlockageCbkType` of `cls` (src/io/defw.cpp:2338-2406, 2769-2828) for files of
DEF 5.8. Left out: `PATTERNNAME` of vias, which the library ignores since 5.6.
-/

namespace TR

/-- a generated via: rule, cut size, layers, cut spacing, enclosure; rows and columns, origin and offsets are zero if they
were not given — module/def/5.8-p029/def/defiVia.cpp:94-107, 329-406 -/
structure EhGen where
  rule : String
  cutSize : Int × Int
  layers : String × String × String
  cutSpacing : Int × Int
  enclosure : Int × Int × Int × Int
  rowCol : Int × Int := (0, 0)
  origin : Int × Int := (0, 0)
  offset : Int × Int × Int × Int := (0, 0, 0, 0)
  pattern : Option String := none
deriving DecidableEq, Repr

/-- a via: rectangles and polygons with layer and mask (0: none) -/
structure EhVia where
  name : String
  rects : List (String × Int × Int × Int × Int × Int) := []
  polys : List (String × Int × List (Int × Int)) := []
  gen : Option EhGen := none
deriving DecidableEq, Repr

/-- a rectangle of a via — src/io/defw.cpp:2346-2357 -/
def ehViaRect (r : String × Int × Int × Int × Int × Int) : List EhTok :=
  if r.2.1 = 0 then
    [.plus, .kw .rect, .word r.1, .lp, .num r.2.2.1, .num r.2.2.2.1, .rp, .lp, .num r.2.2.2.2.1, .num r.2.2.2.2.2, .rp]
  else
    [.plus, .kw .rect, .word r.1, .plus, .kw .mask, .num r.2.1,
      .lp, .num r.2.2.1, .num r.2.2.2.1, .rp, .lp, .num r.2.2.2.2.1, .num r.2.2.2.2.2, .rp]

/-- a polygon of a via, without parentheses — src/io/defw.cpp:2359-2374 -/
def ehViaPoly (p : String × Int × List (Int × Int)) : List EhTok :=
  [.plus, .kw .polygon, .word p.1] ++ (if p.2.1 = 0 then [] else [.plus, .kw .mask, .num p.2.1])
  ++ p.2.2.flatMap (fun q => [.num q.1, .num q.2])

/-- the cut pattern in single quotes, which are no quotes of the language but part of the word — src/io/defw.cpp:2397-2398 -/
def ehQuote (s : String) : String := "'" ++ s ++ "'"

/-- the rule of a generated via — src/io/defw.cpp:2376-2399, module/def/5.8-p029/def/defiVia.cpp:497-530 -/
def ehGen (g : EhGen) : List EhTok :=
  [.plus, .kw .viarule, .word g.rule, .plus, .kw .cutsize, .num g.cutSize.1, .num g.cutSize.2,
    .plus, .kw .layers, .word g.layers.1, .word g.layers.2.1, .word g.layers.2.2,
    .plus, .kw .cutspacing, .num g.cutSpacing.1, .num g.cutSpacing.2,
    .plus, .kw .enclosure, .num g.enclosure.1, .num g.enclosure.2.1, .num g.enclosure.2.2.1, .num g.enclosure.2.2.2]
  ++ (if g.rowCol = (0, 0) then [] else [.plus, .kw .rowcol, .num g.rowCol.1, .num g.rowCol.2])
  ++ (if g.origin = (0, 0) then [] else [.plus, .kw .origin, .num g.origin.1, .num g.origin.2])
  ++ (if g.offset = (0, 0, 0, 0) then [] else
      [.plus, .kw .offset, .num g.offset.1, .num g.offset.2.1, .num g.offset.2.2.1, .num g.offset.2.2.2])
  ++ g.pattern.toList.flatMap (fun s => [.plus, .kw .pattern, .word (ehQuote s)])

/-- a via — src/io/defw.cpp:2338-2406 -/
def ehVia (v : EhVia) : List EhTok :=
  [.minus, .word v.name] ++ v.rects.flatMap ehViaRect ++ v.polys.flatMap ehViaPoly
  ++ v.gen.toList.flatMap ehGen ++ [.semi]

/-- what a routing blockage is made for -/
inductive EhBlkType
  | slots | fills
deriving DecidableEq, Repr

/-- a blockage: on a layer, or of placement (`layer = none`); spacing and width are one of two; mask 0 is none -/
structure EhBlk where
  layer : Option String
  comp : Option String := none
  type : Option EhBlkType := none
  pushdown : Bool := false
  exceptPg : Bool := false
  mask : Int := 0
  rule : EhRule := .none
  soft : Bool := false
  density : Option Int := none
  boxes : List (Int × Int × Int × Int) := []
  polys : List (List (Int × Int)) := []
deriving DecidableEq, Repr

/-- options of a blockage on a layer — src/io/defw.cpp:2774-2797 -/
def ehBlkLayer (l : String) (b : EhBlk) : List EhTok :=
  [.minus, .kw .layer, .word l]
  ++ (match b.comp with | some c => [.plus, .kw .component, .word c] | none => [])
  ++ (match b.type with | some .slots => [.plus, .kw .slots] | some .fills => [.plus, .kw .fills] | none => [])
  ++ (if b.pushdown then [.plus, .kw .pushdown] else [])
  ++ (if b.exceptPg then [.plus, .kw .exceptpgnet] else [])
  ++ (if b.mask = 0 then [] else [.plus, .kw .mask, .num b.mask])
  ++ (match b.rule with
      | .none => [] | .spacing v => [.plus, .kw .spacing, .num v] | .width v => [.plus, .kw .designrulewidth, .num v])

/-- options of a blockage of placement — src/io/defw.cpp:2798-2810 -/
def ehBlkPlace (b : EhBlk) : List EhTok :=
  [.minus, .kw .placement]
  ++ (if b.soft then [.plus, .kw .soft] else [])
  ++ (match b.density with | some d => [.plus, .kw .partial_, .num (ehG d)] | none => [])
  ++ (match b.comp with | some c => [.plus, .kw .component, .word c] | none => [])
  ++ (if b.pushdown then [.plus, .kw .pushdown] else [])

/-- a rectangle of a blockage — src/io/defw.cpp:2812-2816 -/
def ehBlkBox (r : Int × Int × Int × Int) : List EhTok :=
  [.kw .rect, .lp, .num r.1, .num r.2.1, .rp, .lp, .num r.2.2.1, .num r.2.2.2, .rp]

/-- a polygon of a blockage, without parentheses — src/io/defw.cpp:2818-2824 -/
def ehBlkPoly (p : List (Int × Int)) : List EhTok := .kw .polygon :: p.flatMap (fun q => [.num q.1, .num q.2])

/-- a blockage — src/io/defw.cpp:2769-2828 -/
def ehBlk (b : EhBlk) : List EhTok :=
  (match b.layer with | some l => ehBlkLayer l b | none => ehBlkPlace b)
  ++ b.boxes.flatMap ehBlkBox ++ b.polys.flatMap ehBlkPoly ++ [.semi]

end TR
