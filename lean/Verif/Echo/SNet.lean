import Verif.Echo.Net

/-!
# Special nets

Models `netNamef` and `snetf` (src/io/defw.cpp:278-283, 1209-1575) for files of DEF 5.5 or later, where the library
ignores `WIDTH` and `ESTCAP` (def.y:3098-3105, 3190-3197) and keeps `SHIELD` wires among the wires (3162). Left out: masks,
`TAPER` and subnets, which the grammar does not give to special nets.
-/

namespace TR

/-- an element of a path in the order in which the library gives them (`defiPath::next`); `rot` is the orientation of
the via before it and `data` its array -/
inductive EhSp
  | layer (s : String)
  | width (w : Int)
  | shape (s : String)
  | style (n : Int)
  | point (x y : Int)
  | flush (x y e : Int)
  | via (s : String)
  | rot (o : Int)
  | data (a b c d : Int)
  | rect (a b c d : Int)
  | virt (x y : Int)
deriving DecidableEq, Repr

/-- what a wire begins with -/
inductive EhWk
  | routed | fixed | cover
  | shield (net : String)
deriving DecidableEq, Repr

/-- a special net as the library gives it to the callback. A spacing has a layer, a distance and a range of widths; a
via has a name, an orientation and places. -/
structure EhSNet where
  name : String
  conns : List (String × String × Bool) := []
  wires : List (EhWk × List EhSp) := []
  polys : List (String × List (Int × Int)) := []
  rects : List (String × Int × Int × Int × Int) := []
  vias : List (String × Int × List (Int × Int)) := []
  props : List (String × EhVal × EhPT) := []
  spacings : List (String × Int × Option (Int × Int)) := []
  fixedbump : Bool := false
  frequency : Option Int := none
  voltage : Option Int := none
  weight : Option Int := none
  source : Option String := none
  pattern : Option String := none
  original : Option String := none
  use : Option String := none
  style : Option Int := none
deriving DecidableEq, Repr

/-- the elements of the paths of a wire; `first` is `newLayer == 0`. There is no case for `DEFIPATH_RECT` and
`DEFIPATH_VIRTUALPOINT` — src/io/defw.cpp:1251-1319 -/
def ehElems : Bool → List EhSp → List EhTok
  | _, [] => []
  | first, .layer s :: r => (if first then [.word s] else [.kw .new, .word s]) ++ ehElems false r
  | first, .width w :: r => .num w :: ehElems first r
  | first, .shape s :: r => [.plus, .kw .shape, .word s] ++ ehElems first r
  | first, .style n :: r => [.plus, .kw .style, .num n] ++ ehElems first r
  | first, .point x y :: r => [.lp, .num x, .num y, .rp] ++ ehElems first r
  | first, .flush x y e :: r => [.lp, .num x, .num y, .num e, .rp] ++ ehElems first r
  | first, .via s :: r => .word s :: ehElems first r
  | first, .rot o :: r => ehOri o :: ehElems first r
  | first, .data a b c d :: r =>
      [.kw .do_, .num a, .kw .by_, .num b, .kw .step, .num c, .num d] ++ ehElems first r
  | first, .rect _ _ _ _ :: r => ehElems first r
  | first, .virt _ _ :: r => ehElems first r

/-- `+ TYPE`, with the name of the shielded net — src/io/defw.cpp:1248-1250 -/
def EhWk.text : EhWk → List EhTok
  | .routed => [.plus, .kw .routed]
  | .fixed => [.plus, .kw .fixed]
  | .cover => [.plus, .kw .cover]
  | .shield s => [.plus, .kw .shield, .word s]

/-- a voltage by `%g`: from a million on it has an exponent — src/io/defw.cpp:1556-1557 -/
def ehVolt (v : Int) : EhTok := if v.natAbs < 1000000 then .num v else .word "EXPONENT"

/-- the value of a property: text, or a number by `%g` — src/io/defw.cpp:1428-1436 -/
def ehSVal : EhVal → EhTok
  | .num v => .num (ehG v)
  | .str s => .word s

/-- a spacing, with its range unless both ends are equal — src/io/defw.cpp:1540-1549 -/
def ehSpacing (s : String × Int × Option (Int × Int)) : List EhTok :=
  [.kw .spacing, .word s.1, .num (ehG s.2.1)] ++
  (match s.2.2 with
   | some (a, b) => if a = b then [] else [.kw .range, .num (ehG a), .num (ehG b)]
   | none => [])

/-- `netNamef` and `snetf` — src/io/defw.cpp:278-283, 1209-1575. Polygons and rectangles are written without parentheses
(1326-1372). `curVer` is 0, hence vias are not written (1374-1401). There is nothing for `STYLE`. -/
def ehSNet (n : EhSNet) : List EhTok :=
  [.minus, .word n.name] ++ ehConns n.conns
  ++ n.wires.flatMap (fun w => w.1.text ++ ehElems true w.2)
  ++ n.polys.flatMap (fun p => [.plus, .kw .polygon, .word p.1] ++ p.2.flatMap (fun q => [.num q.1, .num q.2]))
  ++ n.rects.flatMap (fun r =>
      [.plus, .kw .rect, .word r.1, .num r.2.1, .num r.2.2.1, .num r.2.2.2.1, .num r.2.2.2.2])
  ++ n.props.flatMap (fun p => [.plus, .kw .property, .word p.1, ehSVal p.2.1])
  ++ n.spacings.flatMap (fun s => .plus :: ehSpacing s)
  ++ (if n.fixedbump then [.plus, .kw .fixedbump] else [])
  ++ (match n.frequency with | some f => [.plus, .kw .frequency, .num (ehG f)] | none => [])
  ++ (match n.voltage with | some v => [.plus, .kw .voltage, ehVolt v] | none => [])
  ++ (match n.weight with | some w => [.plus, .kw .weight, .num w] | none => [])
  ++ (match n.source with | some s => [.plus, .kw .source, .word s] | none => [])
  ++ (match n.pattern with | some s => [.plus, .kw .pattern, .word s] | none => [])
  ++ (match n.original with | some s => [.plus, .kw .original, .word s] | none => [])
  ++ (match n.use with | some s => [.plus, .kw .use, .word s] | none => [])
  ++ [.semi]

end TR
