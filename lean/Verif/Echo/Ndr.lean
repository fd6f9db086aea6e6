import Verif.Echo.Via

/-!
# Nondefault rules, regions, fills and slots

Models `ndr` (src/io/defw.cpp:1576-1627) and the cases `defrRegionCbkType`, `defrSlotCbkType` and `defrFillCbkType` of `cls`
(src/io/defw.cpp:2408-2440, 2829-2902). Widths are whole numbers of database units.
-/

namespace TR

/-- a layer of a nondefault rule: width, diagonal width, spacing, wire extension — defiNonDefault.cpp:219-236 -/
structure EhNdrLayer where
  layer : String
  width : Int
  diag : Option Int := none
  spacing : Option Int := none
  ext : Option Int := none
deriving DecidableEq, Repr

/-- a nondefault rule -/
structure EhNdr where
  name : String
  hard : Bool := false
  layers : List EhNdrLayer := []
  vias : List String := []
  viaRules : List String := []
  minCuts : List (String × Int) := []
  props : List (String × EhVal × EhPT) := []
deriving DecidableEq, Repr

/-- a layer of a rule — src/io/defw.cpp:1586-1597 -/
def ehNdrLayer (l : EhNdrLayer) : List EhTok :=
  [.kw .layer, .word l.layer, .kw .width, .num l.width]
  ++ l.diag.toList.flatMap (fun v => [.kw .diagwidth, .num v])
  ++ l.spacing.toList.flatMap (fun v => [.kw .spacing, .num v])
  ++ l.ext.toList.flatMap (fun v => [.kw .wireext, .num v])

/-- a property with its type, which the grammar has no place for — src/io/defw.cpp:1606-1621, 2417-2434 -/
def ehTyped (p : String × EhVal × EhPT) : List EhTok := [.kw .property, .word p.1, p.2.1.tok, .kw p.2.2.kw]

/-- a nondefault rule — src/io/defw.cpp:1576-1627 -/
def ehNdr (n : EhNdr) : List EhTok :=
  [.minus, .word n.name]
  ++ (if n.hard then [.plus, .kw .hardspacing] else [])
  ++ n.layers.flatMap (fun l => .plus :: ehNdrLayer l)
  ++ n.vias.flatMap (fun v => [.plus, .kw .via, .word v])
  ++ n.viaRules.flatMap (fun v => [.plus, .kw .viarule, .word v])
  ++ n.minCuts.flatMap (fun v => [.plus, .kw .mincuts, .word v.1, .num v.2])
  ++ n.props.flatMap (fun p => .plus :: ehTyped p)
  ++ [.semi]

/-- the type of a region -/
inductive EhRegType
  | fence | guide
deriving DecidableEq, Repr

def EhRegType.kw : EhRegType → EhKw
  | .fence => .fence | .guide => .guide

/-- a region: rectangles, type, properties -/
structure EhReg where
  name : String
  boxes : List (Int × Int × Int × Int) := []
  type : Option EhRegType := none
  props : List (String × EhVal × EhPT) := []
deriving DecidableEq, Repr

/-- `( x y ) ( x y )` -/
def ehTwo (b : Int × Int × Int × Int) : List EhTok := ehPt b.1 b.2.1 ++ ehPt b.2.2.1 b.2.2.2

/-- a region — src/io/defw.cpp:2408-2440 -/
def ehReg (r : EhReg) : List EhTok :=
  [.minus, .word r.name] ++ r.boxes.flatMap ehTwo
  ++ r.type.toList.flatMap (fun t => [.plus, .kw .type, .kw t.kw])
  ++ r.props.flatMap (fun p => .plus :: ehTyped p)
  ++ [.semi]

/-- a fill or slot on a layer; slots have no mask and no OPC -/
structure EhFill where
  layer : String
  mask : Int := 0
  opc : Bool := false
  boxes : List (Int × Int × Int × Int) := []
  polys : List (List (Int × Int)) := []
deriving DecidableEq, Repr

/-- shapes of fills and slots, without parentheses and with a semicolon after each polygon —
src/io/defw.cpp:2834-2845, 2864-2874 -/
def ehBare (f : EhFill) : List EhTok :=
  f.boxes.flatMap (fun b => [.kw .rect, .num b.1, .num b.2.1, .num b.2.2.1, .num b.2.2.2])
  ++ f.polys.flatMap (fun p => .kw .polygon :: (p.flatMap (fun q => [.num q.1, .num q.2]) ++ [.semi]))

/-- a fill on a layer — src/io/defw.cpp:2855-2875 -/
def ehFill (f : EhFill) : List EhTok :=
  [.minus, .kw .layer, .word f.layer] ++ (if f.mask = 0 then [] else [.plus, .kw .mask, .num f.mask])
  ++ (if f.opc then [.plus, .kw .opc] else []) ++ ehBare f ++ [.semi]

/-- a slot — src/io/defw.cpp:2829-2846 -/
def ehSlot (f : EhFill) : List EhTok := [.minus, .kw .layer, .word f.layer] ++ ehBare f ++ [.semi]

/-- a fill of vias: name, masks of the top, cut and bottom layer as three digits, points — src/io/defw.cpp:2877-2898 -/
structure EhFillVia where
  name : String
  mask : Option (List Nat) := none
  opc : Bool := false
  pts : List (Int × Int) := []
deriving DecidableEq, Repr

/-- a fill of vias; the points come without parentheses and end with a semicolon of their own — src/io/defw.cpp:2877-2898 -/
def ehFillVia (f : EhFillVia) : List EhTok :=
  [.minus, .kw .via, .word f.name] ++ f.mask.toList.flatMap (fun d => [.plus, .kw .mask, .digits d])
  ++ (if f.opc then [.plus, .kw .opc] else []) ++ f.pts.flatMap (fun q => [.num q.1, .num q.2]) ++ [.semi, .semi]

end TR
