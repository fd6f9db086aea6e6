import Verif.Echo.Comp
import Verif.Echo.Num

/-!
# Nets

Models `netNamef` and `netf` (src/io/defw.cpp:278-283, 301-712). Left out: subnets. `subnetNamef` and `nondefRulef`
(285-299) print nothing, since `curVer` stays 0: only `vers` sets it (1866-1871), and `writeDef` does not set that
callback (3112).
-/

namespace TR

/-- a virtual pin: name, layer, box, and how it is placed -/
structure EhVpin where
  name : String
  layer : Option String := none
  box : Int × Int × Int × Int
  loc : Option (EhPlace × Int × Int × Int) := none
deriving DecidableEq, Repr

/-- a net as the library gives it to the callback; the third part of a connection says that it is synthesized -/
structure EhNet where
  name : String
  conns : List (String × String × Bool) := []
  ndr : Option String := none
  vpins : List EhVpin := []
  shields : List String := []
  props : List (String × EhVal × EhPT) := []
  weight : Option Int := none
  cap : Option Int := none
  source : Option String := none
  fixedbump : Bool := false
  frequency : Option Int := none
  pattern : Option String := none
  original : Option String := none
  use : Option String := none
  xtalk : Option Int := none
  style : Option Int := none
  routes : List (List PathTok) := []
deriving DecidableEq, Repr

/-- the connections — src/io/defw.cpp:327-345 -/
def ehConns (cs : List (String × String × Bool)) : List EhTok :=
  cs.flatMap fun c => [.lp, .word c.1, .word c.2.1, .rp] ++ (if c.2.2 then [.plus, .kw .synthesized] else [])

/-- the routes: `+ ROUTED` before the first and `NEW` before each other one; the words of a route are those of
`writeNet` — src/io/defw.cpp:352-424 -/
def ehRoutes : List (List PathTok) → List EhTok
  | [] => []
  | r :: rs => [.plus, .kw .routed] ++ r.map .path ++ rs.flatMap (fun q => .kw .new :: q.map .path)

/-- a virtual pin; the word `VPIN` and the parentheses are not written — src/io/defw.cpp:429-442 -/
def ehVpin (v : EhVpin) : List EhTok :=
  [.plus, .word v.name]
  ++ (match v.layer with | some l => [.word l] | none => [])
  ++ [.num v.box.1, .num v.box.2.1, .num v.box.2.2.1, .num v.box.2.2.2]
  ++ (match v.loc with
      | some (s, x, y, o) =>
          [.word (match s with | .placed => "P" | .fixed => "F" | .cover => "C" | .unplaced => " "), .num x, .num y] ++ (if o ≠ -1 then [ehOri o] else [])
      | none => [])

/-- `propNumber`: 0 for a property that was given as text — module/def/5.8-p029/def/defiNet.cpp:1038-1056 -/
def EhVal.number : EhVal → Int
  | .num v => v
  | .str _ => 0

/-- a property — src/io/defw.cpp:661-682 -/
def ehNetProp (p : String × EhVal × EhPT) : List EhTok :=
  [.plus, .kw .property, .word p.1] ++
  (match p.2.2 with
   | .r => [.num (ehG p.2.1.number)]
   | .i => [.num (ehG p.2.1.number), .kw .integer]
   | .s => [p.2.1.tok, .kw .string]
   | .q => [p.2.1.tok, .kw .quotestring]
   | .n => [.num (ehG p.2.1.number), .kw .number])

/-- `netNamef` and `netf` — src/io/defw.cpp:278-283, 301-712. `routes` are the routes of the router; the wires of the
reference file (447-516), `XTALK` and `STYLE` are not written. -/
def ehNet (routes : List (List PathTok)) (n : EhNet) : List EhTok :=
  [.minus, .word n.name] ++ ehConns n.conns
  ++ ehRoutes routes
  ++ (match n.ndr with | some s => [.plus, .kw .nondefaultrule, .word s] | none => [])
  ++ n.vpins.flatMap ehVpin
  ++ n.shields.flatMap (fun s => [.plus, .kw .shieldnet, .word s])
  ++ n.props.flatMap ehNetProp
  ++ (match n.weight with | some w => [.plus, .kw .weight, .num w] | none => [])
  ++ (match n.cap with | some c => [.plus, .kw .estcap, .num (ehG c)] | none => [])
  ++ (match n.source with | some s => [.plus, .kw .source, .word s] | none => [])
  ++ (if n.fixedbump then [.plus, .kw .fixedbump] else [])
  ++ (match n.frequency with | some f => [.plus, .kw .frequency, .num (ehG f)] | none => [])
  ++ (match n.pattern with | some s => [.plus, .kw .pattern, .word s] | none => [])
  ++ (match n.original with | some s => [.plus, .kw .original, .word s] | none => [])
  ++ (match n.use with | some s => [.plus, .kw .use, .word s] | none => [])
  ++ [.semi]

end TR
