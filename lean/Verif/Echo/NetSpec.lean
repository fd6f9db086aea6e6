import Verif.Echo.Spec
import Verif.Echo.Net

/-!
# What a net says — from def.y:2043-2420
-/

namespace TR

/-- connections: `( component pin )`, with `+ SYNTHESIZED` before the closing parenthesis; they end at the first other
word — def.y:2093-2131. Reads the whole statement: what is left begins the options. -/
def ehConnsIn : List EhTok → List (String × String × Bool) × List EhTok
  | .lp :: .word i :: .word p :: .rp :: r => ((i, p, false) :: (ehConnsIn r).1, (ehConnsIn r).2)
  | .lp :: .word i :: .word p :: .plus :: .kw .synthesized :: .rp :: r =>
      ((i, p, true) :: (ehConnsIn r).1, (ehConnsIn r).2)
  | ts => ([], ts)

/-- the paths of `+ ROUTED`, separated by `NEW`; none is empty — def.y:2400-2420 -/
def ehPaths (cur : List PathTok) : List EhTok → Option (List (List PathTok))
  | [] => if cur = [] then none else some [cur]
  | .path p :: r => ehPaths (cur ++ [p]) r
  | .kw .new :: r => if cur = [] then none else (ehPaths [] r).map (cur :: ·)
  | _ => none

/-- `vpin_status` — def.y:2391-2396 -/
def ehVpinStatus : EhKw → Option EhPlace
  | .placed => some .placed
  | .fixed => some .fixed
  | .cover => some .cover
  | _ => none

/-- a virtual pin — def.y:2365-2397 -/
def ehReadVpin : List EhTok → Option EhVpin
  | [.kw .vpin, .word n, .lp, .num a, .num b, .rp, .lp, .num c, .num d, .rp] => some { name := n, box := (a, b, c, d) }
  | [.kw .vpin, .word n, .kw .layer, .word l, .lp, .num a, .num b, .rp, .lp, .num c, .num d, .rp] =>
      some { name := n, layer := some l, box := (a, b, c, d) }
  | [.kw .vpin, .word n, .lp, .num a, .num b, .rp, .lp, .num c, .num d, .rp, .kw s, .lp, .num x, .num y, .rp, o] =>
      (ehVpinStatus s).bind fun s => (ehReadOri o).map fun k =>
        { name := n, box := (a, b, c, d), loc := some (s, x, y, k) }
  | [.kw .vpin, .word n, .kw .layer, .word l, .lp, .num a, .num b, .rp, .lp, .num c, .num d, .rp, .kw s, .lp, .num x,
      .num y, .rp, o] =>
      (ehVpinStatus s).bind fun s => (ehReadOri o).map fun k =>
        { name := n, layer := some l, box := (a, b, c, d), loc := some (s, x, y, k) }
  | _ => none

/-- an option of a net — def.y:2138-2330 -/
def ehNetOpt (ptype : String → Option EhPT) (n : EhNet) : List EhTok → Option EhNet
  | .kw .routed :: r => (ehPaths [] r).map fun ps => { n with routes := n.routes ++ ps }
  | [.kw .nondefaultrule, .word s] => some { n with ndr := some s }
  | .kw .vpin :: r => (ehReadVpin (.kw .vpin :: r)).map fun v => { n with vpins := n.vpins ++ [v] }
  | [.kw .shieldnet, .word s] => some { n with shields := n.shields ++ [s] }
  | .kw .property :: t :: r =>
      (ehPairs (t :: r)).bind fun ps =>
      (ps.mapM fun p => (ptype p.1).map fun k => (p.1, p.2, k)).map fun qs => { n with props := n.props ++ qs }
  | [.kw .weight, .num w] => some { n with weight := some w }
  | [.kw .estcap, .num c] => some { n with cap := some c }
  | [.kw .source, .word s] => some { n with source := some s }
  | [.kw .fixedbump] => some { n with fixedbump := true }
  | [.kw .frequency, .num f] => some { n with frequency := some f }
  | [.kw .pattern, .word s] => some { n with pattern := some s }
  | [.kw .original, .word s] => some { n with original := some s }
  | [.kw .use, .word s] => some { n with use := some s }
  | [.kw .xtalk, .num x] => some { n with xtalk := some x }
  | [.kw .style, .num x] => some { n with style := some x }
  | _ => none

/-- a net — def.y:2057-2131 -/
def ehReadNet (ptype : String → Option EhPT) : List EhTok → Option EhNet
  | .minus :: .word name :: r =>
      (ehSplit (ehConnsIn r).2).bind fun (h, os) =>
      if h = [] then os.foldlM (ehNetOpt ptype) { name := name, conns := (ehConnsIn r).1 } else none
  | _ => none

end TR
