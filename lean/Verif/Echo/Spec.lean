import Verif.Echo.Comp

/-!
# What a statement of a DEF file says

Written from the grammar of the DEF library (module/def/5.8-p029/def/def.y), independently of the writer. A
statement is a head, options that each begin with `+`, and `;`. The readers give the object that the statement
describes, or `none` if the grammar does not accept the text.
-/

namespace TR

/-- a statement up to `;` cut at the `+`: the head and the options -/
def ehSplit : List EhTok → Option (List EhTok × List (List EhTok))
  | [] => none
  | .semi :: r => if r = [] then some ([], []) else none
  | .plus :: r => (ehSplit r).map (fun p => ([], p.1 :: p.2))
  | t :: r => (ehSplit r).map (fun p => (t :: p.1, p.2))

/-- `orient` — def.y:548-555 -/
def ehReadOri : EhTok → Option Int
  | .ori .n => some 0 | .ori .w => some 1 | .ori .s => some 2 | .ori .e => some 3
  | .ori .fn => some 4 | .ori .fw => some 5 | .ori .fs => some 6 | .ori .fe => some 7
  | _ => none

/-- the names at the end of the head — def.y:1767-1778 -/
def ehWords : List EhTok → Option (List String)
  | [] => some []
  | .word s :: r => (ehWords r).map (s :: ·)
  | _ :: _ => none

/-- the name-and-value pairs of a property option — def.y:1929-1961 -/
def ehPairs : List EhTok → Option (List (String × EhVal))
  | [] => some []
  | .word n :: .num v :: r => (ehPairs r).map ((n, .num v) :: ·)
  | .word n :: .word v :: r => (ehPairs r).map ((n, .str v) :: ·)
  | _ => none

/-- a placement — def.y:1986-2031 -/
def ehReadPlace (k : EhPlace) (x y : Int) (o : EhTok) (c : EhComp) : Option EhComp :=
  (ehReadOri o).map fun d => { c with place := some (k, x, y, d) }

/-- an option of a component — def.y:1784-2040. `ptype` is the type that the property definitions give to a name;
regions of coordinates and `FOREIGN` are accepted and ignored. -/
def ehCompOpt (ptype : String → Option EhPT) (c : EhComp) : List EhTok → Option EhComp
  | [.kw .source, .word s] => some { c with source := some s }
  | [.kw .fixed, .lp, .num x, .num y, .rp, o] => ehReadPlace .fixed x y o c
  | [.kw .cover, .lp, .num x, .num y, .rp, o] => ehReadPlace .cover x y o c
  | [.kw .placed, .lp, .num x, .num y, .rp, o] => ehReadPlace .placed x y o c
  | [.kw .unplaced] => some { c with place := some (.unplaced, -1, -1, -1) }
  | [.kw .unplaced, .lp, .num _, .num _, .rp, o] => (ehReadOri o).map fun _ => c
  | [.kw .generate, .word g] => some { c with generate := some (g, none) }
  | [.kw .generate, .word g, .word m] => some { c with generate := some (g, some m) }
  | [.kw .weight, .num w] => some { c with weight := some w }
  | [.kw .eeqmaster, .word s] => some { c with eeq := some s }
  | [.kw .region, .word s] => some { c with region := some s }
  | [.kw .region, .lp, .num _, .num _, .rp, .lp, .num _, .num _, .rp] => some c
  | [.kw .maskshift, .digits d] => some { c with maskShift := d.reverse }
  | [.kw .halo, .num l, .num b, .num r, .num t] => some { c with halo := some (false, l, b, r, t) }
  | [.kw .halo, .kw .soft, .num l, .num b, .num r, .num t] => some { c with halo := some (true, l, b, r, t) }
  | [.kw .routehalo, .num d, .word lo, .word hi] => some { c with routeHalo := some (d, lo, hi) }
  | [.kw .foreign, .word _, .lp, .num _, .num _, .rp, o] => (ehReadOri o).map fun _ => c
  | [.kw .foreign, .word _, .num _, .num _, o] => (ehReadOri o).map fun _ => c
  | .kw .property :: t :: r =>
      (ehPairs (t :: r)).bind fun ps =>
      (ps.mapM fun p => (ptype p.1).map fun k => (p.1, p.2, k)).map fun qs => { c with props := c.props ++ qs }
  | _ => none

/-- a component — def.y:1748-1787 -/
def ehReadComp (ptype : String → Option EhPT) (ts : List EhTok) : Option EhComp :=
  (ehSplit ts).bind fun (h, os) =>
  match h with
  | .minus :: .word id :: .word name :: ns =>
      (ehWords ns).bind fun nets => os.foldlM (ehCompOpt ptype) { id := id, name := name, nets := nets }
  | _ => none

end TR
