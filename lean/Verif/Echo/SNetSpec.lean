import Verif.Echo.NetSpec
import Verif.Echo.SNet

/-!
# What a special net says — from def.y:2893-3345, and the paths of its wires from def.y:2500-2720
-/

namespace TR

/-- where the reader is in a path: before the layer, before the width, before the first point, or among the items. An
orientation may follow a via (`2`), an array a via or its orientation (`2`, `1`). -/
inductive EhSpAt
  | layer | width | opts
  | items (k : Nat)
deriving DecidableEq, Repr

/-- the paths of a wire, `NEW` between them: layer, width, `+ SHAPE` and `+ STYLE`, a point, and then points, vias,
rectangles and virtual points. They end at the first word that does not belong to a path. — def.y:2500-2720, 2819-2845,
3278-3340 -/
def ehSpIn : EhSpAt → List EhTok → Option (List EhSp × List EhTok)
  | .layer, .word l :: r => (ehSpIn .width r).map fun p => (.layer l :: p.1, p.2)
  | .width, .num w :: r => (ehSpIn .opts r).map fun p => (.width w :: p.1, p.2)
  | .opts, .plus :: .kw .shape :: .word s :: r => (ehSpIn .opts r).map fun p => (.shape s :: p.1, p.2)
  | .opts, .plus :: .kw .style :: .num n :: r => (ehSpIn .opts r).map fun p => (.style n :: p.1, p.2)
  | .opts, .lp :: .num x :: .num y :: .rp :: r => (ehSpIn (.items 0) r).map fun p => (.point x y :: p.1, p.2)
  | .opts, .lp :: .num x :: .num y :: .num e :: .rp :: r =>
      (ehSpIn (.items 0) r).map fun p => (.flush x y e :: p.1, p.2)
  | .items _, .lp :: .num x :: .num y :: .rp :: r => (ehSpIn (.items 0) r).map fun p => (.point x y :: p.1, p.2)
  | .items _, .lp :: .num x :: .num y :: .num e :: .rp :: r =>
      (ehSpIn (.items 0) r).map fun p => (.flush x y e :: p.1, p.2)
  | .items _, .word v :: r => (ehSpIn (.items 2) r).map fun p => (.via v :: p.1, p.2)
  | .items k, .ori o :: r =>
      if k = 2 then (ehReadOri (.ori o)).bind fun d => (ehSpIn (.items 1) r).map fun p => (.rot d :: p.1, p.2) else none
  | .items k, .kw .do_ :: .num a :: .kw .by_ :: .num b :: .kw .step :: .num c :: .num d :: r =>
      if 1 ≤ k then (ehSpIn (.items 0) r).map fun p => (.data a b c d :: p.1, p.2) else none
  | .items _, .kw .rect :: .lp :: .num a :: .num b :: .num c :: .num d :: .rp :: r =>
      (ehSpIn (.items 0) r).map fun p => (.rect a b c d :: p.1, p.2)
  | .items _, .kw .virtual :: .lp :: .num x :: .num y :: .rp :: r =>
      (ehSpIn (.items 0) r).map fun p => (.virt x y :: p.1, p.2)
  | .items _, .kw .new :: r => ehSpIn .layer r
  | .items _, ts => some ([], ts)
  | _, _ => none

/-- the elements that the library can give for the paths of a wire: those that `ehSpIn` reads -/
def ehSpOk : EhSpAt → List EhSp → Prop
  | .items _, [] => True
  | .layer, .layer _ :: r => ehSpOk .width r
  | .width, .width _ :: r => ehSpOk .opts r
  | .opts, .shape _ :: r => ehSpOk .opts r
  | .opts, .style _ :: r => ehSpOk .opts r
  | .opts, .point _ _ :: r => ehSpOk (.items 0) r
  | .opts, .flush _ _ _ :: r => ehSpOk (.items 0) r
  | .items _, .point _ _ :: r => ehSpOk (.items 0) r
  | .items _, .flush _ _ _ :: r => ehSpOk (.items 0) r
  | .items _, .via _ :: r => ehSpOk (.items 2) r
  | .items k, .rot o :: r => k = 2 ∧ (0 ≤ o ∧ o < 8) ∧ ehSpOk (.items 1) r
  | .items k, .data _ _ _ _ :: r => 1 ≤ k ∧ ehSpOk (.items 0) r
  | .items _, .rect _ _ _ _ :: r => ehSpOk (.items 0) r
  | .items _, .virt _ _ :: r => ehSpOk (.items 0) r
  | .items _, .layer _ :: r => ehSpOk .width r
  | _, _ => False

/-- points in parentheses -/
def ehPtList : List EhTok → Option (List (Int × Int))
  | [] => some []
  | .lp :: .num x :: .num y :: .rp :: r => (ehPtList r).map ((x, y) :: ·)
  | _ => none

/-- not `+` or `;` -/
def ehPlainB : EhTok → Bool
  | .plus | .semi => false
  | _ => true

/-- `+ TYPE` that begins a wire: a layer follows — def.y:2912-2950 -/
def ehWireHead : List EhTok → Option (EhWk × List EhTok)
  | .kw .routed :: .word l :: r => some (.routed, .word l :: r)
  | .kw .fixed :: .word l :: r => some (.fixed, .word l :: r)
  | .kw .cover :: .word l :: r => some (.cover, .word l :: r)
  | .kw .shield :: .word s :: .word l :: r => some (.shield s, .word l :: r)
  | _ => none

/-- an option of a special net that is no wire — def.y:2905-3110, 3199-3265. The state of routing and the shape of the
rectangles, polygons and vias are not modelled. -/
def ehSNetOpt (ptype : String → Option EhPT) (n : EhSNet) : List EhTok → Option EhSNet
  | [.kw .routed] => some n
  | [.kw .fixed] => some n
  | [.kw .cover] => some n
  | [.kw .shield, .word _] => some n
  | [.kw .shape, .word _] => some n
  | .kw .polygon :: .word l :: r =>
      (ehPtList r).bind fun ps => if 3 ≤ ps.length then some { n with polys := n.polys ++ [(l, ps)] } else none
  | [.kw .rect, .word l, .lp, .num a, .num b, .rp, .lp, .num c, .num d, .rp] =>
      some { n with rects := n.rects ++ [(l, a, b, c, d)] }
  | .kw .via :: .word v :: .ori o :: r =>
      (ehReadOri (.ori o)).bind fun d => (ehPtList r).bind fun ps =>
        if 1 ≤ ps.length then some { n with vias := n.vias ++ [(v, d, ps)] } else none
  | .kw .via :: .word v :: r =>
      (ehPtList r).bind fun ps => if 1 ≤ ps.length then some { n with vias := n.vias ++ [(v, 0, ps)] } else none
  | .kw .property :: t :: r =>
      (ehPairs (t :: r)).bind fun ps =>
      (ps.mapM fun p => (ptype p.1).map fun k => (p.1, p.2, k)).map fun qs => { n with props := n.props ++ qs }
  | [.kw .spacing, .word l, .num d] => some { n with spacings := n.spacings ++ [(l, d, none)] }
  | [.kw .spacing, .word l, .num d, .kw .range, .num a, .num b] =>
      some { n with spacings := n.spacings ++ [(l, d, some (a, b))] }
  | [.kw .fixedbump] => some { n with fixedbump := true }
  | [.kw .frequency, .num f] => some { n with frequency := some f }
  | [.kw .voltage, .num v] => some { n with voltage := some v }
  | [.kw .weight, .num w] => some { n with weight := some w }
  | [.kw .source, .word s] => some { n with source := some s }
  | [.kw .pattern, .word s] => some { n with pattern := some s }
  | [.kw .original, .word s] => some { n with original := some s }
  | [.kw .use, .word s] => some { n with use := some s }
  | [.kw .style, .num x] => some { n with style := some x }
  | _ => none

/-- wires and other options in any order; the first argument bounds their number -/
def ehSNetOpts (ptype : String → Option EhPT) : Nat → EhSNet → List EhTok → Option EhSNet
  | 0, n, ts => if ts = [.semi] then some n else none
  | f + 1, n, .plus :: r =>
      match ehWireHead r with
      | some (k, q) =>
          (ehSpIn .layer q).bind fun p => ehSNetOpts ptype f { n with wires := n.wires ++ [(k, p.1)] } p.2
      | none =>
          (ehSNetOpt ptype n (r.takeWhile ehPlainB)).bind fun m => ehSNetOpts ptype f m (r.dropWhile ehPlainB)
  | _ + 1, n, ts => if ts = [.semi] then some n else none

/-- a special net — def.y:2893-2903 -/
def ehReadSNet (ptype : String → Option EhPT) : List EhTok → Option EhSNet
  | .minus :: .word name :: r =>
      ehSNetOpts ptype r.length { name := name, conns := (ehConnsIn r).1 } (ehConnsIn r).2
  | _ => none

/-- the straight pieces of metal of a wire, from point to point of a path; there is none towards a virtual point -/
def ehSegs : Option (Int × Int) → List EhSp → List ((Int × Int) × (Int × Int))
  | _, [] => []
  | _, .layer _ :: r => ehSegs none r
  | p, .point x y :: r => (p.toList.map fun q => (q, (x, y))) ++ ehSegs (some (x, y)) r
  | p, .flush x y _ :: r => (p.toList.map fun q => (q, (x, y))) ++ ehSegs (some (x, y)) r
  | _, .virt x y :: r => ehSegs (some (x, y)) r
  | p, _ :: r => ehSegs p r

end TR
