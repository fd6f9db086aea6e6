import Verif.Echo.ViaSpec
import Verif.Echo.Spec
import Verif.Echo.Ndr

/-!
# What nondefault rules, regions, fills and slots say — from def.y:1601-1704, 4790-4994, 4997-5136
-/

namespace TR

/-- properties with the types that their definitions give -/
def ehTypes (pt : String → Option EhPT) (ps : List (String × EhVal)) : Option (List (String × EhVal × EhPT)) :=
  ps.mapM fun p => (pt p.1).map fun k => (p.1, p.2, k)

/-- options of a layer of a rule, in any order — def.y:5076-5098 -/
def ehNdrLayerIn : EhNdrLayer → List EhTok → Option EhNdrLayer
  | l, [] => some l
  | l, .kw .diagwidth :: .num v :: r => ehNdrLayerIn { l with diag := some v } r
  | l, .kw .spacing :: .num v :: r => ehNdrLayerIn { l with spacing := some v } r
  | l, .kw .wireext :: .num v :: r => ehNdrLayerIn { l with ext := some v } r
  | _, _ => none

/-- an option of a rule — def.y:5041-5074 -/
def ehNdrOpt (pt : String → Option EhPT) (n : EhNdr) : List EhTok → Option EhNdr
  | [.kw .hardspacing] => some { n with hard := true }
  | .kw .layer :: .word l :: .kw .width :: .num w :: r =>
      (ehNdrLayerIn { layer := l, width := w } r).map fun l => { n with layers := n.layers ++ [l] }
  | [.kw .via, .word v] => some { n with vias := n.vias ++ [v] }
  | [.kw .viarule, .word v] => some { n with viaRules := n.viaRules ++ [v] }
  | [.kw .mincuts, .word l, .num k] => some { n with minCuts := n.minCuts ++ [(l, k)] }
  | .kw .property :: r => (ehPairs r).bind fun ps => (ehTypes pt ps).map fun ps => { n with props := n.props ++ ps }
  | _ => none

/-- a rule — def.y:5026-5039 -/
def ehReadNdr (pt : String → Option EhPT) (ts : List EhTok) : Option EhNdr :=
  (ehSplit ts).bind fun (h, os) =>
  match h with
  | [.minus, .word name] => os.foldlM (ehNdrOpt pt) { name := name }
  | _ => none

/-- pairs of points — def.y:1632-1639 -/
def ehTwos : List EhTok → Option (List (Int × Int × Int × Int))
  | [] => some []
  | .lp :: .num a :: .num b :: .rp :: .lp :: .num c :: .num d :: .rp :: r => (ehTwos r).map ((a, b, c, d) :: ·)
  | _ => none

/-- an option of a region — def.y:1645-1661, 1701-1704. A second type is reported as an error. -/
def ehRegOpt (pt : String → Option EhPT) (g : EhReg) : List EhTok → Option EhReg
  | [.kw .type, .kw .fence] => if g.type = none then some { g with type := some .fence } else none
  | [.kw .type, .kw .guide] => if g.type = none then some { g with type := some .guide } else none
  | .kw .property :: r => (ehPairs r).bind fun ps => (ehTypes pt ps).map fun ps => { g with props := g.props ++ ps }
  | _ => none

/-- a region, with at least one rectangle — def.y:1623-1639 -/
def ehReadReg (pt : String → Option EhPT) (ts : List EhTok) : Option EhReg :=
  (ehSplit ts).bind fun (h, os) =>
  match h with
  | .minus :: .word name :: r =>
      (ehTwos r).bind fun bs => if bs = [] then none else os.foldlM (ehRegOpt pt) { name := name, boxes := bs }
  | _ => none

/-- the polygon that was begun is finished — def.y:4888-4893 -/
def ehFillClose (f : EhFill) : Option (List (Int × Int)) → Option EhFill
  | none => some f
  | some ps => if 3 ≤ ps.length then some { f with polys := f.polys ++ [ps] } else none

/-- shapes of a fill or slot, at least one — def.y:4804-4840, 4856-4907 -/
def ehFillShapes : EhFill → Option (List (Int × Int)) → List EhTok → Option EhFill
  | f, some ps, .lp :: .num x :: .num y :: .rp :: r => ehFillShapes f (some (ps ++ [(x, y)])) r
  | f, cur, .kw .rect :: .lp :: .num x1 :: .num y1 :: .rp :: .lp :: .num x2 :: .num y2 :: .rp :: r =>
      (ehFillClose f cur).bind fun f => ehFillShapes { f with boxes := f.boxes ++ [(x1, y1, x2, y2)] } none r
  | f, cur, .kw .polygon :: r => (ehFillClose f cur).bind fun f => ehFillShapes f (some []) r
  | f, cur, [.semi] => (ehFillClose f cur).bind fun f => if f.boxes = [] ∧ f.polys = [] then none else some f
  | _, _, _ => none

/-- options of a fill, then its shapes — def.y:4880, 4910-4916 -/
def ehFillIn : EhFill → List EhTok → Option EhFill
  | f, .plus :: .kw .mask :: .num m :: r => ehFillIn { f with mask := m } r
  | f, .plus :: .kw .opc :: r => ehFillIn { f with opc := true } r
  | f, r => ehFillShapes f none r

/-- a fill — def.y:4856-4880 -/
def ehReadFill : List EhTok → Option EhFill
  | .minus :: .kw .layer :: .word l :: r => ehFillIn { layer := l } r
  | _ => none

/-- a slot — def.y:4804-4818 -/
def ehReadSlot : List EhTok → Option EhFill
  | .minus :: .kw .layer :: .word l :: r => ehFillShapes { layer := l } none r
  | _ => none

/-- options of a fill of vias, then at least one point — def.y:4864-4871, 4938-4952 -/
def ehFillViaIn : EhFillVia → List EhTok → Option EhFillVia
  | f, .plus :: .kw .mask :: .digits d :: r => ehFillViaIn { f with mask := some d } r
  | f, .plus :: .kw .opc :: r => ehFillViaIn { f with opc := true } r
  | f, .lp :: .num x :: .num y :: .rp :: r => ehFillViaIn { f with pts := f.pts ++ [(x, y)] } r
  | f, [.semi] => if f.pts = [] then none else some f
  | _, _ => none

/-- a fill of vias — def.y:4864-4871. Options between points are accepted here, which is more than the grammar accepts. -/
def ehReadFillVia : List EhTok → Option EhFillVia
  | .minus :: .kw .via :: .word n :: r => ehFillViaIn { name := n } r
  | _ => none

end TR
