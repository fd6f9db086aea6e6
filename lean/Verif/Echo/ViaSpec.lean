import Verif.Echo.PinSpec
import Verif.Echo.Via

/-!
# What a via and a blockage say — from def.y:1407-1601 and 4418-4788
-/

namespace TR

/-- points with at least three corners -/
def ehCorners (ts : List EhTok) : Option (List (Int × Int)) :=
  (ehPtList ts).bind fun ps => if 3 ≤ ps.length then some ps else none

/-- statements of a via — def.y:1434-1554. The five parts of a rule come together; rows, origin, offset and pattern only
after a rule. -/
def ehViaOpts : EhVia → List (List EhTok) → Option EhVia
  | v, [] => some v
  | v, [.kw .rect, .word l] :: (.kw .mask :: .num m :: r) :: os =>
      (ehBoxIn r).bind fun b => ehViaOpts { v with rects := v.rects ++ [(l, m, b)] } os
  | v, (.kw .rect :: .word l :: r) :: os =>
      (ehBoxIn r).bind fun b => ehViaOpts { v with rects := v.rects ++ [(l, 0, b)] } os
  | v, [.kw .polygon, .word l] :: (.kw .mask :: .num m :: r) :: os =>
      (ehCorners r).bind fun b => ehViaOpts { v with polys := v.polys ++ [(l, m, b)] } os
  | v, (.kw .polygon :: .word l :: r) :: os =>
      (ehCorners r).bind fun b => ehViaOpts { v with polys := v.polys ++ [(l, 0, b)] } os
  | v, [.kw .viarule, .word n] :: [.kw .cutsize, .num a, .num b] :: [.kw .layers, .word c, .word d, .word e]
      :: [.kw .cutspacing, .num f, .num g] :: [.kw .enclosure, .num h, .num i, .num j, .num k] :: os =>
      ehViaOpts { v with gen := some (EhGen.mk n (a, b) (c, d, e) (f, g) (h, i, j, k) (0, 0) (0, 0) (0, 0, 0, 0) none) } os
  | v, [.kw .rowcol, .num a, .num b] :: os =>
      v.gen.bind fun g => ehViaOpts { v with gen := some { g with rowCol := (a, b) } } os
  | v, [.kw .origin, .num a, .num b] :: os =>
      v.gen.bind fun g => ehViaOpts { v with gen := some { g with origin := (a, b) } } os
  | v, [.kw .offset, .num a, .num b, .num c, .num d] :: os =>
      v.gen.bind fun g => ehViaOpts { v with gen := some { g with offset := (a, b, c, d) } } os
  | v, [.kw .pattern, .word s] :: os =>
      v.gen.bind fun g => ehViaOpts { v with gen := some { g with pattern := some s } } os
  | _, _ => none

/-- a via — def.y:1421-1432 -/
def ehReadVia (ts : List EhTok) : Option EhVia :=
  (ehSplit ts).bind fun (h, os) =>
  match h with
  | [.minus, .word name] => ehViaOpts { name := name } os
  | _ => none

/-- polygons of a via that the library delivers have corners -/
def EhVia.Ok (v : EhVia) : Prop := ∀ p ∈ v.polys, p.2.2 ≠ []

/-- what is in the written file for a via: the cut pattern has quotes around it -/
def EhVia.echoed (v : EhVia) : EhVia :=
  { v with gen := v.gen.map fun g => { g with pattern := g.pattern.map ehQuote } }

/-- the polygon that was begun is finished; only blockages on layers have polygons — def.y:4764-4788 -/
def ehBlkClose (b : EhBlk) : Option (List (Int × Int)) → Option EhBlk
  | none => some b
  | some ps => if 3 ≤ ps.length ∧ b.layer ≠ none then some { b with polys := b.polys ++ [ps] } else none

/-- shapes of a blockage, at least one; the second argument is a polygon that was begun — def.y:4422-4429, 4755-4788 -/
def ehBlkShapes : EhBlk → Option (List (Int × Int)) → List EhTok → Option EhBlk
  | b, some ps, .lp :: .num x :: .num y :: .rp :: r => ehBlkShapes b (some (ps ++ [(x, y)])) r
  | b, cur, .kw .rect :: .lp :: .num x1 :: .num y1 :: .rp :: .lp :: .num x2 :: .num y2 :: .rp :: r =>
      (ehBlkClose b cur).bind fun b => ehBlkShapes { b with boxes := b.boxes ++ [(x1, y1, x2, y2)] } none r
  | b, cur, .kw .polygon :: r => (ehBlkClose b cur).bind fun b => ehBlkShapes b (some []) r
  | b, cur, [.semi] => (ehBlkClose b cur).bind fun b => if b.boxes = [] ∧ b.polys = [] then none else some b
  | _, _, _ => none

/-- options of a blockage on a layer: at most one of SLOTS and FILLS, at most one of SPACING and DESIGNRULEWIDTH —
def.y:4467-4647 -/
def ehBlkLayerIn : EhBlk → List EhTok → Option EhBlk
  | b, .plus :: .kw .component :: .word c :: r => ehBlkLayerIn { b with comp := some c } r
  | b, .plus :: .kw .slots :: r => if b.type = none then ehBlkLayerIn { b with type := some .slots } r else none
  | b, .plus :: .kw .fills :: r => if b.type = none then ehBlkLayerIn { b with type := some .fills } r else none
  | b, .plus :: .kw .pushdown :: r => ehBlkLayerIn { b with pushdown := true } r
  | b, .plus :: .kw .exceptpgnet :: r => ehBlkLayerIn { b with exceptPg := true } r
  | b, .plus :: .kw .mask :: .num m :: r => ehBlkLayerIn { b with mask := m } r
  | b, .plus :: .kw .spacing :: .num v :: r => if b.rule = .none then ehBlkLayerIn { b with rule := .spacing v } r else none
  | b, .plus :: .kw .designrulewidth :: .num v :: r => if b.rule = .none then ehBlkLayerIn { b with rule := .width v } r else none
  | b, r => ehBlkShapes b none r

/-- options of a blockage of placement: at most one of SOFT and PARTIAL — def.y:4649-4753 -/
def ehBlkPlaceIn : EhBlk → List EhTok → Option EhBlk
  | b, .plus :: .kw .component :: .word c :: r => ehBlkPlaceIn { b with comp := some c } r
  | b, .plus :: .kw .pushdown :: r => ehBlkPlaceIn { b with pushdown := true } r
  | b, .plus :: .kw .soft :: r =>
      if b.soft = false ∧ b.density = none then ehBlkPlaceIn { b with soft := true } r else none
  | b, .plus :: .kw .partial_ :: .num d :: r =>
      if b.soft = false ∧ b.density = none then ehBlkPlaceIn { b with density := some d } r else none
  | b, r => ehBlkShapes b none r

/-- a blockage — def.y:4422-4465 -/
def ehReadBlk : List EhTok → Option EhBlk
  | .minus :: .kw .layer :: .word l :: r => ehBlkLayerIn { layer := some l } r
  | .minus :: .kw .placement :: r => ehBlkPlaceIn { layer := none } r
  | _ => none

/-- what the library can deliver: a shape; nothing that only the other kind of blockage has -/
def EhBlk.Ok (b : EhBlk) : Prop :=
  (b.boxes ≠ [] ∨ b.polys ≠ []) ∧
  (b.layer ≠ none → b.soft = false ∧ b.density = none) ∧
  (b.layer = none → b.type = none ∧ b.exceptPg = false ∧ b.mask = 0 ∧ b.rule = .none ∧ b.polys = [] ∧
    ¬ (b.soft = true ∧ b.density ≠ none) ∧ ∀ d ∈ b.density, d.natAbs < 1000000)

end TR
