import Verif.Cost.Spec
/-! Vocabulary for histories of routed shapes. -/
namespace TR

/-- the metal of a routed shape and its layer index -/
inductive CFig.Metal : CFig → Box → Int → Prop where
  | wire (box bi ei) : CFig.Metal (.wire box bi ei) box bi.z
  | patch (box z) : CFig.Metal (.patch box z) box z
  | viaLow (v o z1 z2) : CFig.Metal (.via v o z1 z2) (v.l1.at o) z1
  | viaHigh (v o z1 z2) : CFig.Metal (.via v o z1 z2) (v.l2.at o) z2

/-- a cut of a routed via and the index of the layer below it -/
inductive CFig.Cut : CFig → Box → Int → Prop where
  | cut (v : MzVia) (o z1 z2 c) : c ∈ v.cuts → CFig.Cut (.via v o z1 z2) (c.at o) z1

/-- the counter of a node: for wires through it, or for a via on it -/
def ctrAttr (via : Bool) : Attr := if via then .drcV else .drcP

/-- how often the routed shapes `fs` charge a counter -/
def chargeOf (T : CTech) (g : Grid) (sv : MIdx → Option MzVia) (t : CTgt) (fs : List CFig) : Nat :=
  (fs.map fun f => (pathTargets T g sv f).count t).sum

/-- every counter a shape charges is one of the grid -/
def ChargesGrid (T : CTech) (g : Grid) (sv : MIdx → Option MzVia) (f : CFig) : Prop := ∀ t ∈ pathTargets T g sv f, g.On t.1

/-- the grids reached from `g0` by routing and ripping up shapes in any order, each with the list of shapes then present, as long as counter `t`
does not exceed 255 -/
inductive RoutedFrom (T : CTech) (sv : MIdx → Option MzVia) (g0 : Grid) (t : CTgt) : List CFig → Grid → Prop where
  | start : RoutedFrom T sv g0 t [] g0
  | add {fs g f} : RoutedFrom T sv g0 t fs g → ChargesGrid T g0 sv f →
      g0.attr t.1 (ctrAttr t.2) + chargeOf T g0 sv t (f :: fs) ≤ 255 → RoutedFrom T sv g0 t (f :: fs) (addPathCost T sv f g)
  | remove {fs fs' g f} : RoutedFrom T sv g0 t fs g → fs.Perm (f :: fs') → RoutedFrom T sv g0 t fs' (subPathCost T sv f g)

/-- no default via reaches below the lowest or above the highest layer of the grid, nor does a rule about vias -/
def ViasFit (T : CTech) (g : Grid) : Prop :=
  ∀ z : Int, 0 ≤ z → z < g.zs.length →
    (∀ v, T.viaOf (g.lay z) false = some v → 0 < z) ∧ (∀ v, T.otherVia (g.lay z + 1) false = some v → 0 < z) ∧
    (∀ v, T.otherVia (g.lay z + 1) true = some v → z + 1 < g.zs.length) ∧ (∀ h, T.through z true h = true → 0 < z)

/-- the shape lies on layers of the grid, a wire runs between two nodes of it -/
def CFig.OnGrid (g : Grid) : CFig → Prop
  | .wire _ bi ei => g.On bi ∧ g.On ei ∧ bi.z = ei.z
  | .patch _ z => 0 ≤ z ∧ z < g.zs.length
  | .via _ _ z1 z2 => 0 ≤ z1 ∧ z1 < g.zs.length ∧ 0 ≤ z2 ∧ z2 < g.zs.length

end TR
