import Verif.Maze.Grid
import Verif.Geom.Spec
/-! Specification vocabulary for the maze grid storage. -/
namespace TR

/-- The attributes stored for a node, as documented in the layout comment
src/dr/FlexGridGraph.h:773-783. -/
inductive Attr where
  | edgeE | edgeN | edgeU | blockE | blockN | blockU | svia | override
  | gridE | gridN | gridU | drcP | drcV | markP | markV | shapeV | shapeP
deriving DecidableEq, Repr

/-- first bit and number of bits of each attribute in the documented layout -/
def Attr.field : Attr → Nat × Nat
  | .edgeE => (0, 1) | .edgeN => (1, 1) | .edgeU => (2, 1)
  | .blockE => (3, 1) | .blockN => (4, 1) | .blockU => (5, 1)
  | .svia => (9, 1) | .override => (11, 1)
  | .gridE => (12, 1) | .gridN => (13, 1) | .gridU => (14, 1)
  | .drcP => (16, 8) | .drcV => (24, 8) | .markP => (32, 8) | .markV => (40, 8)
  | .shapeV => (48, 8) | .shapeP => (56, 8)

/-- value of an attribute of a node -/
def Grid.attr (g : Grid) (n : MIdx) (a : Attr) : Nat :=
  (g.bits (g.idx n)).toNat / 2 ^ a.field.1 % 2 ^ a.field.2

/-- The end of edge (n, d) that stores it, and the axis of the edge: the west, south or lower
end. -/
def edgeHome (n : MIdx) : Dir → Option (MIdx × Dir)
  | .E => some (n, .E)
  | .W => some (⟨n.x - 1, n.y, n.z⟩, .E)
  | .N => some (n, .N)
  | .S => some (⟨n.x, n.y - 1, n.z⟩, .N)
  | .U => some (n, .U)
  | .D => some (⟨n.x, n.y, n.z - 1⟩, .U)
  | .UNKNOWN => none

/-- pick by axis -/
def byAxis (e n u : Attr) (h : Option (MIdx × Dir)) : Option (MIdx × Attr) :=
  match h with
  | some (m, .E) => some (m, e)
  | some (m, .N) => some (m, n)
  | some (m, .U) => some (m, u)
  | _ => none

/-- The one attribute a call is allowed to change. -/
def GOp.target : GOp → Option (MIdx × Attr)
  | .addEdge n d _ _ => byAxis .edgeE .edgeN .edgeU (edgeHome n d)
  | .removeEdge n d => byAxis .edgeE .edgeN .edgeU (edgeHome n d)
  | .setBlocked n d => byAxis .blockE .blockN .blockU (edgeHome n d)
  | .resetBlocked n d => byAxis .blockE .blockN .blockU (edgeHome n d)
  | .setGridCost n d => byAxis .gridE .gridN .gridU (edgeHome n d)
  | .resetGridCost n d => byAxis .gridE .gridN .gridU (edgeHome n d)
  | .setGridCostE n => some (n, .gridE)
  | .setGridCostN n => some (n, .gridN)
  | .setGridCostU n => some (n, .gridU)
  | .setSVia n => some (n, .svia)
  | .setOverride n => some (n, .override)
  | .resetOverride n => some (n, .override)
  | .addDRCPlanar n => some (n, .drcP)
  | .addDRCVia n => some (n, .drcV)
  | .subDRCPlanar n => some (n, .drcP)
  | .subDRCVia n => some (n, .drcV)
  | .resetDRCPlanar n => some (n, .drcP)
  | .resetDRCVia n => some (n, .drcV)
  | .addMarkerPlanar n => some (n, .markP)
  | .addMarkerVia n => some (n, .markV)
  | .addMarker n d => byAxis .markP .markP .markV (edgeHome n d)
  | .decayMarkerPlanar n => some (n, .markP)
  | .decayMarkerVia n => some (n, .markV)
  | .decayMarkerPlanarF n _ => some (n, .markP)
  | .decayMarkerViaF n _ => some (n, .markV)
  | .addShapePlanar n => some (n, .shapeP)
  | .addShapeVia n => some (n, .shapeV)
  | .subShapePlanar n => some (n, .shapeP)
  | .subShapeVia n => some (n, .shapeV)

/-- Calls that check their argument themselves. -/
def GOp.guarded : GOp → Bool
  | .addEdge .. | .removeEdge .. | .setBlocked .. | .resetBlocked .. | .setGridCost ..
  | .resetGridCost .. | .addMarker .. | .addShapePlanar .. | .addShapeVia ..
  | .subShapePlanar .. | .subShapeVia .. => true
  | _ => false

/-- A call is legal if it is guarded or its node is on the grid ("unsafe access" functions). -/
def GOp.Legal (g : Grid) (op : GOp) : Prop :=
  op.guarded = true ∨ ∀ n a, op.target = some (n, a) → g.isValid n = true

/-- What a call does to a cost counter, ideally: add, subtract or set. -/
inductive CounterEffect where
  | none | add (k : Nat) | sub (k : Nat) | other

/-- Effect of a legal call on counter `a` of node `m`. -/
def GOp.effect (m : MIdx) (a : Attr) (op : GOp) : CounterEffect :=
  if op.target = some (m, a) then
    match op with
    | .addDRCPlanar _ | .addDRCVia _ | .addShapePlanar _ | .addShapeVia _ => .add 1
    | .subDRCPlanar _ | .subDRCVia _ | .subShapePlanar _ | .subShapeVia _ => .sub 1
    | .addMarkerPlanar _ | .addMarkerVia _ | .addMarker .. => .add 10
    | .decayMarkerPlanar _ | .decayMarkerVia _ => .sub 1
    | _ => .other
  else .none

/-- the opposite direction -/
def Dir.opp : Dir → Dir
  | .E => .W | .W => .E | .N => .S | .S => .N | .U => .D | .D => .U | .UNKNOWN => .UNKNOWN

/-- the unit step of a direction -/
def Dir.delta : Dir → Int × Int × Int
  | .E => (1, 0, 0) | .W => (-1, 0, 0) | .N => (0, 1, 0) | .S => (0, -1, 0)
  | .U => (0, 0, 1) | .D => (0, 0, -1) | .UNKNOWN => (0, 0, 0)

/-- the neighbour of a node in a direction -/
def MIdx.nbr (n : MIdx) (d : Dir) : MIdx := ⟨n.x + d.delta.1, n.y + d.delta.2.1, n.z + d.delta.2.2⟩

/-- (n,d) and (m,e) denote the same undirected edge -/
def SameEdge (n : MIdx) (d : Dir) (m : MIdx) (e : Dir) : Prop :=
  (m = n ∧ e = d) ∨ (m = n.nbr d ∧ e = d.opp)

instance (n d m e) : Decidable (SameEdge n d m e) := by unfold SameEdge; infer_instance

/-- a node lies on the grid -/
def Grid.On (g : Grid) (n : MIdx) : Prop :=
  0 ≤ n.x ∧ n.x < g.xs.length ∧ 0 ≤ n.y ∧ n.y < g.ys.length ∧ 0 ≤ n.z ∧ n.z < g.zs.length

instance (g n) : Decidable (Grid.On g n) := by unfold Grid.On; infer_instance

/-- What one call should do to the presence of edge (m,e), given whether an `addEdge` reports
success. -/
def edgeEffect (g : Grid) (m : MIdx) (e : Dir) (b : Bool) : GOp → Bool
  | .addEdge n d box i => if SameEdge n d m e ∧ (g.addEdge n d box i).2 = true then true else b
  | .removeEdge n d => if SameEdge n d m e ∧ g.On n ∧ g.On (n.nbr d) ∧ d ≠ .UNKNOWN then false else b
  | _ => b

/-- "a is preferred to b" in the documented order of the search frontier -/
def WavePrefer (a b : WaveKey) : Prop :=
  a.cost < b.cost ∨ (a.cost = b.cost ∧ (a.dist < b.dist ∨ (a.dist = b.dist ∧
    (a.z > b.z ∨ (a.z = b.z ∧ a.pathCost > b.pathCost)))))

/-- The search labels of all nodes. -/
structure Labels where
  src : MIdx → Bool
  dst : MIdx → Bool
  guide : MIdx → Bool
  prev : MIdx → Dir

/-- One call that writes labels. -/
inductive LOp where
  | setSrc (n : MIdx) | resetSrc (n : MIdx) | setDst (n : MIdx) | resetDst (n : MIdx)
  | setPrev (n : MIdx) (d : Dir)
  | setGuide (x1 y1 x2 y2 z : Int) | resetGuide (x1 y1 x2 y2 z : Int)
  | resetStatus

/-- what a call should do to the labels -/
def Labels.step (l : Labels) : LOp → Labels
  | .setSrc n => { l with src := fun m => if m = n then true else l.src m }
  | .resetSrc n => { l with src := fun m => if m = n then false else l.src m }
  | .setDst n => { l with dst := fun m => if m = n then true else l.dst m }
  | .resetDst n => { l with dst := fun m => if m = n then false else l.dst m }
  | .setPrev n d => { l with prev := fun m => if m = n then d else l.prev m }
  | .setGuide x1 y1 x2 y2 z => { l with guide := fun m =>
      if x1 ≤ m.x ∧ m.x ≤ x2 ∧ y1 ≤ m.y ∧ m.y ≤ y2 ∧ m.z = z then true else l.guide m }
  | .resetGuide x1 y1 x2 y2 z => { l with guide := fun m =>
      if x1 ≤ m.x ∧ m.x ≤ x2 ∧ y1 ≤ m.y ∧ m.y ≤ y2 ∧ m.z = z then false else l.guide m }
  | .resetStatus => { l with src := fun _ => false, dst := fun _ => false, prev := fun _ => .UNKNOWN }

/-- the arguments of a label call are on the grid -/
def LOp.Legal (g : Grid) : LOp → Prop
  | .setSrc n | .resetSrc n | .setDst n | .resetDst n | .setPrev n _ => g.On n
  | .setGuide x1 y1 x2 y2 z | .resetGuide x1 y1 x2 y2 z => g.On ⟨x1, y1, z⟩ ∧ g.On ⟨x2, y2, z⟩
  | .resetStatus => True

/-- the modelled effect of a label call -/
def Grid.lstep (g : Grid) : LOp → Grid
  | .setSrc n => g.setSrc n
  | .resetSrc n => g.resetSrc n
  | .setDst n => g.setDst n
  | .resetDst n => g.resetDst n
  | .setPrev n d => g.setPrevDir n d
  | .setGuide x1 y1 x2 y2 z => g.setGuide x1 y1 x2 y2 z
  | .resetGuide x1 y1 x2 y2 z => g.resetGuide x1 y1 x2 y2 z
  | .resetStatus => g.resetStatus

/-- the queries of `g` answer with the labels `l` on every node of the grid -/
def Grid.Shows (g : Grid) (l : Labels) : Prop :=
  ∀ m, g.On m → g.isSrc m = l.src m ∧ g.isDst m = l.dst m ∧ g.getPrevDir m = l.prev m ∧
    (∀ d, g.On (m.nbr d) → g.hasGuide m d = l.guide (m.nbr d))

/-- signed amount of an effect -/
def CounterEffect.delta : CounterEffect → Int
  | .add k => k
  | .sub k => -k
  | _ => 0

/-- net change of counter (m,a): number of additions minus number of removals, weighted -/
def netChange (m : MIdx) (a : Attr) : List GOp → Int
  | [] => 0
  | op :: ops => (op.effect m a).delta + netChange m a ops

/-- the kinds of cost a shape adds to a node -/
inductive CostKind where
  | drcPlanar | drcVia | shapePlanar | shapeVia
deriving DecidableEq, Repr

/-- the call adding / removing one unit of a kind of cost at a node -/
def addCost : MIdx × CostKind → GOp
  | (n, .drcPlanar) => .addDRCPlanar n | (n, .drcVia) => .addDRCVia n
  | (n, .shapePlanar) => .addShapePlanar n | (n, .shapeVia) => .addShapeVia n
def subCost : MIdx × CostKind → GOp
  | (n, .drcPlanar) => .subDRCPlanar n | (n, .drcVia) => .subDRCVia n
  | (n, .shapePlanar) => .subShapePlanar n | (n, .shapeVia) => .subShapeVia n

/-- counter (m,a), starting at c, stays within what the code can represent during `ops`: every
prefix has between 0 and 255 more additions than removals -/
def NeverSaturates (m : MIdx) (a : Attr) (c : Nat) (ops : List GOp) : Prop :=
  ∀ k, k ≤ ops.length → 0 ≤ (c : Int) + netChange m a (ops.take k) ∧
    (c : Int) + netChange m a (ops.take k) ≤ 255

/-- every call on counter (m,a) is an addition or a subtraction -/
def OnlyCounts (m : MIdx) (a : Attr) (ops : List GOp) : Prop :=
  ∀ op ∈ ops, op.effect m a ≠ .other

end TR
