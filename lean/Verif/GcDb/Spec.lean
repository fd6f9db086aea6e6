import Verif.GcDb.Model
/-! # Specification: the shapes known to the violation checker -/
namespace TR

/-- the net an object belongs to -/
def DbObj.inNet : DbObj → Option Nat
  | .term _ n _ => n
  | .instTerm _ n _ => n
  | .routed n => some n
  | _ => none

/-- an unconnected supply pin of this use -/
def DbObj.Floating (u : PinUse) (a : DbObj) : Prop := ∃ id, a = .term id none u ∨ a = .instTerm id none u

/-- metal of a routed object -/
def DbFig.metal : DbFig → List LBox
  | .seg l b => [(l, b)]
  | .via l1 _ l2 b1 _ b2 => b1.map (fun b => (l1, b)) ++ b2.map (fun b => (l2, b))
  | .patch l b => [(l, b)]

/-- cuts of a routed object -/
def DbFig.cuts : DbFig → List LBox
  | .via _ c _ _ bc _ => bc.map (fun b => (c, b))
  | _ => []

/-- the checker knows exactly the fixed shapes and the present routes of the worker's nets -/
structure Knows (db : ShapeDb) (F : List FixedShape) (nets : List PartNet) : Prop where
  fixedMetal : ∀ o l b, (l, b) ∈ (db o).fixedPoly ↔ ∃ s ∈ F, s.obj.owner = o ∧ s.isCut = false ∧ s.layer = l ∧ s.box = b
  fixedCuts : ∀ o, (db o).fixedCut = (F.filter (fun s => decide (s.obj.owner = o) && s.isCut)).map (fun s => (s.layer, s.box))
  metal : ∀ n l b, (l, b) ∈ (db (.net n)).routePoly ↔ ∃ w ∈ nets, w.net = n ∧ ∃ f, (f ∈ w.ext ∨ f ∈ w.route) ∧ (l, b) ∈ f.metal
  cuts : ∀ n, (db (.net n)).routeCut = (nets.filter (fun w => decide (w.net = n))).flatMap (fun w => (w.ext ++ w.route).flatMap DbFig.cuts)
  others : ∀ o, (∀ n, o ≠ .net n) → (db o).routePoly = [] ∧ (db o).routeCut = []

end TR
