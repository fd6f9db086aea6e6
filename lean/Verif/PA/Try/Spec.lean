import Verif.PA.Try.Model
import Verif.GcDb.Spec
import Verif.GC.Rects.Spec
/-! # Specification: what a wire or via tried at a pin is compared with -/
namespace TR

/-- the pin as an object of the design -/
def PtPin.Is : PtPin → DbObj → Prop
  | .cell id net, o => o = .instTerm id net .other
  | .block id net, o => o = .term id net .other

/-- the object belongs to the instance of the pin, or, at a pin of the block, is that pin -/
def PtPin.Near (C : PtCells) : PtPin → DbObj → Prop
  | .cell id _, o => (∃ j net u, o = .instTerm j net u ∧ C.termInst j = C.termInst id) ∨ (∃ j, o = .instBlockage j ∧ C.blkInst j = C.termInst id)
  | .block id _, o => ∃ net u, o = .term id net u

/-- the net of the checker the pin's own shapes are in -/
def PtPin.Owner (p : PtPin) (o : DbOwner) : Prop := ∃ x, p.Is x ∧ x.owner = o

/-- the checker knows the shapes of the surroundings of the pin as fixed, and the candidate as a routed shape of `owner`, and nothing else -/
structure PtKnows (C : PtCells) (F : List FixedShape) (p : PtPin) (f : DbFig) (owner : DbOwner) (db : ShapeDb) : Prop where
  fixedMetal : ∀ o l b, (l, b) ∈ (db o).fixedPoly ↔ ∃ s ∈ F, p.Near C s.obj ∧ s.obj.owner = o ∧ s.isCut = false ∧ s.layer = l ∧ s.box = b
  fixedCuts : ∀ o l b, (l, b) ∈ (db o).fixedCut ↔ ∃ s ∈ F, p.Near C s.obj ∧ s.obj.owner = o ∧ s.isCut = true ∧ s.layer = l ∧ s.box = b
  metal : ∀ o l b, (l, b) ∈ (db o).routePoly ↔ o = owner ∧ (l, b) ∈ f.metal
  cuts : ∀ o l b, (l, b) ∈ (db o).routeCut ↔ o = owner ∧ (l, b) ∈ f.cuts

end TR
