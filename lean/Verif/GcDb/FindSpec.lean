import Verif.GcDb.Find

/-!
# What the checker finds
-/

namespace TR

/-- the edges and rectangles depend only on the metal and on the list of cuts of a net, not on the order in which metal came -/
def OnlyMetal (mk : DbNet → List GqObj) : Prop :=
  ∀ d e : DbNet, (∀ x, x ∈ d.fixedPoly ↔ x ∈ e.fixedPoly) → (∀ x, x ∈ d.routePoly ↔ x ∈ e.routePoly) →
    d.fixedCut = e.fixedCut → d.routeCut = e.routeCut → mk d = mk e

/-- what is found, without the addresses: the net and the edge or rectangle -/
def gqShapes (es : List GqEnt) : List (DbOwner × GqObj) := es.map fun e => (e.1, e.2.2)

/-- every entry is of an object that the checker has, and every object has its entry: the entries are the objects of its nets -/
def GqSt.Live (s : GqSt) : Prop := s.ents.Perm (s.owners.flatMap fun o => (s.objs o).map fun x => (o, x.1, x.2))

end TR
