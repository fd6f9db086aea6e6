import Verif.Ids.Model

/-! # Which objects are held in common sets, and what the files list -/

namespace TR

/-- Objects that meet in one set or map of the program: cells, instances, nets (special or not),
terminals of the design together with terminals of instances, obstructions of the design together
with those of instances, and the terminals, or the obstructions, of one library cell. -/
def IdMeet (a b : IdObj) : Prop :=
  (a.kind = .cell ∧ b.kind = .cell) ∨ (a.kind = .inst ∧ b.kind = .inst) ∨
  (a.kind = .net ∧ b.kind = .net) ∨
  ((a.kind = .instTerm ∨ a.kind = .term) ∧ (b.kind = .instTerm ∨ b.kind = .term)) ∨
  ((a.kind = .instBlk ∨ a.kind = .blk) ∧ (b.kind = .instBlk ∨ b.kind = .blk)) ∨
  (a.kind = .cellTerm ∧ b.kind = .cellTerm ∧ a.home = b.home) ∨
  (a.kind = .cellBlk ∧ b.kind = .cellBlk ∧ a.home = b.home)

/-- The library cell a component means: the last one of that name. -/
def IdLast (lef : List IdMacro) (cell : String) (m : IdMacro) : Prop :=
  m.name = cell ∧ ∃ pre post, lef = pre ++ m :: post ∧ ∀ x ∈ post, x.name ≠ cell

/-- The number of pins and of obstructions of a cell. -/
def idNumPins (m : IdMacro) : Nat := m.items.count .pin
def idNumObs (m : IdMacro) : Nat := m.items.count .obs

/-- The instance, net and pin names of the DEF file, in order, and the number of its blockages. -/
def idCompNames (ds : List IdDef) : List String :=
  ds.filterMap fun | .comp i _ => some i | _ => none
def idNetNames (ds : List IdDef) : List String :=
  ds.filterMap fun | .net n _ => some n | _ => none
def idPinNames (ds : List IdDef) : List String :=
  ds.filterMap fun | .pin n _ => some n | _ => none
def idNumBlks (ds : List IdDef) : Nat := ds.count .blockage

/-- The objects of a kind, oldest first, and those among them that belong to the cell or instance of
a name. -/
def IdSt.all (s : IdSt) (k : IdKind) : List IdObj := s.log.filter (fun o => o.kind = k)
def IdSt.of (s : IdSt) (k : IdKind) (owner : String) : List IdObj :=
  s.log.filter (fun o => o.kind = k ∧ o.owner = owner)

end TR
