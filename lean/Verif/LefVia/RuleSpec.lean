import Verif.LefVia.Rule
/-! # Specification: what a VIARULE of a LEF file says -/
namespace TR

/-- the LAYER statements, in whatever order they stand, are `lo`, `cut` and `hi`, for three layers one above the other -/
structure LrStack {α : Type} (t : LvTech) (ls : List (LrLayer α)) (n : Int) (lo cut hi : LrLayer α) : Prop where
  perm : ls.Perm [lo, cut, hi]
  lower : t.num lo.name = some n
  middle : t.num cut.name = some (n + 1)
  upper : t.num hi.name = some (n + 2)

/-- the two numbers of a statement in database units, zero without it -/
def lrPoint {α : Type} (dbu : α → Int) (o : Option (α × α)) : Point := (o.map fun p => ⟨dbu p.1, dbu p.2⟩).getD ⟨0, 0⟩

/-- the rectangle of a statement in database units, zero without it -/
def lrBox {α : Type} (dbu : α → Int) (o : Option (α × α × α × α)) : Box :=
  (o.map fun r => ⟨⟨min (dbu r.1) (dbu r.2.2.1), min (dbu r.2.1) (dbu r.2.2.2)⟩,
    ⟨max (dbu r.1) (dbu r.2.2.1), max (dbu r.2.1) (dbu r.2.2.2)⟩⟩).getD ⟨⟨0, 0⟩, ⟨0, 0⟩⟩

end TR
