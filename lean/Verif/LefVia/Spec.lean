import Verif.LefVia.Model
/-! # Specification: what a VIA of a LEF file says -/
namespace TR

/-- the LAYER statements of the via, in whatever order they stand, are `lo`, `cut` and `hi`, for three layers one above the other of which the lowest has number `n` -/
structure LvStack {α : Type} (t : LvTech) (ls : List (LvLayer α)) (n : Int) (lo cut hi : LvLayer α) : Prop where
  perm : ls.Perm [lo, cut, hi]
  lower : t.num lo.name = some n
  middle : t.num cut.name = some (n + 1)
  upper : t.num hi.name = some (n + 2)

/-- the shapes that a LAYER statement says: rectangles given by any two opposite corners, and polygons -/
structure LvShapes {α : Type} (dbu : α → Int) (n : Int) (l : LvLayer α) (fs : List (Int × LvFig)) : Prop where
  count : fs.length = l.rects.length + l.polys.length
  rect : ∀ (i : Nat) (x1 y1 x2 y2 : α), l.rects[i]? = some (x1, y1, x2, y2) →
    ∃ b : Box, fs[i]? = some (n, LvFig.rect b) ∧ b.left = min (dbu x1) (dbu x2) ∧ b.right = max (dbu x1) (dbu x2) ∧
      b.bottom = min (dbu y1) (dbu y2) ∧ b.top = max (dbu y1) (dbu y2)
  poly : ∀ (i : Nat) (ps : List (α × α)), l.polys[i]? = some ps →
    ∃ qs : List Point, fs[l.rects.length + i]? = some (n, LvFig.poly qs) ∧ qs.length = ps.length ∧
      ∀ (k : Nat) (x y : α), ps[k]? = some (x, y) → qs[k]? = some ⟨dbu x, dbu y⟩

/-- class `i` is the last class of layer `n` for cuts of the size of `b` -/
def LvOfClass (t : LvTech) (n : Int) (b : Box) (i : Nat) : Prop :=
  (t.classes n)[i]? = some (b.width, b.length) ∧ ∀ j, i < j → (t.classes n)[j]? ≠ some (b.width, b.length)

/-- the class of a via: that of its first rectangular cut that has one -/
def LvViaClass (t : LvTech) (n : Int) (fs : List (Int × LvFig)) (c : Option Nat) : Prop := match c with
  | some i => ∃ (k : Nat) (b : Box), fs[k]? = some (n, LvFig.rect b) ∧ LvOfClass t n b i ∧
      ∀ j, j < k → ∀ b' : Box, fs[j]? = some (n, LvFig.rect b') → ∀ i', ¬ LvOfClass t n b' i'
  | none => ∀ (k : Nat) (b : Box), fs[k]? = some (n, LvFig.rect b) → ∀ i', ¬ LvOfClass t n b i'

end TR
