import Verif.Tech.Model
import Verif.Track.Props
/-! Specification vocabulary for spacing tables and forbidden lengths. -/
namespace TR

/-- `i` is the position of the largest key strictly below `v`, or of the first key if there is none -/
def KeyFor (keys : List Int) (v : Int) (i : Nat) : Prop :=
  i < keys.length ∧ (∀ j k, keys[j]? = some k → k < v → j ≤ i) ∧
    ((∃ k, keys[i]? = some k ∧ k < v) ∨ i = 0)

/-- as many rows and columns as keys, keys increasing -/
structure Tbl2.Ok (t : Tbl2) : Prop where
  rows : StrictInc t.rows
  cols : StrictInc t.cols
  rne : t.rows ≠ []
  cne : t.cols ≠ []
  nrow : t.vals.length = t.rows.length
  ncol : ∀ l ∈ t.vals, l.length = t.cols.length

/-- entries do not decrease with the row or the column -/
def Tbl2.Mono (t : Tbl2) : Prop := ∀ (i i' j j' : Nat) (l l' : List Int) (x x' : Int), i ≤ i' → j ≤ j' →
  t.vals[i]? = some l → l[j]? = some x → t.vals[i']? = some l' → l'[j']? = some x' → x ≤ x'

/-- widths and run lengths of two-width rows do not decrease -/
def TwSorted (rows : List TwRow) : Prop := rows.Pairwise (fun a b => a.width ≤ b.width ∧ a.prl ≤ b.prl)

/-- the row applies to a shape: it is wider, and runs along the other one longer, than the row says -/
def TwRow.Applies (r : TwRow) (width prl : Int) : Prop := r.width < width ∧ r.prl < prl

/-- `len` lies in one of the closed ranges -/
def InRanges (rs : List (Int × Int)) (len : Int) : Prop := ∃ r ∈ rs, r.1 ≤ len ∧ len ≤ r.2

/-- a box with its centre in the origin -/
def Box.Centred (b : Box) : Prop := b.left = -b.right ∧ b.bottom = -b.top

/-- gap along the direction of the move between `a` and `b` moved by `d` -/
def gapAlong (a b : Box) (dirX : Bool) (d : Int) : Int := if dirX then b.left + d - a.right else b.bottom + d - a.top

end TR
