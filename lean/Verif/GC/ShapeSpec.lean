import Verif.GC.Shape
import Verif.GC.Spec
/-! # Specification of the shape rules -/
namespace TR

/-- the `i`-th edge, counting around the outline -/
def Ring (es : List OEdge) (i : Nat) : OEdge := es.getD (i % es.length) default

/-- after edge `i` of the outline, which is long, come exactly `k` edges shorter than `msl` and then a long edge other than edge `i` -/
structure ShortRun (es : List OEdge) (msl : Int) (i k : Nat) : Prop where
  start : i < es.length
  before : msl ≤ (Ring es i).len
  short : ∀ j, 1 ≤ j → j ≤ k → (Ring es (i + j)).len < msl
  after : msl ≤ (Ring es (i + k + 1)).len
  other : (i + k + 1) % es.length ≠ i

/-- the smallest rectangle around the corners from the end of edge `i` to the end of edge `i + k` -/
structure StepHull (es : List OEdge) (i k : Nat) (b : Box) : Prop where
  holds : ∀ j, j ≤ k → b.Has (Ring es (i + j)).hi
  left : ∃ j, j ≤ k ∧ (Ring es (i + j)).hi.x = b.left
  right : ∃ j, j ≤ k ∧ (Ring es (i + j)).hi.x = b.right
  bottom : ∃ j, j ≤ k ∧ (Ring es (i + j)).hi.y = b.bottom
  top : ∃ j, j ≤ k ∧ (Ring es (i + j)).hi.y = b.top

/-- a minimum-step violation with marker `b`: between two different long edges there are more short edges than allowed, and one of the
edges from the first long one to the second belongs to routed metal -/
def StepViolation (c : StepRule) (es : List OEdge) (b : Box) : Prop :=
  ∃ i k, ShortRun es c.len i k ∧ 1 ≤ k ∧ (∀ m, c.maxEdges = some m → m < (k : Int)) ∧
    (∃ j, j ≤ k + 1 ∧ (Ring es (i + j)).fixed = false) ∧ StepHull es i k b

/-- the metal (a set of unit cells) contains the cells `x, …, x + len - 1` of row `y`, and neither of the two cells beside them -/
structure RunH (metal : Point → Prop) (x y len : Int) : Prop where
  inside : ∀ u, x ≤ u → u < x + len → metal ⟨u, y⟩
  left : ¬ metal ⟨x - 1, y⟩
  right : ¬ metal ⟨x + len, y⟩

/-- the metal contains the cells `y, …, y + len - 1` of column `x`, and neither of the two cells beside them -/
structure RunV (metal : Point → Prop) (x y len : Int) : Prop where
  inside : ∀ v, y ≤ v → v < y + len → metal ⟨x, v⟩
  below : ¬ metal ⟨x, y - 1⟩
  above : ¬ metal ⟨x, y + len⟩

/-- what cutting a polygon along horizontal lines gives: rectangles that make up the metal, with no metal to the left or right of them -/
structure SlicesH (metal : Point → Prop) (bs : List Box) : Prop where
  covers : ∀ c, metal c ↔ ∃ b ∈ bs, CellOf b c
  left : ∀ b ∈ bs, ∀ y, b.bottom ≤ y → y < b.top → ¬ metal ⟨b.left - 1, y⟩
  right : ∀ b ∈ bs, ∀ y, b.bottom ≤ y → y < b.top → ¬ metal ⟨b.right, y⟩

/-- the same along vertical lines -/
structure SlicesV (metal : Point → Prop) (bs : List Box) : Prop where
  covers : ∀ c, metal c ↔ ∃ b ∈ bs, CellOf b c
  below : ∀ b ∈ bs, ∀ x, b.left ≤ x → x < b.right → ¬ metal ⟨x, b.bottom - 1⟩
  above : ∀ b ∈ bs, ∀ x, b.left ≤ x → x < b.right → ¬ metal ⟨x, b.top⟩

/-- the metal at cell `c` is narrower than `w` in one of the two directions -/
def Narrow (metal : Point → Prop) (w : Int) (c : Point) : Prop :=
  (∃ x len, x ≤ c.x ∧ c.x < x + len ∧ RunH metal x c.y len ∧ len < w) ∨
  (∃ y len, y ≤ c.y ∧ c.y < y + len ∧ RunV metal c.x y len ∧ len < w)

end TR
