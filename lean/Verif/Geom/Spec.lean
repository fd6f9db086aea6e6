import Verif.Geom.Model
/-! Specification vocabulary for geometry: point sets and distances, independent of the
model's own predicates. -/
namespace TR

/-- `p` lies in the closed axis-parallel rectangle [x1,x2]x[y1,y2]. -/
def InRect (x1 y1 x2 y2 : Int) (p : Point) : Prop :=
  x1 ≤ p.x ∧ p.x ≤ x2 ∧ y1 ≤ p.y ∧ p.y ≤ y2

/-- `p` lies in the open rectangle. -/
def InRectOpen (x1 y1 x2 y2 : Int) (p : Point) : Prop :=
  x1 < p.x ∧ p.x < x2 ∧ y1 < p.y ∧ p.y < y2

/-- closed point set of a stored box -/
def Box.Mem (b : Box) (p : Point) : Prop := InRect b.left b.bottom b.right b.top p

/-- a stored box is normalised -/
def Box.Valid (b : Box) : Prop := b.left ≤ b.right ∧ b.bottom ≤ b.top

def iabs (a : Int) : Int := (a.natAbs : Int)
def manhattan (p q : Point) : Int := iabs (p.x - q.x) + iabs (p.y - q.y)
def distSq (p q : Point) : Int := (p.x - q.x) * (p.x - q.x) + (p.y - q.y) * (p.y - q.y)
/-- Chebyshev (max-norm) distance. -/
def chebyshev (p q : Point) : Int := max (iabs (p.x - q.x)) (iabs (p.y - q.y))

/-- the four orientations that swap the axes -/
def Orient.swaps : Orient → Bool
  | .R90 | .R270 | .MXR90 | .MYR90 => true
  | _ => false

/-- Strict total order laws for a boolean comparison. -/
structure StrictTotal {α : Type} (lt : α → α → Bool) : Prop where
  irrefl : ∀ a, lt a a = false
  trans : ∀ a b c, lt a b = true → lt b c = true → lt a c = true
  total : ∀ a b, a ≠ b → lt a b = true ∨ lt b a = true

/-- Strict weak order laws (what std::priority_queue / std::sort require). -/
structure StrictWeak {α : Type} (lt : α → α → Bool) : Prop where
  irrefl : ∀ a, lt a a = false
  trans : ∀ a b c, lt a b = true → lt b c = true → lt a c = true
  incomp_trans : ∀ a b c, lt a b = false → lt b a = false → lt b c = false → lt c b = false →
    lt a c = false ∧ lt c a = false

end TR
