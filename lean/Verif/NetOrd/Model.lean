import Verif.GC.Model
/-! # The order in which the nets of a region are routed

Models `mazeIterInit_sortRerouteNets` for the first round (src/dr/FlexDR_maze.cpp:1510-1562, fix modes 0 and 9, the only ones in use) and its use in
`route_queue_init_queue` (src/dr/FlexDR_init.cpp:3196-3220).

Simplifications
* `std::sort` is any function that returns the nets in an order in which no net comes before one that the comparison puts first.
* The random numbers (OR_SEED) are any numbers in range; their count (OR_K) is any number. -/
namespace TR

/-- what the comparison reads of a `drNet` -/
structure NoNet where
  id : Nat
  pins : Int
  box : Box
deriving DecidableEq

/-- the area of the box of pins in 32-bit arithmetic; `none`: overflow, which is undefined — src/dr/FlexDR_maze.cpp:1515-1516. -/
def noArea (a : NoNet) : Option Int := mul32 (a.box.right - a.box.left) (a.box.top - a.box.bottom)

/-- `rerouteNetsComp1` — src/dr/FlexDR_maze.cpp:1511-1519. -/
def noLess (a b : NoNet) : Option Bool := match noArea a, noArea b with
  | some x, some y => some (if a.pins = b.pins then (if x = y then decide (a.id < b.id) else decide (x < y)) else decide (a.pins < b.pins))
  | _, _ => none

/-- what `std::sort` may return — src/dr/FlexDR_maze.cpp:1535-1537. -/
def NoSort (l r : List NoNet) : Prop := r.Perm l ∧ ∀ i j : Nat, i < j → ∀ a b, r[i]? = some a → r[j]? = some b → noLess b a = some false

/-- `swap(rerouteNets[idx], rerouteNets[(idx + 1) % size])` — src/dr/FlexDR_maze.cpp:1556. -/
def noSwap (l : List NoNet) (idx : Nat) : List NoNet :=
  match l[idx]?, l[(idx + 1) % l.length]? with
  | some a, some b => (l.set idx b).set ((idx + 1) % l.length) a
  | _, _ => l

/-- the swaps — src/dr/FlexDR_maze.cpp:1549-1558: with a seed and at least two nets. -/
def noShuffle (seed : Option (List Nat)) (l : List NoNet) : List NoNet := match seed with
  | none => l
  | some idxs => if 2 ≤ l.length then idxs.foldl noSwap l else l

end TR
