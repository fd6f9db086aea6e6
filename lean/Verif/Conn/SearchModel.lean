/-! # Model: pin-to-pin graph search

Models the search shared, line by line, by
* `FlexDR::checkConnectivity_astar` — src/dr/FlexDR_conn.cpp:422-523 (the shapes of a routed net), and
* `io::Parser::genGuides_astar` — src/io/io_guide.cpp:925-1046 (the guides of a net).

Nodes `0 … g-1` are shapes (guides), nodes `g … n-1` are pins. The adjacency `adj` is a parameter
here; each caller's own adjacency is modelled separately.

Simplifications:
* The heap pops the entry at an arbitrary position `pick round step`; theorems quantify over all
  `pick`, hence over all costs and tie-breaking. The cost is still carried, because the C++ does.
* Loops carry fuel, `none` is "out of fuel"; a theorem gives fuel that always suffices.
* `adjVisited`, `adjPrevIdx`, `onPathIdx` are functions instead of vectors of length `n`.
* Diagnostics are dropped. -/
namespace TR

/-- store one vector element -/
def upd {α : Type} (f : Nat → α) (i : Nat) (v : α) : Nat → α := fun j => if j = i then v else f j

/-- `struct wf` — src/dr/FlexDR_conn.cpp:418-429, src/io/io_guide.cpp:925-936. `prev = none` is -1. -/
structure Wf where
  node : Nat
  prev : Option Nat
  cost : Nat
deriving DecidableEq, Repr

/-- `adjVisited`, `adjPrevIdx` — src/dr/FlexDR_conn.cpp:396-401. -/
structure NS where
  vis : Nat → Bool
  prev : Nat → Option Nat

/-- mark a popped entry — src/dr/FlexDR_conn.cpp:462-463, 471-472. -/
def NS.mark (s : NS) (e : Wf) : NS := ⟨upd s.vis e.node true, upd s.prev e.node e.prev⟩

/-- the `while (!pq.empty())` loop — src/dr/FlexDR_conn.cpp:455-486, src/io/io_guide.cpp:961-991.
Returns the pin that ended it, if any. -/
def netPop (adj : Nat → List Nat) (g n : Nat) (pick : Nat → Nat) (on : Nat → Bool) :
    Nat → Nat → NS → List Wf → Option (NS × Option Nat)
  | 0, _, _, _ => none
  | f + 1, k, s, q =>
    match q[pick k % q.length]? with
    | none => some (s, none)
    | some e =>
      let q' := q.eraseIdx (pick k % q.length)
      if !on e.node && s.vis e.node then netPop adj g n pick on f (k + 1) s q'
      else if g < e.node ∧ e.node < n ∧ s.vis e.node = false then some (s.mark e, some e.node)
      else
        netPop adj g n pick on f (k + 1) (s.mark e)
          (q' ++ ((adj e.node).filter (fun m => !(s.mark e).vis m)).map
            (fun m => ⟨m, some e.node, e.cost + 1⟩))

/-- the trace-back loop — src/dr/FlexDR_conn.cpp:491-497. -/
def netTrace (prev : Nat → Option Nat) : Nat → (Nat → Bool) → Option Nat → Option (Nat → Bool)
  | 0, _, _ => none
  | _ + 1, on, none => some on
  | f + 1, on, some l => if on l then some on else netTrace prev f (upd on l true) (prev l)

/-- the initial heap of a round — src/dr/FlexDR_conn.cpp:437-453, src/io/io_guide.cpp:943-959.
`pen` is the extra cost of starting from a pin. -/
def netStart (g n pen : Nat) (first : Bool) (s : NS) (on : Nat → Bool) : List Wf :=
  if first then [⟨g, none, 0⟩]
  else ((List.range n).filter on).map (fun i => ⟨i, s.prev i, if g ≤ i then pen else 0⟩)

/-- one iteration of `for findNode` — src/dr/FlexDR_conn.cpp:430-502: search, trace back, and
`adjVisited = onPathIdx`. -/
def netRound (adj : Nat → List Nat) (g n pen : Nat) (pick : Nat → Nat) (fuel : Nat) (first : Bool)
    (s : NS) (on : Nat → Bool) : Option (NS × (Nat → Bool)) :=
  match netPop adj g n pick on fuel 0 s (netStart g n pen first s on) with
  | none => none
  | some (s1, last) =>
    match netTrace s1.prev fuel on last with
    | none => none
    | some on' => some (⟨on', s1.prev⟩, on')

/-- all rounds: `findNode` runs over `g … n-2` — src/dr/FlexDR_conn.cpp:430-502. -/
def netRounds (adj : Nat → List Nat) (g n pen : Nat) (pick : Nat → Nat → Nat) (fuel : Nat) :
    Nat → Nat → NS → (Nat → Bool) → Option (NS × (Nat → Bool))
  | 0, _, s, on => some (s, on)
  | r + 1, i, s, on =>
    match netRound adj g n pen (pick i) fuel (i == 0) s on with
    | none => none
    | some (s', on') => netRounds adj g n pen pick fuel r (i + 1) s' on'

/-- number of visited pins — src/dr/FlexDR_conn.cpp:507. -/
def pinsVisited (g n : Nat) (vis : Nat → Bool) : Nat :=
  ((List.range n).filter (fun i => decide (g ≤ i) && vis i)).length

/-- outcome of the search: the returned flag and the final `adjVisited`. -/
structure NetFound where
  ok : Bool
  kept : Nat → Bool

/-- `checkConnectivity_astar` after the adjacency is built — src/dr/FlexDR_conn.cpp:430-522. -/
def netSearch (adj : Nat → List Nat) (g n pen : Nat) (pick : Nat → Nat → Nat) (fuel : Nat) :
    Option NetFound :=
  match netRounds adj g n pen pick fuel (n - 1 - g) 0 ⟨fun _ => false, fun _ => none⟩ (fun _ => false) with
  | none => none
  | some (s, _) => some ⟨decide (pinsVisited g n s.vis = n - g), s.vis⟩

end TR
