import Verif.PA.Point.Model
/-! # Pin access: access patterns

Models the selection of one access point per pin of a cell (`genPatterns`) and of one pattern per cell of a row (`genInstPattern`),
`src/pa/FlexPA_prep.cpp:1203-1336, 1365-1480, 1597-1690, 1724-2260, 2392-2406`, both with the same dynamic programming.

Simplifications: costs are unbounded integers and the value `INT_MAX` ("not set") is `none`; the geometry checker is an arbitrary function of the
vias given to it; messages are left out. -/
namespace TR

/-- `FlexDPNode` — src/pa/FlexPA.h:247-280. -/
structure DPNode where
  node : Option Int
  path : Option Int
  prev : Option Nat

/-- the array of nodes -/
abbrev DPTab := Nat → DPNode

def DPTab.set (t : DPTab) (i : Nat) (x : DPNode) : DPTab := fun j => if j = i then x else t j

/-- `getFlatIdx` — src/pa/FlexPA_prep.cpp:2392-2394. `l`: outer index plus one -/
def flatIdx (D l i : Nat) : Nat := l * D + i

/-- is a path cost worse than a new value — src/pa/FlexPA_prep.cpp:1442-1443, 2019-2020. -/
def worse : Option Int → Int → Bool
  | none, _ => true
  | some x, y => decide (x > y)

/-- one predecessor — src/pa/FlexPA_prep.cpp:1435-1448, 2012-2024. The edge cost may depend on the nodes and on a state (the cache of checks). -/
def relax {σ : Type} (edge : σ → DPTab → Nat → Nat → Int × σ) (c : Nat) (st : σ × DPTab) (p : Nat) : σ × DPTab :=
  match (st.2 p).path with
  | none => st
  | some pc =>
    let r := edge st.1 st.2 p c
    if worse (st.2 c).path (pc + r.1) then (r.2, st.2.set c { node := (st.2 c).node, path := some (pc + r.1), prev := some p })
    else (r.2, st.2)

/-- one node — src/pa/FlexPA_prep.cpp:1427-1449, 2004-2025. -/
def relaxNode {σ : Type} (edge : σ → DPTab → Nat → Nat → Int × σ) (D l : Nat) (st : σ × DPTab) (i : Nat) : σ × DPTab :=
  if (st.2 (flatIdx D l i)).node.isNone then st
  else ((List.range D).map (flatIdx D (l - 1))).foldl (relax edge (flatIdx D l i)) st

/-- `genInstPattern_perform`, `genPatterns_perform` — src/pa/FlexPA_prep.cpp:1414-1456, 1991-2026. -/
def dpPerform {σ : Type} (edge : σ → DPTab → Nat → Nat → Int × σ) (D n : Nat) (st : σ × DPTab) : σ × DPTab :=
  (List.range (n + 1)).foldl (fun st l => (List.range D).foldl (relaxNode edge D (l + 1)) st) st

/-- the nodes from which the commit loops read a choice, from the last — src/pa/FlexPA_prep.cpp:1468-1503, 2155-2170. The first argument is fuel. -/
def dpWalk (t : DPTab) : Nat → Bool → Nat → List Nat
  | 0, _, _ => []
  | f + 1, first, i =>
    match (t i).prev with
    | none => []
    | some p => (if first then [] else [i]) ++ dpWalk t f false p

/-- the choices read from the walk: `getNestedIdx` and the writes into the vector of choices — src/pa/FlexPA_prep.cpp:1471-1474, 2158-2161, 2397-2401. -/
def dpChoice (D : Nat) (w : List Nat) : Nat → Option Nat :=
  w.foldl (fun f i => fun k => if k + 1 = i / D then some (i % D) else f k) (fun _ => none)

/-- `genInstPattern_init`, `genPatterns_init` and `genPatterns_reset` — src/pa/FlexPA_prep.cpp:1385-1412, 1879-1931. `costs`: the costs of the candidates
of each item -/
def dpInit (D : Nat) (costs : List (List Int)) : DPTab :=
  costs.zipIdx.foldl (fun t ck => ck.1.zipIdx.foldl (fun t cj =>
      t.set (flatIdx D (ck.2 + 1) cj.2) { node := some cj.1, path := (t (flatIdx D (ck.2 + 1) cj.2)).path, prev := (t (flatIdx D (ck.2 + 1) cj.2)).prev }) t)
    (fun i => ⟨if i = flatIdx D 0 0 ∨ i = flatIdx D (costs.length + 1) 0 then some 0 else none, if i = flatIdx D 0 0 then some 0 else none, none⟩)

/-! ### Rows of cells -/

/-- `maxAccessPatternSize` — src/pa/FlexPA_prep.cpp:1372. -/
def rowD : Nat := 5

/-- `getEdgeCost` between patterns of neighbouring cells — src/pa/FlexPA_prep.cpp:1597-1640. `clean k a b`: the checker accepts the boundary vias of
pattern `a` of cell `k` and of pattern `b` of the next cell -/
def rowEdge (clean : Nat → Nat → Nat → Bool) (n : Nat) (_ : Unit) (t : DPTab) (p c : Nat) : Int × Unit :=
  if p / rowD = 0 ∨ c / rowD = n + 1 then (0, ())
  else if clean (p / rowD - 1) (p % rowD) (c % rowD) then ((((t p).node.getD 0 + (t c).node.getD 0)).tdiv 2, ())
  else (1000, ())

/-- `genInstPattern`: the index of the pattern chosen for each cell of a row — src/pa/FlexPA_prep.cpp:1365-1529. -/
def rowPatterns (clean : Nat → Nat → Nat → Bool) (costs : List (List Int)) : Nat → Option Nat :=
  let t := (dpPerform (rowEdge clean costs.length) rowD costs.length ((), dpInit rowD costs)).2
  dpChoice rowD (dpWalk t (costs.length + 2) true (flatIdx rowD (costs.length + 1) 0))

/-- an instance in the list of rows: origin and right end -/
structure RowInst where
  id : Nat
  x : Int
  y : Int
  right : Int

/-- one instance of the row loop; state: rows finished, row being built, last instance — src/pa/FlexPA_prep.cpp:1285-1300. -/
def rowStep (st : List (List RowInst) × List RowInst × Option RowInst) (i : RowInst) : List (List RowInst) × List RowInst × Option RowInst :=
  let brk := match st.2.2 with
    | none => true
    | some j => i.y != j.y || decide (i.x > j.right)
  if brk && !st.2.1.isEmpty then (st.1 ++ [st.2.1], [i], some i) else (st.1, st.2.1 ++ [i], some i)

/-- the rows of the sorted instances — src/pa/FlexPA_prep.cpp:1276-1304. -/
def instRows (insts : List RowInst) : List (List RowInst) :=
  let r := insts.foldl rowStep ([], [], none)
  if r.2.1.isEmpty then r.1 else r.1 ++ [r.2.1]

/-! ### Patterns of one cell -/

/-- data of a cell: number of pins, costs of the access points of each pin, whether an access point has a via, the checker and the pins whose owners
are involved in violations -/
structure PatEnv where
  npins : Nat
  aps : Nat → List Int
  hasVia : Nat → Nat → Bool
  clean : List (Nat × Nat) → Bool
  owners : List (Nat × Nat) → Nat → Bool

/-- `genPatterns_gc` applied to the access points (pin, index): only those with a via count, and none at all is a failure —
src/pa/FlexPA_prep.cpp:1933-1989. -/
def PatEnv.gc (E : PatEnv) (sel : List (Nat × Nat)) : Bool :=
  let objs := sel.filter (fun s => E.hasVia s.1 s.2)
  !objs.isEmpty && E.clean objs

/-- `maxAccessPointSize` — src/pa/FlexPA_prep.cpp:1785-1789. -/
def PatEnv.dim (E : PatEnv) (order : List Nat) : Nat := order.foldl (fun m i => max m (E.aps i).length) 0

/-- state of the pattern search of one pass -/
structure PatState where
  cache : Nat → Option Bool
  used : List (Nat × Nat)
  viol : List (Nat × Nat)
  pats : List (List (Option Nat))
  stored : List (List (Nat × Nat))

/-- does the edge have a violation, and the new cache — src/pa/FlexPA_prep.cpp:2046-2118. `order`: the pins in the order of the search -/
def pinVio (E : PatEnv) (order : List Nat) (D : Nat) (cache : Nat → Option Bool) (t : DPTab) (p c : Nat) : Bool × (Nat → Option Bool) :=
  let e := p * D + c % D
  match cache e with
  | some b => (b, cache)
  | none =>
    let objs := [(order.getD (p / D - 1) 0, p % D), (order.getD (c / D - 1) 0, c % D)]
    let v := !E.gc objs
    let cache' := fun j => if j = e then some v else cache j
    if v then (v, cache')
    else
      match (t p).prev with
      | none => (v, cache')
      | some q => if q / D = 0 then (v, cache') else (!E.gc (objs ++ [(order.getD (q / D - 1) 0, q % D)]), cache')

/-- `getEdgeCost` between access points — src/pa/FlexPA_prep.cpp:2028-2137. -/
def pinEdge (E : PatEnv) (order : List Nat) (D : Nat) (used viol : List (Nat × Nat)) (cache : Nat → Option Bool) (t : DPTab) (p c : Nat) :
    Int × (Nat → Option Bool) :=
  if p / D = 0 ∨ c / D = order.length + 1 then (0, cache)
  else
    let r := pinVio E order D cache t p c
    if r.1 then (1000, r.2)
    else if (p / D - 1 = 0 ∧ (p / D - 1, p % D) ∈ used) ∨ (c / D - 1 = order.length - 1 ∧ (c / D - 1, c % D) ∈ used) then (100, r.2)
    else if (p / D - 1, p % D) ∈ viol ∨ (c / D - 1, c % D) ∈ viol then (1000, r.2)
    else (((t p).node.getD 0 + (t c).node.getD 0).tdiv 2, r.2)

/-- the access point of each pin in the order of the search; `none`: the program reads out of bounds -/
def patSel (order : List Nat) (pat : List (Option Nat)) : List (Nat × Nat) :=
  (order.zip pat).filterMap (fun x => x.2.map (fun a => (x.1, a)))

/-- the stored pattern: in the order of the pins of the cell; pins without access points are left out — src/pa/FlexPA_prep.cpp:2224-2254. -/
def patStore (npins : Nat) (sel : List (Nat × Nat)) : List (Nat × Nat) :=
  (List.range npins).filterMap (fun i => sel.find? (fun s => s.1 == i))

/-- `genPatterns_commit`: `none`: not a new pattern — src/pa/FlexPA_prep.cpp:2139-2305. -/
def patCommit (E : PatEnv) (order : List Nat) (D : Nat) (t : DPTab) (s : PatState) : Option PatState :=
  let w := dpWalk t (order.length + 2) true (flatIdx D (order.length + 1) 0)
  let pat := (List.range order.length).map (dpChoice D w)
  let used := s.used ++ w.map (fun i => (i / D - 1, i % D))
  if s.pats.contains pat then none
  else
    let sel := patSel order pat
    if E.gc sel then some { s with used := used, pats := pat :: s.pats, stored := s.stored ++ [patStore E.npins sel] }
    else some { s with
      used := used, pats := pat :: s.pats
      viol := s.viol ++ (((List.range order.length).filter (fun k => E.owners sel (order.getD k 0))).filterMap (fun k => (dpChoice D w k).map (fun a => (k, a)))) }

/-- at most five rounds — src/pa/FlexPA_prep.cpp:1810-1827, 1840-1857. The first argument: `ACCESS_PATTERN_END_ITERATION_NUM` -/
def patLoop (E : PatEnv) (order : List Nat) (D : Nat) : Nat → PatState → PatState
  | 0, s => s
  | k + 1, s =>
    let r := dpPerform (pinEdge E order D s.used s.viol) D order.length (s.cache, dpInit D (order.map E.aps))
    match patCommit E order D r.2 { s with cache := r.1 } with
    | none => s
    | some s' => patLoop E order D k s'

/-- one pass -/
def patPass (E : PatEnv) (iters : Nat) (order : List Nat) : List (List (Nat × Nat)) :=
  (patLoop E order (E.dim order) iters ⟨fun _ => none, [], [], [], []⟩).stored

/-- `genPatterns`: the patterns stored for a cell — src/pa/FlexPA_prep.cpp:1777-1876. `order`: the pins with access points, sorted -/
def genPatterns (E : PatEnv) (iters : Nat) (order : List Nat) : List (List (Nat × Nat)) :=
  if order.isEmpty then []
  else
    let a := patPass E iters order
    if a.isEmpty then patPass E iters order.reverse else a

/-- `genInstPattern_commit`: the access point given to each pin of the instance — src/pa/FlexPA_prep.cpp:1482-1497. `none`: read out of bounds -/
def pinAps (npins : Nat) (pattern : List (Nat × Nat)) : List (Option (Nat × Nat)) := (List.range npins).map (fun k => pattern[k]?)

/-- the window of `genPatterns_gc` before it is enlarged — src/pa/FlexPA_prep.cpp:1947-1958. The tops, bottoms and right sides are compared with `llx`. -/
def gcWindow (objs : List Box) : Int × Int × Int × Int :=
  objs.foldl (fun w b => let llx := min w.1 b.left; (llx, min llx b.bottom, max llx b.right, max llx b.top)) (2147483647, 2147483647, -2147483648, -2147483648)

end TR
