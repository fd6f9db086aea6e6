import Verif.Astar.Model
/-!
# Routing one net

Models `FlexDRWorker::routeNet` and its helpers (src/dr/FlexDR_maze.cpp:2471-2988) on top of the
maze search.

Simplifications:
* `set<drPin*>` is a list without duplicates in insertion order (the code orders by pin id; the order
  only breaks ties when choosing the first pin and the next target).
* `map<FlexMazeIdx, set<drPin*>>` is an association list.
* The search orders its frontier arbitrarily (`pick`, one selector per search); the choice of the next
  target pin only feeds the cost, so it is computed but only its presence matters.
* Coordinates are unbounded integers.
* Minimum-area patches (2990-3244), the quick violation count and the path cost update (2919-2926) do
  not influence edges, flags or connectivity and are left out. `ALLOW_PIN_AS_FEEDTHROUGH` is `false`
  (src/global.cpp:58), so its branches are left out.
-/
namespace TR

/-- `drAccessPattern`: maze index and location — src/db/drObj/drPin.h, src/db/drObj/drAccessPattern.h. -/
structure AP where
  mi : MIdx
  pt : Point
deriving DecidableEq, Repr

/-- `drPin` — src/db/drObj/drPin.h. -/
structure RPin where
  id : Nat
  aps : List AP
  hasTerm : Bool
deriving DecidableEq, Repr

/-- `map<FlexMazeIdx, set<drPin*>>` -/
abbrev PinMap := List (MIdx × List RPin)

namespace PinMap
def find (m : PinMap) (k : MIdx) : Option (List RPin) := (List.find? (fun e => e.1 == k) m).map (·.2)
def erase (m : PinMap) (k : MIdx) : PinMap := m.filter (fun e => e.1 != k)
def put (m : PinMap) (k : MIdx) (v : List RPin) : PinMap := (k, v) :: PinMap.erase m k
/-- `m[k]` with the default empty set -/
def get (m : PinMap) (k : MIdx) : List RPin := (PinMap.find m k).getD []
end PinMap

/-- The shapes emitted for a path: `drPathSeg` and `drVia`. -/
inductive DFig where
  | seg (layer : Int) (b e : Point) (m1 m2 : MIdx) (truncB truncE : Bool)
  | via (origin : Point) (cutLayer : Int) (m1 m2 : MIdx)
deriving DecidableEq, Repr

/-- Local variables of `routeNet` — src/dr/FlexDR_maze.cpp:2943-2975. -/
structure RState where
  grid : Grid
  unconn : List RPin
  m2p : PinMap
  comps : List MIdx
  cc1 : MIdx
  cc2 : MIdx
  figs : List DFig
  first : Bool

/-- `routeNet_prep`, one access pattern of one pin — src/dr/FlexDR_maze.cpp:2482-2499. -/
def prepAP (p : RPin) (s : PinMap × Grid) (ap : AP) : PinMap × Grid :=
  let l := s.1.get ap.mi
  (s.1.put ap.mi (if p ∈ l then l else l ++ [p]), s.2.setDst ap.mi)

/-- `routeNet_prep` — src/dr/FlexDR_maze.cpp:2471-2507. -/
def routePrep (pins : List RPin) (g : Grid) : PinMap × Grid :=
  pins.foldl (fun s p => p.aps.foldl (prepAP p) s) ([], g)

/-- `getZHeight` — src/dr/FlexGridGraph.h; the vector of layer heights is a parameter. -/
abbrev ZHeights := Int → Int

def ccMin (a b : MIdx) : MIdx := ⟨min a.x b.x, min a.y b.y, min a.z b.z⟩
def ccMax (a b : MIdx) : MIdx := ⟨max a.x b.x, max a.y b.y, max a.z b.z⟩

/-- one pin of lines 2530-2543; only the first access pattern of a pin counts (`break`) -/
def centerStep (zH : ZHeights) (s : Int × Int × Int × Int) (p : RPin) : Int × Int × Int × Int :=
  match p.aps with
  | [] => s
  | ap :: _ => (s.1 + ap.pt.x, s.2.1 + ap.pt.y, s.2.2.1 + zH ap.mi.z, s.2.2.2 + 1)

/-- the three running sums and the counter — src/dr/FlexDR_maze.cpp:2524-2543. -/
def centerSums (zH : ZHeights) (pins : List RPin) : Int × Int × Int × Int :=
  pins.foldl (centerStep zH) (0, 0, 0, 0)

/-- distance of an access pattern to the average point — src/dr/FlexDR_maze.cpp:2557. -/
def apDist (zH : ZHeights) (c : Int × Int × Int) (ap : AP) : Int :=
  (if c.1 - ap.pt.x < 0 then -(c.1 - ap.pt.x) else c.1 - ap.pt.x) +
  (if c.2.1 - ap.pt.y < 0 then -(c.2.1 - ap.pt.y) else c.2.1 - ap.pt.y) +
  (if c.2.2 - zH ap.mi.z < 0 then -(c.2.2 - zH ap.mi.z) else c.2.2 - zH ap.mi.z)

/-- "select the farmost pin" — src/dr/FlexDR_maze.cpp:2550-2563. -/
def farmost (zH : ZHeights) (c : Int × Int × Int) (pins : List RPin) : Option RPin :=
  (pins.foldl (fun s p => p.aps.foldl (fun s ap =>
    if apDist zH c ap ≥ s.1 then (apDist zH c ap, some p) else s) s) ((0 : Int), (none : Option RPin))).2

/-- one iteration of lines 2568-2586 -/
def srcAP (p : RPin) (s : PinMap × Grid × List MIdx) (ap : AP) : PinMap × Grid × List MIdx :=
  let comps := s.2.2 ++ [ap.mi]
  match s.1.find ap.mi with
  | none => (s.1, s.2.1, comps)
  | some l =>
    if p ∈ l then
      let l' := l.filter (fun x => decide (x ≠ p))
      let g := s.2.1.setSrc ap.mi
      if l' = [] then (s.1.erase ap.mi, g.resetDst ap.mi, comps) else (s.1.put ap.mi l', g, comps)
    else (s.1, s.2.1, comps)

/-- `routeNet_setSrc` — src/dr/FlexDR_maze.cpp:2509-2589. `none`: division by zero (no pin has an
access pattern) or null pin. -/
def routeSetSrc (zH : ZHeights) (unconn : List RPin) (m : PinMap) (g : Grid) : Option RState :=
  let s := centerSums zH unconn
  if s.2.2.2 = 0 then none
  else
    match farmost zH (s.1.tdiv s.2.2.2, s.2.1.tdiv s.2.2.2, s.2.2.1.tdiv s.2.2.2) unconn with
    | none => none
    | some p =>
      let r := p.aps.foldl (srcAP p) (m, g, [])
      some
        { grid := r.2.1, unconn := unconn.filter (fun x => decide (x ≠ p)), m2p := r.1, comps := r.2.2
          cc1 := (p.aps.map (·.mi)).foldl ccMin ⟨g.xs.length - 1, g.ys.length - 1, g.zs.length - 1⟩
          cc2 := (p.aps.map (·.mi)).foldl ccMax ⟨0, 0, 0⟩
          figs := [], first := true }

/-- location of a maze index, `getPoint` — src/dr/FlexGridGraph.h:138-141 (read only on the grid). -/
def Grid.loc (g : Grid) (n : MIdx) : Point := (g.point n).getD ⟨0, 0⟩

/-- `getLayerNum` — src/dr/FlexGridGraph.h (read only on the grid). -/
def Grid.layer (g : Grid) (z : Int) : Int := g.zs.getD z.toNat 0

/-- `routeNet_getNextDst` — src/dr/FlexDR_maze.cpp:2591-2616. The early `break` at distance 0 does not
change the result because later distances are not smaller. -/
def nextDst (g : Grid) (zH : ZHeights) (cc1 cc2 : MIdx) (m : PinMap) : Option RPin :=
  let ll := g.loc cc1
  let ur := g.loc cc2
  (m.foldl (fun s e =>
    let pt := g.loc e.1
    let d := max (max (ll.x - pt.x) (pt.x - ur.x)) 0 + max (max (ll.y - pt.y) (pt.y - ur.y)) 0 +
      max (max (zH cc1.z - zH e.1.z) (zH e.1.z - zH cc2.z)) 0
    if d < s.1 then (d, e.2.head?) else s) ((2147483647 : Int), (none : Option RPin))).2

/-- removal of a pin's entry at one access pattern — src/dr/FlexDR_maze.cpp:2636-2651. -/
def dropAP (p : RPin) (s : PinMap × Grid) (ap : AP) : PinMap × Grid :=
  match s.1.find ap.mi with
  | none => s
  | some l =>
    if p ∈ l then
      let l' := l.filter (fun x => decide (x ≠ p))
      if l' = [] then (s.1.erase ap.mi, s.2.resetDst ap.mi) else (s.1.put ap.mi l', s.2)
    else s

/-- the nodes of one leg, `min..max` along the changing coordinate — src/dr/FlexDR_maze.cpp:2678-2703. -/
def legNodes (a b : MIdx) : List MIdx :=
  if a.x ≠ b.x ∧ a.y = b.y ∧ a.z = b.z then
    (Grid.rangeIncl (min a.x b.x) (max a.x b.x)).map (fun x => ⟨x, a.y, a.z⟩)
  else if a.x = b.x ∧ a.y ≠ b.y ∧ a.z = b.z then
    (Grid.rangeIncl (min a.y b.y) (max a.y b.y)).map (fun y => ⟨a.x, y, a.z⟩)
  else if a.x = b.x ∧ a.y = b.y ∧ a.z ≠ b.z then
    (Grid.rangeIncl (min a.z b.z) (max a.z b.z)).map (fun z => ⟨a.x, a.y, z⟩)
  else []

/-- all nodes inserted into `localConnComps` -/
def pathNodes : List MIdx → List MIdx
  | a :: b :: t => legNodes a b ++ pathNodes (b :: t)
  | _ => []

/-- `routeNet_postAstarUpdate` — src/dr/FlexDR_maze.cpp:2623-2714. -/
def postUpdate (path : List MIdx) (s : RState) : RState :=
  match path with
  | [] => s
  | mi :: _ =>
    let tmp := s.m2p.get mi
    let r := tmp.foldl (fun r p => p.aps.foldl (dropAP p) r) (s.m2p, s.grid)
    let unconn := s.unconn.filter (fun x => decide (x ∉ tmp))
    let (g, comps) :=
      if s.first then
        let g := s.comps.foldl Grid.resetSrc r.2
        if path.length = 1 then (g.setSrc mi, [mi]) else (g, [])
      else (r.2, s.comps)
    let loc := pathNodes path
    let g := loc.foldl Grid.setSrc g
    let comps := comps ++ (if s.first then loc else loc.filter (fun n => decide (n ≠ mi)))
    { s with grid := g, unconn := unconn, m2p := r.1, comps := comps }

/-- vias of one vertical leg — src/dr/FlexDR_maze.cpp:2878-2909 (the choice of via definition is not
modelled, only its cut layer). -/
def viaFigs (g : Grid) (s e : MIdx) : List DFig :=
  (Grid.rangeIncl s.z (e.z - 1)).map fun z =>
    .via (g.loc ⟨s.x, s.y, z⟩) (g.layer z + 1) ⟨s.x, s.y, z⟩ ⟨s.x, s.y, z + 1⟩

/-- shapes of one leg — src/dr/FlexDR_maze.cpp:2734-2915; `real` is the set of access points of real
pins, which get a truncated end. -/
def legFigs (g : Grid) (real : List MIdx) (p q : MIdx) : List DFig :=
  let (s, e) := if MIdx.lt q p then (q, p) else (p, q)
  if s.x ≠ e.x ∧ s.y = e.y ∧ s.z = e.z then
    [.seg (g.layer s.z) (g.loc s) (g.loc e) s e (decide (s ∈ real)) (decide (e ∈ real))]
  else if s.x = e.x ∧ s.y ≠ e.y ∧ s.z = e.z then
    [.seg (g.layer s.z) (g.loc s) (g.loc e) s e (decide (s ∈ real)) (decide (e ∈ real))]
  else if s.x = e.x ∧ s.y = e.y ∧ s.z ≠ e.z then viaFigs g s e
  else []

/-- `routeNet_postAstarWritePath` — src/dr/FlexDR_maze.cpp:2716-2917. -/
def writePath (g : Grid) (real : List MIdx) : List MIdx → List DFig
  | a :: b :: t => legFigs g real a b ++ writePath g real (b :: t)
  | _ => []

/-- Outcome of `routeNet`. -/
inductive ROut where
  | ok (s : RState) (searches : Nat)
  | fail (s : RState) (searches : Nat)
  /-- null pointer dereference or division by zero -/
  | crash
  | outOfFuel

/-- the loop of `routeNet` — src/dr/FlexDR_maze.cpp:2975-2986. `it` counts the searches done. -/
def routeLoop (zH : ZHeights) (real : List MIdx) (pick : Nat → Nat → Nat) (fuel : Nat) : Nat → Nat → RState → ROut
  | 0, it, s => if s.unconn = [] then .ok s it else .outOfFuel
  | n + 1, it, s =>
    if s.unconn = [] then .ok s it
    else
      let g := s.grid.resetAllPrev
      match nextDst g zH s.cc1 s.cc2 s.m2p with
      | none => .crash
      | some _ =>
        match g.search (pick it) fuel s.comps with
        | none => .outOfFuel
        | some r =>
          if r.found then
            let (cc1, cc2) := if r.path.length = 1 then (s.cc1, s.cc2)
              else (r.path.foldl ccMin s.cc1, r.path.foldl ccMax s.cc2)
            let s' := postUpdate r.path { s with grid := r.grid, comps := r.comps, cc1 := cc1, cc2 := cc2 }
            routeLoop zH real pick fuel n (it + 1)
              { s' with figs := s'.figs ++ writePath s'.grid real r.path, first := false }
          else .fail { s with grid := r.grid, comps := r.comps } (it + 1)

/-- `routeNet` — src/dr/FlexDR_maze.cpp:2943-2988. `none`: nothing to do (at most one pin). -/
def routeNet (zH : ZHeights) (pick : Nat → Nat → Nat) (fuel : Nat) (pins : List RPin) (g : Grid) : Option ROut :=
  if pins.length ≤ 1 then none
  else
    let (m, g) := routePrep pins g
    let real := (pins.filter (·.hasTerm)).flatMap (fun p => p.aps.map (·.mi))
    match routeSetSrc zH pins m g with
    | none => some .crash
    | some s => some (routeLoop zH real pick fuel pins.length 0 s)

end TR
