import Verif.Conn.Model
/-! # Model: processing of the global-routing guides of one net

Models `genGuides_merge`, `genGuides_split`, `genGuides_buildNodeMap`, `genGuides_astar` and the
driver loop of `genGuides` — src/io/io_guide.cpp:36-264, 565-684, 814-1047.

Simplifications:
* `boost::icl::interval_set<int>` is modelled as the sorted list of its maximal closed intervals;
  boost joins intervals that overlap or are adjacent integers.
* `map` is a sorted list. `vector` over layers is a function of the layer number.
* The GCell index of a coordinate is a parameter (`frBlock::getGCellIdx` is modelled in `Verif.GCell`).
* `gCell2PinMap` is a parameter: `pinCells`, the GCells and layers of each pin. Pins are listed in
  the order of `pin2GCellMap`.
* A guide after splitting is given by layer, track index and first and last index along the track;
  the C++ stores the same as a box of GCell indices.
* The edges of a node are listed in another order than in `adjVec`; the order in which the queue
  yields its entries is arbitrary anyway.
* `exit(1)` is `none`. Cover guides and the GCells of the pins (265-574) are in `Verif.PinCell.Model`. -/
namespace TR

/-- technology data used here: preferred direction of each layer, number of layers,
`VIA_ACCESS_LAYERNUM` -/
structure GuideTech where
  horz : Int → Bool
  nLayers : Nat
  viaAccess : Int

/-! ### interval sets -/

abbrev IvSet := List (Int × Int)

/-- `interval_set::insert(closed(a, b))` for a non-empty interval -/
def ivIns (a b : Int) : IvSet → IvSet
  | [] => [(a, b)]
  | (c, d) :: r =>
    if b + 1 < c then (a, b) :: (c, d) :: r
    else if d + 1 < a then (c, d) :: ivIns a b r
    else ivIns (min a c) (max b d) r

/-- `boost::icl::contains(s, x)` -/
def ivHas (s : IvSet) (x : Int) : Bool := s.any (fun i => decide (i.1 ≤ x) && decide (x ≤ i.2))

/-- `s & u` -/
def ivMeet (s u : IvSet) : IvSet :=
  s.flatMap (fun i => u.filterMap (fun j =>
    if max i.1 j.1 ≤ min i.2 j.2 then some (max i.1 j.1, min i.2 j.2) else none))

/-- `map<frCoord, interval_set<frCoord>>`: track index to covered positions -/
abbrev TMap := List (Int × IvSet)

/-- `m[t].insert(closed(a, b))`; an interval with `b < a` is empty -/
def TMap.ins (t a b : Int) : TMap → TMap
  | [] => [(t, if a ≤ b then ivIns a b [] else [])]
  | (u, s) :: r =>
    if t < u then (t, if a ≤ b then ivIns a b [] else []) :: (u, s) :: r
    else if t = u then (u, if a ≤ b then ivIns a b s else s) :: r
    else (u, s) :: TMap.ins t a b r

def TMap.get : TMap → Int → IvSet
  | [], _ => []
  | (u, s) :: r, t => if t = u then s else TMap.get r t

abbrev Intvs := Int → TMap

/-- `intvs[l][t].insert(closed(a, b))` -/
def Intvs.ins (iv : Intvs) (l t a b : Int) : Intvs := fun l' => if l' = l then (iv l).ins t a b else iv l'

/-! ### merging -/

/-- a guide as read from the file: layer and box -/
structure GuideRect where
  layer : Int
  box : Box

/-- `for (i = a; i <= b; i++)` -/
def intRange (a b : Int) : List Int := (List.range (b + 1 - a).toNat).map (fun k : Nat => a + (k : Int))

/-- loop body over the guides — src/io/io_guide.cpp:40-70. -/
def addRect (T : GuideTech) (idxOf : Point → Point) (iv : Intvs) (r : GuideRect) : Intvs :=
  let p := idxOf r.box.ll
  let q := idxOf ⟨r.box.right - 1, r.box.top - 1⟩
  if T.horz r.layer then (intRange p.y q.y).foldl (fun iv i => iv.ins r.layer i p.x q.x) iv
  else (intRange p.x q.x).foldl (fun iv i => iv.ins r.layer i p.y q.y) iv

/-- a touching guide: track, first and last index, layer — src/io/io_guide.cpp:72. -/
structure Touch1 where
  t : Int
  b : Int
  e : Int
  l : Int
deriving DecidableEq, Repr

/-- some track in `[b, e]` of a neighbouring layer contains all of `xs` —
src/io/io_guide.cpp:88-97, 101-110. -/
def crosses (m : TMap) (b e : Int) (xs : List Int) : Bool :=
  m.any (fun k => decide (b ≤ k.1) && decide (k.1 ≤ e) && xs.all (ivHas k.2))

/-- loop body over the common intervals of two neighbouring tracks — src/io/io_guide.cpp:82-123.
Inner `none`: nothing to add. Outer `none`: no layer to add to, the program exits. -/
def touchOne (T : GuideTech) (iv : Intvs) (l p t : Int) (i : Int × Int) : Option (Option Touch1) :=
  let lu := (decide (0 ≤ l - 2) && crosses (iv (l - 2)) i.1 i.2 [t, p]) ||
    (decide (l + 2 < T.nLayers) && crosses (iv (l + 2)) i.1 i.2 [t, p])
  if lu then some none
  else if l + 2 < T.nLayers then some (some ⟨i.1, p, t, l + 2⟩)
  else if 0 ≤ l - 2 then some (some ⟨i.1, p, t, l - 2⟩)
  else none

/-- loop over the tracks of a layer with the preceding track — src/io/io_guide.cpp:76-127. The
initial `prevTrackIdx = -2` never matches, because track indices are not negative. -/
def touchWalk (T : GuideTech) (iv : Intvs) (l : Int) : Option (Int × IvSet) → TMap → List (Option (Option Touch1))
  | _, [] => []
  | none, x :: r => touchWalk T iv l (some x) r
  | some p, x :: r =>
    (if x.1 = p.1 + 1 then (ivMeet x.2 p.2).map (touchOne T iv l p.1 x.1) else []) ++ touchWalk T iv l (some x) r

/-- all touching guides — src/io/io_guide.cpp:71-127. -/
def allTouches (T : GuideTech) (iv : Intvs) : List (Option (Option Touch1)) :=
  (List.range T.nLayers).flatMap (fun (l : Nat) => touchWalk T iv (l : Int) none (iv (l : Int)))

/-- intervals of the guides before touching guides are added -/
def baseIntvs (T : GuideTech) (idxOf : Point → Point) (rects : List GuideRect) : Intvs :=
  rects.foldl (addRect T idxOf) (fun _ => [])

/-- `genGuides_merge` — src/io/io_guide.cpp:36-136. -/
def mergeGuides (T : GuideTech) (idxOf : Point → Point) (rects : List GuideRect) : Option Intvs :=
  let iv := baseIntvs T idxOf rects
  let ts := allTouches T iv
  if ts.any Option.isNone then none
  else some (((ts.filterMap id).filterMap id).foldl (fun iv t => iv.ins t.l t.t t.b t.e) iv)

/-! ### splitting -/

/-- the GCell at position `x` of track `t` of layer `l` -/
def GuideTech.cell (T : GuideTech) (l t x : Int) : Node := if T.horz l then ⟨⟨x, t⟩, l⟩ else ⟨⟨t, x⟩, l⟩

/-- track of a GCell -/
def GuideTech.track (T : GuideTech) (n : Node) : Int := if T.horz n.layer then n.pt.y else n.pt.x

/-- position of a GCell along its track -/
def GuideTech.pos (T : GuideTech) (n : Node) : Int := if T.horz n.layer then n.pt.x else n.pt.y

/-- `set<frCoord>::insert` -/
def lineIns (x : Int) : List Int → List Int
  | [] => [x]
  | y :: r => if x < y then x :: y :: r else if x = y then y :: r else y :: lineIns x r

/-- crossings with a neighbouring layer — src/io/io_guide.cpp:192-215. -/
def crossings (m : TMap) (t b e : Int) : List Int :=
  (m.filter (fun k => decide (b ≤ k.1) && decide (k.1 ≤ e) && ivHas k.2 t)).map Prod.fst

/-- pins of a track between `b` and `e` — src/io/io_guide.cpp:216-233. -/
def pinPos (T : GuideTech) (pinCells : List (List Node)) (l t b e : Int) : List Int :=
  pinCells.flatten.filterMap (fun n =>
    if n.layer = l ∧ T.track n = t ∧ b ≤ T.pos n ∧ T.pos n ≤ e then some (T.pos n) else none)

/-- `lineIdx` — src/io/io_guide.cpp:155, 190-234. -/
def lineIdx (T : GuideTech) (iv : Intvs) (pinCells : List (List Node)) (l t b e : Int) : List Int :=
  let below := if 0 ≤ l - 2 then crossings (iv (l - 2)) t b e else []
  let above := if l + 2 < T.nLayers then crossings (iv (l + 2)) t b e else []
  (below ++ above ++ pinPos T pinCells l t b e).foldl (fun L x => lineIns x L) []

/-- a guide after splitting -/
structure GSeg where
  l : Int
  t : Int
  b : Int
  e : Int
deriving DecidableEq, Repr

/-- rectangles between consecutive split points — src/io/io_guide.cpp:248-261. -/
def pairSegs (l t : Int) : List Int → List GSeg
  | x :: y :: r => ⟨l, t, x, y⟩ :: pairSegs l t (y :: r)
  | _ => []

/-- split of one interval — src/io/io_guide.cpp:154-262. -/
def splitOne (T : GuideTech) (iv : Intvs) (pinCells : List (List Node)) (retry : Bool) (l t : Int) (i : Int × Int) :
    Option (List GSeg) :=
  if !retry && decide (l ≤ T.viaAccess) then some ((intRange i.1 i.2).map (fun x => ⟨l, t, x, x⟩))
  else match lineIdx T iv pinCells l t i.1 i.2 with
    | [] => none
    | [x] => some [⟨l, t, x, x⟩]
    | L => some (pairSegs l t L)

def optConcat {α : Type} : List (Option (List α)) → Option (List α)
  | [] => some []
  | none :: _ => none
  | some a :: r => (optConcat r).map (a ++ ·)

/-- all intervals: layer, track, interval -/
def allIntvs (T : GuideTech) (iv : Intvs) : List (Int × Int × (Int × Int)) :=
  (List.range T.nLayers).flatMap (fun (l : Nat) => (iv (l : Int)).flatMap (fun k => k.2.map (fun i => ((l : Int), k.1, i))))

/-- `genGuides_split` — src/io/io_guide.cpp:138-264: the split guides. -/
def splitGuides (T : GuideTech) (iv : Intvs) (pinCells : List (List Node)) (retry : Bool) : Option (List GSeg) :=
  optConcat ((allIntvs T iv).map (fun k => splitOne T iv pinCells retry k.1 k.2.1 k.2.2))

/-- `pin2GCellMap`: the cells of a pin that lie in an interval — src/io/io_guide.cpp:159-172, 217-232. -/
def guidePins (T : GuideTech) (iv : Intvs) (pinCells : List (List Node)) : List (List Node) :=
  pinCells.map (fun ns => ns.filter (fun n =>
    decide (0 ≤ n.layer) && decide (n.layer < T.nLayers) && ivHas ((iv n.layer).get (T.track n)) (T.pos n)))

/-! ### graph and search -/

/-- first and last GCell of a guide -/
def GSeg.ends (T : GuideTech) (s : GSeg) : List Node := [T.cell s.l s.t s.b, T.cell s.l s.t s.e]

def guideInserts (T : GuideTech) (segs : List GSeg) (pins : List (List Node)) : List (Node × Nat) :=
  segs.zipIdx.flatMap (fun (s, i) => (s.ends T).map (fun n => (n, i))) ++
  pins.zipIdx.flatMap (fun (ns, k) => ns.map (fun n => (n, segs.length + k)))

/-- `genGuides_buildNodeMap` — src/io/io_guide.cpp:814-853. -/
def guideMap (T : GuideTech) (segs : List GSeg) (pins : List (List Node)) : NodeMap :=
  (guideInserts T segs pins).foldl (fun m x => NodeMap.ins x.1 x.2 m) []

/-- the set stored at a node, if any -/
def NodeMap.at (m : NodeMap) (n : Node) : List Nat :=
  match m.find? (fun x => decide (x.1 = n)) with | some x => x.2 | none => []

/-- is there an edge from `i` to `j`, both in the set of a node of layer `l` —
src/io/io_guide.cpp:879-910. `ft` is `ALLOW_PIN_AS_FEEDTHROUGH || forceFeedThrough`. -/
def guideEdge (T : GuideTech) (g : Nat) (ft : Bool) (l : Int) (i j : Nat) : Bool :=
  if g ≤ i ∧ g ≤ j then false
  else if i < g ∧ j < g then decide (l ≠ T.viaAccess)
  else if ft then true
  else if i = g then true          -- first pin: only out
  else if j = g then false
  else decide (g ≤ j)              -- other pins: only in

/-- `adjVec[i]` — src/io/io_guide.cpp:872-923. -/
def guideAdj (T : GuideTech) (g : Nat) (ft : Bool) (nm : NodeMap) (i : Nat) : List Nat :=
  nm.flatMap (fun x =>
    if i ∈ x.2 then
      x.2.filter (fun j => decide (j ≠ i) && guideEdge T g ft x.1.layer i j) ++
      (if i < g then
        (nm.at ⟨x.1.pt, x.1.layer + 2⟩).filter (fun j => decide (j < g)) ++
        (nm.at ⟨x.1.pt, x.1.layer - 2⟩).filter (fun j => decide (j < g)) else [])
    else [])

/-- `genGuides_astar` — src/io/io_guide.cpp:857-1047. -/
def guideSearch (T : GuideTech) (segs : List GSeg) (pins : List (List Node)) (ft : Bool) (pen : Nat)
    (pick : Nat → Nat → Nat) (fuel : Nat) : Option NetFound :=
  (netSearch (guideAdj T segs.length ft (guideMap T segs pins)) segs.length (segs.length + pins.length) pen pick fuel).map
    (fun r => ⟨if pins.length = 1 then true else r.ok, r.kept⟩)

/-- one attempt of the driver loop: split, then search — src/io/io_guide.cpp:588, 654-663. -/
def guideAttempt (T : GuideTech) (iv : Intvs) (pinCells : List (List Node)) (retry ft : Bool) (pen : Nat)
    (pick : Nat → Nat → Nat) (fuel : Nat) : Option (List GSeg × NetFound) :=
  match splitGuides T iv pinCells retry with
  | none => none
  | some segs => (guideSearch T segs (guidePins T iv pinCells) ft pen pick fuel).map (fun r => (segs, r))

/-- `genGuides` — src/io/io_guide.cpp:576-684: merge, then split and search; on failure once more with
long guides on the lowest layers, and then, unless pins may be passed through already, with passing
through pins allowed. `none`: the program exits. The pin sets are those of the model, which do not
depend on `retry`. -/
def genGuides (T : GuideTech) (idxOf : Point → Point) (rects : List GuideRect) (pinCells : List (List Node)) (allowFt : Bool)
    (pen : Nat) (pick : Nat → Nat → Nat) (fuel : Nat) : Option (List GSeg × NetFound) :=
  match mergeGuides T idxOf rects with
  | none => none
  | some iv =>
    match guideAttempt T iv pinCells false allowFt pen pick fuel with
    | none => none
    | some r =>
      if r.2.ok then some r
      else match guideAttempt T iv pinCells true allowFt pen pick fuel with
        | none => none
        | some r =>
          if r.2.ok then some r
          else if allowFt then none
          else match guideAttempt T iv pinCells true true pen pick fuel with
            | none => none
            | some r => if r.2.ok then some r else none

end TR
