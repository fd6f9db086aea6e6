import Verif.Track.Model
/-! # Model: track assignment of one panel

Models `getTrackIdx`, `assignIroute_availTracks`, `assignIroute_bestTrack(_helper)`,
`assignIroute_updateOthers`, `assign` and the set of wires to be reassigned — src/ta/FlexTA.h:112-128,
154-157, src/ta/FlexTA_assign.cpp:574-596, 801-968, 1025-1138, src/ta/FlexTA_init.cpp:615-628.

Simplifications:
* The costs of a track are arbitrary functions of the track index (`assignIroute_getCost` also returns
  the violation cost). They are natural numbers; `frUInt4` values are below 2^32.
* `std::set<taPin*, taPinComp>` is a list without duplicates together with an arbitrary choice of its
  first element (the order by cost changes during the loop).
* Coordinates of the wire and the region queries are not part of this model; which other wires are
  affected by an assignment, and whether these then have violations, is arbitrary. -/
namespace TR

/-! ### available tracks -/

/-- `assignIroute_availTracks` — src/ta/FlexTA_assign.cpp:574-596, for a GCell from `lo` to `hi`
across the tracks (`getTrackIdx` is modelled in `Verif.Track.Model`). -/
def availTracks (locs : List Int) (lo hi : Int) : Int × Int := taTrackIdx locs lo (hi - 1)

/-! ### choice of the track -/

/-- accumulators of `assignIroute_bestTrack` — src/ta/FlexTA_assign.cpp:830-833. -/
structure Best where
  cost : Nat := 4294967295
  idx : Option Int := none
  drc : Nat := 0
deriving DecidableEq, Repr

/-- `assignIroute_bestTrack_helper` — src/ta/FlexTA_assign.cpp:801-824. -/
def tryTrack (init : Bool) (cost drc : Int → Nat) (s : Best) (i : Int) : Best :=
  if init then
    (if cost i < s.cost then ⟨cost i, some i, drc i⟩ else ⟨s.cost, s.idx, drc i⟩)
  else
    (if drc i < s.cost then ⟨drc i, some i, drc i⟩ else ⟨s.cost, s.idx, drc i⟩)

/-- a `for` loop over tracks with `if (!drcCost) break;` at the end of the body -/
def scan (init : Bool) (cost drc : Int → Nat) : List Int → Best → Best
  | [], s => s
  | i :: r, s =>
    let s' := tryTrack init cost drc s i
    if s'.drc = 0 then s' else scan init cost drc r s'

/-- `for (i = a; i <= b; i++)` -/
def upFrom (a b : Int) : List Int := (List.range (b + 1 - a).toNat).map (fun k : Nat => a + (k : Int))
/-- `for (i = a; i >= b; i--)` -/
def downFrom (a b : Int) : List Int := (List.range (a + 1 - b).toNat).map (fun k : Nat => a - (k : Int))

/-- one loop, and a second one `if (drcCost)` — e.g. src/ta/FlexTA_assign.cpp:846-859. -/
def scan2 (init : Bool) (cost drc : Int → Nat) (l1 l2 : List Int) (s : Best) : Best :=
  let s1 := scan init cost drc l1 s
  if s1.drc ≠ 0 then scan init cost drc l2 s1 else s1

/-- body of the alternating loop: track `start + i`, then track `start - i - 1`, each if in the range,
with a test of `drcCost` after each — src/ta/FlexTA_assign.cpp:869-885. Returns the state and whether
the loop ends. -/
def altTry (init : Bool) (cost drc : Int → Nat) (i1 i2 : Int) (s : Best) (i : Int) : Best × Bool :=
  let s' := if i1 ≤ i ∧ i ≤ i2 then tryTrack init cost drc s i else s
  (s', decide (s'.drc = 0))

/-- the alternating loop — src/ta/FlexTA_assign.cpp:869-885. -/
def altScan (init : Bool) (cost drc : Int → Nat) (i1 i2 start : Int) : List Nat → Best → Best
  | [], s => s
  | i :: r, s =>
    let a := altTry init cost drc i1 i2 s (start + i)
    if a.2 then a.1
    else
      let b := altTry init cost drc i1 i2 a.1 (start - i - 1)
      if b.2 then b.1 else altScan init cost drc i1 i2 start r b.1

/-- `startTrackIdx` — src/ta/FlexTA_assign.cpp:843-845. -/
def startTrack (locs : List Int) (coord i1 i2 : Int) : Int := max (min (lowerBound locs coord : Int) i2) i1

/-- state at the end of the loops of `assignIroute_bestTrack` — src/ta/FlexTA_assign.cpp:837-948.
`w2`: `getWlenHelper2()` if present; `w`: `getWlenHelper()`. -/
def bestScan (init : Bool) (cost drc : Int → Nat) (locs : List Int) (w2 : Option Int) (w i1 i2 : Int) : Best :=
  match w2 with
  | some c =>
    let st := startTrack locs c i1 i2
    if 0 < w then scan2 init cost drc (upFrom st i2) (downFrom (st - 1) i1) {}
    else if w = 0 then altScan init cost drc i1 i2 st (List.range (i2 - i1 + 1).toNat) {}
    else scan2 init cost drc (downFrom st i1) (upFrom (st + 1) i2) {}
  | none =>
    if 0 < w then scan init cost drc (downFrom i2 i1) {}
    else if w = 0 then scan2 init cost drc (upFrom ((i1 + i2).tdiv 2) i2) (downFrom ((i1 + i2).tdiv 2 - 1) i1) {}
    else scan init cost drc (upFrom i1 i2) {}

/-- `assignIroute_bestTrack` — src/ta/FlexTA_assign.cpp:826-968: chosen track and recorded cost;
`none`: the program exits (949-961). -/
def bestTrack (init : Bool) (cost drc : Int → Nat) (locs : List Int) (w2 : Option Int) (w i1 i2 : Int) : Option (Int × Nat) :=
  let s := bestScan init cost drc locs w2 w i1 i2
  s.idx.map (fun t => (t, s.drc))

/-! ### the assignment loop -/

/-- state of `assign`: pass, wires to be reassigned, times each was assigned, buffer of the last ones -/
structure TAState where
  time : Nat
  todo : List Nat
  cnt : Nat → Nat
  buf : List Nat

/-- `assignIroute_updateOthers` for one affected wire `x` with violation flag — src/ta/FlexTA_assign.cpp:1033-1057. -/
def updateOther (maxRetry : Nat) (cnt : Nat → Nat) (todo : List Nat) (x : Nat × Bool) : List Nat :=
  let t := todo.filter (fun i => decide (i ≠ x.1))
  if x.2 && decide (cnt x.1 < maxRetry) then x.1 :: t else t

/-- one pass of the loop of `assign` — src/ta/FlexTA_assign.cpp:1115-1137. `others t`: wires affected in
pass `t` and whether they have violations. The buffer holds the 20 last assigned wires. -/
def taStep (init : Bool) (maxRetry : Nat) (pick : Nat → Nat) (others : Nat → List (Nat × Bool)) (s : TAState) : TAState :=
  match s.todo[pick s.time % s.todo.length]? with
  | none => s
  | some i =>
    let todo := s.todo.filter (fun x => decide (x ≠ i))
    if i ∈ s.buf ∨ maxRetry ≤ s.cnt i then ⟨s.time + 1, todo, s.cnt, s.buf⟩
    else
      let cnt := fun x => if x = i then s.cnt x + 1 else s.cnt x
      ⟨s.time + 1, if init then todo else (others s.time).foldl (updateOther maxRetry cnt) todo, cnt, (i :: s.buf).take 20⟩

/-- the loop, stopped after `fuel` passes -/
def taRun (init : Bool) (maxRetry : Nat) (pick : Nat → Nat) (others : Nat → List (Nat × Bool)) : Nat → TAState → TAState
  | 0, s => s
  | fuel + 1, s => if s.todo.isEmpty then s else taRun init maxRetry pick others fuel (taStep init maxRetry pick others s)

end TR
