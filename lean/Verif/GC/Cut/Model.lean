import Verif.GC.Eol.Model
/-! # Geometry checker: cut spacing

Models `checkCutSpacing` and the functions it calls for the rules of LEF 5.8 proper (without the LEF58 properties),
`src/gc/FlexGC_main.cpp:2346-2355, 2368-2660, 3349-3455, 3480-3613`.

Simplifications: coordinates are unbounded integers (the squares are computed in 32-bit integers in the code); the shapes are given; queries
of the r-tree return the matching shapes in any order; the query of the metal layers in `checkCutSpacing_spc` (followed by a test for containment)
is a test of all shapes of these layers. -/
namespace TR

/-- `frCutSpacingConstraint` — src/db/tech/frConstraint.h:1112-1244.  `none` for `second` and `adj` stands for -1. -/
structure CutSpRule where
  id : Nat
  spacing : Int
  c2c : Bool
  sameNet : Bool
  second : Option Int
  stack : Bool
  adj : Option Nat
  within : Int
  exceptPG : Bool
  parOverlap : Bool
  area : Int

/-- the cut layer that is checked (`layer`), shapes of it and of other layers, and its rules; `inter`: inter-layer rules with their same-net
version (`getSameNetConstraint`); `interSame`: is there a same-net rule for that second layer -/
structure CutDb where
  layer : Int
  width : Int → Int
  net : Nat → GNet
  rects : Int → List GRect
  cons : List CutSpRule
  consSame : List CutSpRule
  inter : List (CutSpRule × Option CutSpRule)
  interSame : Int → Bool

/-- `frCutSpacingConstraint::getCutArea` — src/db/tech/frConstraint.h:1199-1201: the result type is `bool` -/
def CutSpRule.getCutArea (c : CutSpRule) : Int := if c.area ≠ 0 then 1 else 0

/-- boost::polygon `center` of a rectangle -/
def boxCentre (b : Box) : Point := ⟨(b.left + b.right).tdiv 2, (b.bottom + b.top).tdiv 2⟩

/-- boost::polygon `distance_squared` -/
def ptDist2 (p q : Point) : Int := (p.x - q.x) * (p.x - q.x) + (p.y - q.y) * (p.y - q.y)

/-- boost::polygon `square_euclidean_distance` of two rectangles -/
def rectDist2 (a b : Box) : Int :=
  ivDist a.left a.right b.left b.right * ivDist a.left a.right b.left b.right + ivDist a.bottom a.top b.bottom b.top * ivDist a.bottom a.top b.bottom b.top

/-- a blockage larger than the minimum cut — src/gc/FlexGC_main.cpp:2376, 2382, 3410-3413, 3442-3445. -/
def bigObs (D : CutDb) (l : Int) (r : GRect) : Bool := (D.net r.net).obs && decide (r.width > D.width l)

/-- `checkCutSpacing_getMaxSpcVal` — src/gc/FlexGC_main.cpp:2346-2355. -/
def cutMaxSpc (c : CutSpRule) : Int := if c.adj.isSome then max c.spacing c.within else c.spacing

/-- `checkCutSpacing_spc_getReqSpcVal` — src/gc/FlexGC_main.cpp:2368-2388. -/
def cutReq (D : CutDb) (c : CutSpRule) (l1 : Int) (r : GRect) (l2 : Int) (s : GRect) : Int :=
  let q := c.spacing
  if c.adj.isSome then
    let q := if bigObs D l1 r then c.within else q
    if bigObs D l2 s then c.within else q
  else q

/-- `checkCutSpacing_short` — src/gc/FlexGC_main.cpp:2390-2465. -/
def cutShort (D : CutDb) (r s : GRect) (m : Box) : List GMk :=
  if r.fixed && s.fixed then []
  else [⟨m, D.layer, .short, srcPair (D.net r.net).owner (D.net s.net).owner⟩]

/-- `checkCutSpacing_spc` — src/gc/FlexGC_main.cpp:2471-2547. -/
def cutSpc (D : CutDb) (c : CutSpRule) (r s : GRect) (m : Box) (prl : Int) : List GMk :=
  if c.adj.isSome && c.exceptPG && decide (r.net = s.net) && (D.net r.net).pg then []
  else if c.parOverlap && decide (prl ≤ 0) then []
  else if c.parOverlap && ((D.rects (D.layer - 1) ++ D.rects (D.layer + 1)).any (fun t => (decide (t.net = r.net) || decide (t.net = s.net)) && t.box.containsBox m)) then []
  else if decide (c.area ≠ -1) && decide ((r.box.right - r.box.left) * (r.box.top - r.box.bottom) < c.getCutArea) &&
      decide ((s.box.right - s.box.left) * (s.box.top - s.box.bottom) < c.getCutArea) then []
  else
    let q := cutReq D c D.layer r D.layer s
    let d := if c.c2c then ptDist2 (boxCentre r.box) (boxCentre s.box) else rectDist2 r.box s.box
    if d ≥ q * q then []
    else if r.fixed && s.fixed then []
    else [⟨m, D.layer, .other c.id, srcPair (D.net r.net).owner (D.net s.net).owner⟩]

/-- `checkCutSpacing_spc_diff_layer` — src/gc/FlexGC_main.cpp:2615-2660. -/
def cutSpcDiff (D : CutDb) (c : CutSpRule) (r : GRect) (l2 : Int) (s : GRect) (m : Box) : List GMk :=
  if r.fixed && s.fixed then []
  else if c.stack && c.sameNet && decide (r.net = s.net) && (r.box.containsBox s.box || s.box.containsBox r.box) then []
  else
    let q := cutReq D c D.layer r l2 s
    let d :=
      if c.c2c then ptDist2 (boxCentre r.box) (boxCentre s.box)
      else if meetInside r.box s.box then ptDist2 (boxCentre r.box) (boxCentre s.box)
      else rectDist2 r.box s.box
    if d ≥ q * q then []
    else [⟨m, D.layer, .other c.id, srcPair (D.net r.net).owner (D.net s.net).owner⟩]

/-- `hasCutSpacing(true)` or `hasInterLayerCutSpacing(second, true)` — src/gc/FlexGC_main.cpp:3359-3368. -/
def hasSameRule (D : CutDb) (c : CutSpRule) : Bool :=
  match c.second with
  | none => decide (D.consSame ≠ [])
  | some l => D.interSame l

/-- `checkCutSpacing_main` for two shapes — src/gc/FlexGC_main.cpp:3351-3398; `l2` is the layer of `s`. -/
def cutPair (D : CutDb) (c : CutSpRule) (r : GRect) (l2 : Int) (s : GRect) : List GMk :=
  if r.id = s.id then []
  else if !c.sameNet && decide (r.net = s.net) && hasSameRule D c then []
  else
    let distX := ivDist r.box.left r.box.right s.box.left s.box.right
    let distY := ivDist r.box.bottom r.box.top s.box.bottom s.box.top
    let m := genIntersect r.box s.box
    let prlX := if distX ≠ 0 then -(m.right - m.left) else m.right - m.left
    let prlY := if distY ≠ 0 then -(m.top - m.bottom) else m.top - m.bottom
    if D.layer = l2 then
      if distX = 0 ∧ distY = 0 then cutShort D r s m
      else cutSpc D c r s m (max prlX prlY)
    else cutSpcDiff D c r l2 s m

/-- `checkCutSpacing_main_hasAdjCuts` — src/gc/FlexGC_main.cpp:3401-3455. -/
def cutHasAdj (D : CutDb) (query : Int → Box → List GRect) (c : CutSpRule) (r : GRect) : Bool :=
  match c.adj with
  | none => true
  | some k =>
    if bigObs D D.layer r then true
    else
      let cnt := (query D.layer (gBloat r.box c.within)).foldl (fun (cnt : Int) s =>
        let d := if c.c2c then ptDist2 (boxCentre r.box) (boxCentre s.box) else rectDist2 r.box s.box
        if d ≥ c.within * c.within then cnt
        else if bigObs D D.layer s then cnt + k
        else cnt + 1) (-1)
      decide (cnt ≥ k)

/-- choice of the rule for a shape of the second layer — src/gc/FlexGC_main.cpp:3536-3543. -/
def interPair (D : CutDb) (c : CutSpRule) (same : Option CutSpRule) (r : GRect) (l2 : Int) (s : GRect) : List GMk :=
  match same with
  | none => cutPair D c r l2 s
  | some c' => if r.net ≠ s.net then cutPair D c r l2 s else cutPair D c' r l2 s

/-- `checkCutSpacing_main` for a shape and a rule — src/gc/FlexGC_main.cpp:3480-3548. -/
def cutRule (D : CutDb) (query : Int → Box → List GRect) (c : CutSpRule) (same : Option CutSpRule) (r : GRect) : List GMk :=
  if !cutHasAdj D query c r then []
  else
    match c.second with
    | none => (query D.layer (gBloat r.box (cutMaxSpc c))).flatMap (fun s => cutPair D c r D.layer s)
    | some l2 => (query l2 (gBloat r.box (cutMaxSpc c))).flatMap (fun s => interPair D c same r l2 s)

/-- `checkCutSpacing_main` for a shape — src/gc/FlexGC_main.cpp:3550-3568; the LEF58 rules (3570-3580) are left out. -/
def cutRect (D : CutDb) (query : Int → Box → List GRect) (r : GRect) : List GMk :=
  D.cons.flatMap (fun c => cutRule D query c none r) ++ D.consSame.flatMap (fun c => cutRule D query c none r) ++
    D.inter.flatMap (fun p => cutRule D query p.1 p.2 r)

/-- `checkCutSpacing` on one layer — src/gc/FlexGC_main.cpp:3583-3613; `target` = `some n`: only shapes of net `n` are taken as the first one -/
def cutLayer (D : CutDb) (query : Int → Box → List GRect) (target : Option Nat) : List GMk :=
  ((D.rects D.layer).filter (fun r => target.all (fun n => decide (r.net = n)))).flatMap (cutRect D query)

end TR
