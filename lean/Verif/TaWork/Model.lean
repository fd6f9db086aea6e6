import Verif.TA.Model
import Verif.Cost.Model
import Verif.WB.Model
/-! # Model: what the wires of track assignment block, and the violation costs

Models `box2boxDistSquare`, `modMinSpacingCostPlanar`, `modMinSpacingCostVia`, `modCutSpacingCost`, `modCost`, `addCost`, `subCost`,
`assignIroute_getDRCCost(_helper)`, `assignIroute_getAlignCost`, `assignIroute_getWlenCost`, `assignIroute_getPinCost`, `assignIroute_getCost`,
`assignIroute_init`, `assignIroute_updateIroute`, `assignIroute_updateOthers` — src/ta/FlexTA_assign.cpp:35-573, 597-800, 970-1061 —
the region query of the worker — src/ta/FlexTA_rq.cpp:28-124 — and `initCosts` in later passes — src/ta/FlexTA_init.cpp:546-582.

Simplifications:
* Coordinates and costs are unbounded integers. `(frCoord)(sqrt(…))` is the integer part of the root, which is exact for the distances of a chip;
  the conversion of the root of a negative number is undefined in C++: it gives the unknown value `nan`.
* Where the code has two branches for panels of horizontal and of vertical tracks that are equal up to the exchange of x and y, the model
  exchanges the coordinates (`Box.fr`).
* A via definition is its three groups of rectangles (`MzVia`); it lies between the layers below and above its cut layer.
* Nets and wires (`taPin`) are numbers, a figure of a wire is its position in the list of figures. The trees of the region query are lists.
* The debug output is left out; `DBPROCESSNODE` is empty (the branch for a special process in `assignIroute_getPinCost` is not modelled). -/
namespace TR

/-! ### distances -/

/-- integer part of the square root, one pair of binary digits after the other -/
def isqrtGo : Nat → Nat → Nat
  | 0, _ => 0
  | f + 1, n => if n = 0 then 0 else
    let s := 2 * isqrtGo f (n / 4)
    if (s + 1) * (s + 1) ≤ n then s + 1 else s

/-- `(frCoord)(sqrt(n))` — src/ta/FlexTA_assign.cpp:95, 277, 289, 417-419, 443-445. -/
def isqrt (n : Nat) : Nat := isqrtGo n n

/-- `maxX` — src/ta/FlexTA_assign.cpp:95-98, 277-280, 289-292, 416-423, 442-449: how far along the track a shape at distance `d` across must be
away; `dy` is the distance used in the test for equality. -/
def reachOf (nan req d dy : Int) : Int :=
  let m : Int := if req * req < d * d then nan else ((isqrt (req * req - d * d).toNat : Nat) : Int)
  if m * m + dy * dy = req * req then max 0 (m - 1) else m

/-- exchange x and y in panels of vertical tracks -/
def Box.fr (horz : Bool) (b : Box) : Box := if horz then b else ⟨⟨b.bottom, b.left⟩, ⟨b.top, b.right⟩⟩

/-- what track assignment reads of the technology and the panel: types of the layers, tracks of each layer, direction of the tracks -/
structure PanelTech where
  c : CTech
  routing : Int → Bool
  locs : Int → List Int
  horz : Bool
  nan : Int

/-- the tracks of the loop `for (i = idx1; i <= idx2; i++)` after `getTrackIdx` — e.g. src/ta/FlexTA_assign.cpp:82, 90-91. -/
def tracksIn (locs : List Int) (lo hi : Int) : List Int :=
  let r := taTrackIdx locs lo hi
  (upFrom r.1 r.2).map fun i => locs.getD i.toNat 0

/-- the part of track `t` from `a1` to `a2` — e.g. src/ta/FlexTA_assign.cpp:101-106. -/
def lineBox (horz : Bool) (a1 a2 t : Int) : Box := (Box.mk4 a1 t a2 t).fr horz

/-! ### blocked places -/

/-- the loop of `modMinSpacingCostPlanar` — src/ta/FlexTA_assign.cpp:84-106; `b2` is the variable `box2`, which is moved on in every round. -/
def planarLoop (nan bd hw : Int) (horz : Bool) (b : Box) : Box → List Int → List Box
  | _, [] => []
  | b2, t :: ts =>
    let b2' := b2.transform ⟨b.left, t, .R0⟩
    let dy := max (cgapY b b2') 0
    let x := reachOf nan bd dy dy
    lineBox horz (b.left - x - hw) (b.right + x + hw) t :: planarLoop nan bd hw horz b b2' ts

/-- `modMinSpacingCostPlanar`: places blocked for wires of layer `l` — src/ta/FlexTA_assign.cpp:41-131. -/
def planarBlocks (P : PanelTech) (box : Box) (l : Int) : List Box :=
  match (P.c.spc l).bind fun r => r.req box.width (P.c.width l) box.length with
  | none => []
  | some bd =>
    let b := box.fr P.horz
    let hw := P.c.width l / 2
    planarLoop P.nan bd hw P.horz b ⟨⟨-hw, -hw⟩, ⟨hw, hw⟩⟩
      (tracksIn (P.locs l) (b.bottom - bd - hw + 1) (b.top + bd + hw - 1))

/-- `followTrackLNum` — src/ta/FlexTA_assign.cpp:171-183, 342-354. -/
def followLayer (P : PanelTech) (cut : Int) : Option Int :=
  if P.c.bottom ≤ cut - 1 ∧ P.routing (cut - 1) = true ∧ P.c.horz (cut - 1) = P.horz then some (cut - 1)
  else if cut + 1 ≤ P.c.top ∧ P.routing (cut + 1) = true ∧ P.c.horz (cut + 1) = P.horz then some (cut + 1)
  else none

/-- the run length of a via beside a shape — src/ta/FlexTA_assign.cpp:233-262. -/
def viaRun (isPs : Bool) (b v : Box) (dy : Int) : Int :=
  if dy > 0 then (if isPs then v.right - v.left else min (b.right - b.left) (v.right - v.left))
  else (if isPs then v.top - v.bottom else min (b.top - b.bottom) (v.top - v.bottom))

/-- the body of the loop of `modMinSpacingCostVia` — src/ta/FlexTA_assign.cpp:223-297. -/
def viaTrack (nan : Int) (horz : Bool) (r : SpcRule) (w1 w2 : Int) (isPs : Bool) (b v : Box) (t : Int) : List Box :=
  let dy := max (cgapY b (v.transform ⟨b.left, t, .R0⟩)) 0
  match r.req w1 w2 (viaRun isPs b v dy) with
  | none => []
  | some q =>
    if dy ≥ q then []
    else
      let x := reachOf nan q dy dy
      [lineBox horz (b.left - x - v.right) (b.right + x - v.left) t]

/-- the via looked at by `modMinSpacingCostVia`, and its rectangle on layer `l` — src/ta/FlexTA_assign.cpp:143-167. -/
def blockedVia (P : PanelTech) (l : Int) (upper : Bool) : Option Box :=
  if upper then (if l < P.c.top then (P.c.via (l + 1)).map (·.l1) else none)
  else (if l > P.c.bottom then (P.c.via (l - 1)).map (·.l2) else none)

/-- `modMinSpacingCostVia`: places blocked for vias on the cut layer above (`upper`) or below `l` — src/ta/FlexTA_assign.cpp:133-324. -/
def viaBlocks (P : PanelTech) (box : Box) (l : Int) (upper isPs : Bool) : List Box :=
  match blockedVia P l upper, followLayer P (if upper then l + 1 else l - 1), P.c.spc l with
  | some vb, some fl, some r =>
    match r.req box.width vb.width (if isPs then vb.length else min box.length vb.length) with
    | none => []
    | some bd =>
      let b := box.fr P.horz
      let v := vb.fr P.horz
      (tracksIn (P.locs fl) (b.bottom - bd - v.top + 1) (b.top + bd - v.bottom - 1)).flatMap
        (viaTrack P.nan P.horz r box.width vb.width isPs b v)
  | _, _, _ => []

/-- one rule in the loop of `modCutSpacingCost` — src/ta/FlexTA_assign.cpp:386-490. -/
def cutTrack (nan : Int) (horz : Bool) (b v : Box) (t : Int) (r : CutSpRule) : List Box :=
  let b2 := v.transform ⟨b.left, t, .R0⟩
  let dy := max (cgapY b b2) 0
  let ctr := boxCentre b
  let d := if r.c2c then ((ctr.y - t).natAbs : Int) else dy
  if d ≥ r.spacing then []
  else
    let x := reachOf nan r.spacing d dy
    let lo := if r.c2c then ctr.x - x else b.left - x - v.right
    let hi := if r.c2c then ctr.x + x else b.right + x - v.left
    if r.sameNet then []
    else if r.second.isSome then []
    else if r.adj.isSome then [lineBox horz lo hi t]
    else if r.parOverlap then
      (if dy > 0 then [lineBox horz (max (b.left - v.right + 1) lo) (min (b.right - v.left - 1) hi) t] else [lineBox horz lo hi t])
    else if r.area ≠ -1 then
      (if max (b.length * b.width) (b2.length * b2.width) ≥ r.getCutArea then [lineBox horz lo hi t] else [])
    else [lineBox horz lo hi t]

/-- largest cut spacing — src/ta/FlexTA_assign.cpp:356-360. -/
def maxCutSpc (rs : List CutSpRule) : Int := rs.foldl (fun a r => max a r.spacing) 0

/-- `modCutSpacingCost`: places blocked for vias on cut layer `l`, with the rule — src/ta/FlexTA_assign.cpp:326-518. -/
def cutBlocks (P : PanelTech) (box : Box) (l : Int) : List (Nat × Box) :=
  match P.c.via l, followLayer P l with
  | some vd, some fl =>
    if P.c.cut l = [] then []
    else
      let bd := maxCutSpc (P.c.cut l)
      let b := box.fr P.horz
      let v := vd.cutBox.fr P.horz
      (tracksIn (P.locs fl) (b.bottom - bd - v.top + 1) (b.top + bd - v.bottom - 1)).flatMap fun t =>
        (P.c.cut l).flatMap fun r => (cutTrack P.nan P.horz b v t r).map fun x => (r.id, x)
  | _, _ => []

/-! ### figures and records -/

/-- a figure of a wire: `taPathSeg` (src/db/taObj/taShape.h:71-200) or `taVia` on cut layer `cut` (src/db/taObj/taVia.h). -/
inductive TaFig where
  | seg (l : Int) (b e : Point) (st : SegStyle)
  | via (cut : Int) (v : MzVia) (o : Point)
deriving DecidableEq, Repr

/-- owner of a record of the cost trees: unknown, a net, or figure `k` of wire `p` -/
inductive CostOwner where
  | unknown
  | net (n : Nat)
  | fig (p k : Nat)
deriving DecidableEq, Repr

/-- the rule a record stands for: short, minimum spacing of a layer, a cut-spacing rule of a layer -/
inductive CostCon where
  | short (l : Int)
  | spc (l : Int)
  | cut (l : Int) (id : Nat)
deriving DecidableEq, Repr

/-- an entry of the cost tree of `layer` — src/ta/FlexTA_rq.cpp:41-43. -/
structure CostRec where
  layer : Int
  box : Box
  owner : CostOwner
  con : CostCon
deriving DecidableEq, Repr

/-- the records that `modCost` adds or removes for a figure — src/ta/FlexTA_assign.cpp:520-572. -/
def figRecs (P : PanelTech) (own : CostOwner) : TaFig → List CostRec
  | .seg l b e st =>
    let box := DSeg.bbox ⟨0, l, b, e, st⟩
    (planarBlocks P box l).map (fun x => ⟨l, x, own, .spc l⟩) ++
    (viaBlocks P box l true true).map (fun x => ⟨l + 1, x, own, .spc l⟩) ++
    (viaBlocks P box l false true).map (fun x => ⟨l - 1, x, own, .spc l⟩)
  | .via cut v o =>
    let side (box : Box) (l : Int) : List CostRec :=
      (if P.horz = P.c.horz l then (planarBlocks P box l).map (fun x => ⟨l, x, own, .spc l⟩) else []) ++
      (viaBlocks P box l true false).map (fun x => ⟨l + 1, x, own, .spc l⟩) ++
      (viaBlocks P box l false false).map (fun x => ⟨l - 1, x, own, .spc l⟩)
    side (v.l1.at o) (cut - 1) ++ side (v.l2.at o) (cut + 1) ++
    v.cuts.flatMap fun c => (cutBlocks P (c.at o) cut).map fun x => ⟨cut, x.2, own, .cut cut x.1⟩

/-- layer and box under which a figure is stored and looked up — src/ta/FlexTA_rq.cpp:64-98, src/ta/FlexTA_assign.cpp:728, 739. -/
def TaFig.layer : TaFig → Int
  | .seg l _ _ _ => l
  | .via cut _ _ => cut
def TaFig.line : TaFig → Box
  | .seg _ b e _ => Box.mk4 b.x b.y e.x e.y
  | .via _ _ o => Box.mk4 o.x o.y o.x o.y

/-- the figure on track `t` — src/ta/FlexTA_assign.cpp:722-728, 734-738, 975-1000. -/
def TaFig.onTrack (horz : Bool) (t : Int) : TaFig → TaFig
  | .seg l b e st => if horz then .seg l ⟨b.x, t⟩ ⟨e.x, t⟩ st else .seg l ⟨t, b.y⟩ ⟨t, e.y⟩ st
  | .via cut v o => if horz then .via cut v ⟨o.x, t⟩ else .via cut v ⟨t, o.y⟩

/-! ### violation cost of a place -/

/-- `tmpOvlp` — src/ta/FlexTA_assign.cpp:668-669. -/
def overlapLen (q b : Box) : Int := - max q.left b.left + min q.right b.right - max q.bottom b.bottom + min q.top b.top + 1

/-- closed rectangles meet (`bgi::intersects`) -/
def Box.meets (a b : Box) : Bool := decide (a.left ≤ b.right) && decide (b.left ≤ a.right) && decide (a.bottom ≤ b.top) && decide (b.bottom ≤ a.top)

/-- records that count for wire `p` — src/ta/FlexTA_assign.cpp:674-694. -/
def counts (net : Nat → Nat) (p : Nat) (o : CostOwner) : Bool :=
  match o with
  | .unknown => true
  | .net n => decide (net p ≠ n)
  | .fig q _ => decide (q ≠ p) && decide (net p ≠ net q)

/-- the pitch used for a layer, and whether it is a cut layer — src/ta/FlexTA_assign.cpp:696-709; `none`: the program exits. -/
def pitchOf (P : PanelTech) (l : Int) : Option (Int × Bool) :=
  if P.routing l then some (P.c.pitch l, false)
  else if P.c.top ≥ l + 1 ∧ P.routing (l + 1) = true then some (P.c.pitch (l + 1), true)
  else if P.c.bottom ≤ l - 1 ∧ P.routing (l - 1) = true then some (P.c.pitch (l - 1), true)
  else none

/-- the loop over the records found — src/ta/FlexTA_assign.cpp:666-695; `none`: the program exits. -/
def sumOverlap (net : Nat → Nat) (p : Nat) (q : Box) : List CostRec → Option Int
  | [] => some 0
  | r :: rs =>
    let o := overlapLen q r.box
    if o ≤ 0 then none
    else (sumOverlap net p q rs).map fun s => (if counts net p r.owner then o else 0) + s

/-- `assignIroute_getDRCCost_helper` — src/ta/FlexTA_assign.cpp:660-712. -/
def placeCost (P : PanelTech) (net : Nat → Nat) (recs : List CostRec) (p : Nat) (q : Box) (l : Int) : Option Int :=
  match sumOverlap net p q (recs.filter fun r => decide (r.layer = l) && q.meets r.box), pitchOf P l with
  | some o, some (pitch, isCut) => some (if o = 0 then 0 else if isCut then pitch * 2 else max (pitch * 2) o)
  | _, _ => none

/-- `assignIroute_getDRCCost` for figures `figs` of wire `p` on track `t` — src/ta/FlexTA_assign.cpp:714-747. -/
def drcCost (P : PanelTech) (net : Nat → Nat) (recs : List CostRec) (p : Nat) (t : Int) : List TaFig → Option Int
  | [] => some 0
  | f :: fs =>
    match placeCost P net recs p (f.onTrack P.horz t).line f.layer, drcCost P net recs p t fs with
    | some a, some b => some (a + b)
    | _, _ => none

/-! ### other costs -/

/-- `assignIroute_getWlenCost` — src/ta/FlexTA_assign.cpp:598-631: `lo`, `hi` the borders across the tracks of the GCell in which the guide ends. -/
def wlenCost (w lo hi t : Int) : Int :=
  let wl := if w ≤ 0 then (w.natAbs : Int) * (t - lo) else (w.natAbs : Int) * (hi - t)
  if wl < 0 then 0 else wl

/-- `assignIroute_getPinCost` — src/ta/FlexTA_assign.cpp:633-658. -/
def pinCost (w2 : Option Int) (t : Int) : Int := w2.elim 0 fun c => ((t - c).natAbs : Int)

/-- shapes stored in the worker: layer, box, wire, number of the figure — src/ta/FlexTA_rq.cpp:38-40. -/
abbrev TaShapes := List (Int × Box × Nat × Nat)

/-- `FlexTAWorkerRegionQuery::query` — src/ta/FlexTA_rq.cpp:100-107. -/
def wiresAt (shapes : TaShapes) (q : Box) (l : Int) : List Nat :=
  (shapes.filter fun s => decide (s.1 = l) && q.meets s.2.1).map fun s => s.2.2.1

/-- `assignIroute_getAlignCost` — src/ta/FlexTA_assign.cpp:749-781. -/
def alignCost (P : PanelTech) (net : Nat → Nat) (shapes : TaShapes) (p : Nat) (t : Int) (figs : List TaFig) : Int :=
  match figs.find? fun f => match f with
    | .seg l _ _ _ => (wiresAt shapes (f.onTrack P.horz t).line l).any fun q => decide (net q = net p)
    | .via _ _ _ => false with
  | some f => P.c.pitch f.layer
  | none => 0

/-- `assignIroute_getCost` — src/ta/FlexTA_assign.cpp:783-799; `(int)(0.05 * drc)` is `drc / 20`. -/
def totalCost (init : Bool) (pitch drc wlen pin align : Int) : Int :=
  max ((if init then drc / 20 else 32 * drc) + wlen + (if pin = 0 then 0 else 4 * pitch + pin) -
    (if align = 0 then 0 else 4 * pitch + align)) 0

/-! ### placing and removing wires -/

/-- state of a panel: figures of every wire, the cost tree, the shape tree, the recorded costs and their total `totCost` -/
structure TaSt where
  figs : Nat → List TaFig
  recs : List CostRec
  shapes : TaShapes
  cost : Nat → Int
  tot : Int

/-- records and shape of figure `k` of wire `p` -/
def recsOf (P : PanelTech) (p : Nat) (f : TaFig) (k : Nat) : List CostRec := figRecs P (.fig p k) f
def shapeOf (p : Nat) (f : TaFig) (k : Nat) : Int × Box × Nat × Nat := (f.layer, f.line, p, k)

/-- wires found by the queries made while the records are added or removed — e.g. src/ta/FlexTA_assign.cpp:107-122. -/
def foundBy (shapes : TaShapes) (rs : List CostRec) : List Nat := rs.flatMap fun r => wiresAt shapes r.box r.layer

/-- remove records, each once -/
def eraseAll (rs : List CostRec) (l : List CostRec) : List CostRec := rs.foldl List.erase l

/-- `assignIroute_init` after the first pass — src/ta/FlexTA_assign.cpp:1010-1020: remove the figures of wire `p` (figures with their numbers);
also returns the wires found. -/
def removeFigs (P : PanelTech) (p : Nat) : List (TaFig × Nat) → List CostRec × TaShapes → (List CostRec × TaShapes) × List Nat
  | [], s => (s, [])
  | (f, k) :: fs, s =>
    let sh := s.2.erase (shapeOf p f k)
    let rs := recsOf P p f k
    let r := removeFigs P p fs (eraseAll rs s.1, sh)
    (r.1, foundBy sh rs ++ r.2)

/-- `assignIroute_updateIroute`, second loop — src/ta/FlexTA_assign.cpp:1002-1006. -/
def addFigs (P : PanelTech) (p : Nat) : List (TaFig × Nat) → List CostRec × TaShapes → (List CostRec × TaShapes) × List Nat
  | [], s => (s, [])
  | (f, k) :: fs, s =>
    let rs := recsOf P p f k
    let r := addFigs P p fs (rs ++ s.1, shapeOf p f k :: s.2)
    (r.1, foundBy s.2 rs ++ r.2)

/-- the position of the first segment across the tracks — src/ta/FlexTA_assign.cpp:1033-1050; `none`: the program exits. -/
def trackOf (horz : Bool) : List TaFig → Option Int
  | [] => none
  | .seg _ b _ _ :: _ => some (if horz then b.y else b.x)
  | .via _ _ _ :: fs => trackOf horz fs

/-- recorded cost of a wire after `assignIroute_updateOthers` has looked at it — src/ta/FlexTA_assign.cpp:1051-1055. -/
def freshCost (P : PanelTech) (net : Nat → Nat) (recs : List CostRec) (figs : List TaFig) (q : Nat) : Option Int :=
  (trackOf P.horz figs).bind fun t => drcCost P net recs q t figs

/-- `assignIroute_updateOthers`, the costs and their total — src/ta/FlexTA_assign.cpp:1022-1061; `none`: the program exits. -/
def updateOthers (P : PanelTech) (net : Nat → Nat) (figs : Nat → List TaFig) (recs : List CostRec) :
    List Nat → (Nat → Int) × Int → Option ((Nat → Int) × Int)
  | [], m => some m
  | q :: qs, m =>
    match freshCost P net recs (figs q) q with
    | none => none
    | some c => updateOthers P net figs recs qs (fun x => if x = q then c else m.1 x, m.2 - m.1 q + c)

/-- the figures with their numbers -/
def numbered (figs : List TaFig) : List (TaFig × Nat) := figs.zipIdx

/-- the state in which `assignIroute_bestTrack` looks at the tracks: the wire has been taken out — src/ta/FlexTA_assign.cpp:1091-1096. -/
def takenOut (P : PanelTech) (s : TaSt) (p : Nat) : List CostRec × TaShapes :=
  (removeFigs P p (numbered (s.figs p)) (s.recs, s.shapes)).1

/-- `assignIroute` after the first pass, with track `t` chosen and cost `c` recorded by `assignIroute_bestTrack` —
src/ta/FlexTA_assign.cpp:964-967, 970-1061, 1091-1101. Also returns the wires looked at by `assignIroute_updateOthers`. -/
def reassign (P : PanelTech) (net : Nat → Nat) (s : TaSt) (p : Nat) (t c : Int) : Option (TaSt × List Nat) :=
  let r := removeFigs P p (numbered (s.figs p)) (s.recs, s.shapes)
  let fs := (s.figs p).map (TaFig.onTrack P.horz t)
  let a := addFigs P p (numbered fs) r.1
  let figs := fun q => if q = p then fs else s.figs q
  (updateOthers P net figs a.1.1 (r.2 ++ a.2) (fun q => if q = p then c else s.cost q, s.tot - s.cost p + c)).map fun m =>
    (⟨figs, a.1.1, a.1.2, m.1, m.2⟩, r.2 ++ a.2)

/-- what the choice of the track uses of a wire's guide: its layer, the borders of its GCell across the tracks, `getWlenHelper`, `getWlenHelper2` -/
structure WireGuide where
  l : Int
  lo : Int
  hi : Int
  w : Int
  w2 : Option Int

/-- `assignIroute_availTracks` and `assignIroute_bestTrack` (C34, C35) with the violation costs of the present state: chosen track and recorded
cost — src/ta/FlexTA_assign.cpp:574-596, 826-968. (The exits in the computation of a cost are not repeated here, they are excluded by C125.) -/
def chooseTrack (P : PanelTech) (net : Nat → Nat) (recs : List CostRec) (p : Nat) (figs : List TaFig) (g : WireGuide) : Option (Int × Int) :=
  let r := availTracks (P.locs g.l) g.lo g.hi
  let drc := fun i : Int => ((drcCost P net recs p ((P.locs g.l).getD i.toNat 0) figs).getD 0).toNat
  (bestTrack false (fun _ => 0) drc (P.locs g.l) g.w2 g.w r.1 r.2).map fun x => ((P.locs g.l).getD x.1.toNat 0, (x.2 : Int))

/-- `assignIroute` after the first pass — src/ta/FlexTA_assign.cpp:1063-1101. -/
def assignWire (P : PanelTech) (net : Nat → Nat) (G : Nat → WireGuide) (s : TaSt) (p : Nat) : Option (TaSt × List Nat) :=
  (chooseTrack P net (takenOut P s p).1 p (s.figs p) (G p)).bind fun x => reassign P net s p x.1 x.2

/-- `initCosts` in later passes, first part: all wires are added to the trees — src/ta/FlexTA_init.cpp:546-560. -/
def addWires (P : PanelTech) (figs : Nat → List TaFig) : List Nat → List CostRec × TaShapes → List CostRec × TaShapes
  | [], s => s
  | p :: ps, s => addWires P figs ps (addFigs P p (numbered (figs p)) s).1

/-- … and second part: the costs of the wires of the panel — src/ta/FlexTA_init.cpp:561-582. -/
def firstCosts (P : PanelTech) (net : Nat → Nat) (figs : Nat → List TaFig) (recs : List CostRec) :
    List Nat → (Nat → Int) × Int → Option ((Nat → Int) × Int)
  | [], m => some m
  | q :: qs, m =>
    match freshCost P net recs (figs q) q with
    | none => none
    | some c => firstCosts P net figs recs qs (fun x => if x = q then c else m.1 x, m.2 + c)

/-- `initCosts` in later passes — src/ta/FlexTA_init.cpp:546-582; `ext`: the wires of the neighbouring panels that reach into the surroundings. -/
def initCosts (P : PanelTech) (net : Nat → Nat) (figs : Nat → List TaFig) (fixed : List CostRec) (wires ext : List Nat) : Option TaSt :=
  let a := addWires P figs (wires ++ ext) (fixed, [])
  (firstCosts P net figs a.1 wires (fun _ => 0, 0)).map fun m => ⟨figs, a.1, a.2, m.1, m.2⟩

/-! ### a later pass -/

/-- state of `assign`: the panel, the wires to be reassigned, how often each was assigned, the buffer of the last 20 -/
structure PassSt where
  st : TaSt
  time : Nat
  todo : List Nat
  cnt : Nat → Nat
  buf : List Nat

/-- `assignIroute_updateOthers`, the set of wires to be reassigned — src/ta/FlexTA_assign.cpp:1032, 1056-1058. -/
def requeue (maxRetry : Nat) (cnt : Nat → Nat) (cost : Nat → Int) (todo : List Nat) (q : Nat) : List Nat :=
  let t := todo.filter fun x => decide (x ≠ q)
  if cost q ≠ 0 ∧ cnt q < maxRetry then q :: t else t

/-- a round of the loop of `assign` — src/ta/FlexTA_assign.cpp:1115-1137; which wire is taken (`popFromReassignIroutes`) is open. -/
def passStep (P : PanelTech) (net : Nat → Nat) (maxRetry : Nat) (G : Nat → WireGuide) (pick : Nat → Nat) (s : PassSt) : Option PassSt :=
  match s.todo[pick s.time % s.todo.length]? with
  | none => some s
  | some p =>
    let todo := s.todo.filter fun x => decide (x ≠ p)
    if p ∈ s.buf ∨ maxRetry ≤ s.cnt p then some ⟨s.st, s.time + 1, todo, s.cnt, s.buf⟩
    else
      (assignWire P net G s.st p).map fun r =>
        let cnt := fun x => if x = p then s.cnt x + 1 else s.cnt x
        ⟨r.1, s.time + 1, r.2.foldl (requeue maxRetry cnt r.1.cost) todo, cnt, (p :: s.buf).take 20⟩

/-- the loop, stopped after `fuel` rounds -/
def passRun (P : PanelTech) (net : Nat → Nat) (maxRetry : Nat) (G : Nat → WireGuide) (pick : Nat → Nat) : Nat → PassSt → Option PassSt
  | 0, s => some s
  | fuel + 1, s => if s.todo = [] then some s else (passStep P net maxRetry G pick s).bind (passRun P net maxRetry G pick fuel)

/-- `initCosts`, `sortIroutes`, `assign` of a later pass — src/ta/FlexTA_init.cpp:546-627, src/ta/FlexTA_assign.cpp:1103-1139. -/
def laterPass (P : PanelTech) (net : Nat → Nat) (figs : Nat → List TaFig) (fixed : List CostRec) (wires ext : List Nat) (maxRetry : Nat)
    (G : Nat → WireGuide) (pick : Nat → Nat) (fuel : Nat) : Option PassSt :=
  (initCosts P net figs fixed wires ext).bind fun s =>
    passRun P net maxRetry G pick fuel ⟨s, 0, wires.filter fun q => decide (s.cost q ≠ 0), fun _ => 0, []⟩

end TR
