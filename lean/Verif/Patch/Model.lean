import Verif.Seek.Model
import Verif.Track.Model
import Verif.WB.Model
/-!
# Patches for the minimum-area rule

Models `routeNet_postAstarPatchMinAreaVio`, `routeNet_postAstarAddPathMetal_isClean`,
`routeNet_postAstarAddPatchMetal` and `..._addPWire` (src/dr/FlexDR_maze.cpp:2990-3437), the map of
areas (2928-2941), `initNets_boundaryArea` (src/dr/FlexDR_init.cpp:1716-1805) and
`init_halfViaEncArea` (src/dr/FlexDR.cpp:1049-1070).

Simplifications:
* areas and lengths are unbounded integers (32-bit `int` in the code; products may overflow there).
* the length of a patch is computed in floating point in the code; the model takes the exact
  quotient rounded up (the factors are below 2^31, so the code can differ only by rounding an exact
  quotient up).
* layers are identified by their grid level z where the code goes through `getLayerNum(z)`.
* the flag `ENABLE_BOUNDARY_MAR_FIX` has its default value `true` (src/global.cpp:62).
-/
namespace TR

/-- What the patches depend on: minimum area, default width and preferred direction of the layers
(by level), half of the enclosure areas of the default vias (by lower level), manufacturing grid. -/
structure PatchTech where
  minArea : Int → Option Int
  width : Int → Int
  horz : Int → Bool
  halfEnc : Int → Int × Int
  mfg : Int

/-- `minAreaConstraint ? minAreaConstraint->getMinArea() : 0` — src/dr/FlexDR_maze.cpp:3056. -/
def PatchTech.req (T : PatchTech) (z : Int) : Int := (T.minArea z).getD 0

/-- `getHalfViaEncArea` — src/dr/FlexGridGraph.h:735-737. -/
def PatchTech.half (T : PatchTech) (z : Int) (isLayer1 : Bool) : Int :=
  if isLayer1 then (T.halfEnc z).1 else (T.halfEnc z).2

/-- one entry of `init_halfViaEncArea` — src/dr/FlexDR.cpp:1057-1068: the boxes of the default via on
its lower and upper layer; `none`: no cut layer above. -/
def halfEncOf (via : Option (Box × Box)) : Int × Int :=
  match via with
  | some (b1, b2) => (b1.width * b1.length / 2, b2.width * b2.length / 2)
  | none => (0, 0)

/-- levels strictly before the target when going from level `a` towards `b` -/
def levels (a b : Int) : List Int :=
  if a < b then (List.range (b - a).toNat).map (fun (k : Nat) => a + k)
  else (List.range (a - b).toNat).map (fun (k : Nat) => a - k)

/-- The corner points of a path with stacked vias taken apart — src/dr/FlexDR_maze.cpp:2994-3014. -/
def patchPoints : List MIdx → List MIdx
  | [] => []
  | [p] => [p]
  | p :: q :: rest =>
    (if p.z = q.z then [p] else (levels p.z q.z).map (fun z => ⟨p.x, p.y, z⟩)) ++ patchPoints (q :: rest)

/-- a request for a patch: the two ends, the missing area, and for each end whether the patch goes
to the left (or down) -/
structure PatchReq where
  bp : MIdx
  ep : MIdx
  gap : Int
  bpLeft : Bool
  epLeft : Bool
deriving DecidableEq, Repr

/-- `points[i]` -/
def ptAt (pts : List MIdx) (i : Nat) : MIdx := pts.getD i ⟨0, 0, 0⟩

/-- side of the patch at a point `p` whose neighbour is `q`, `o` being the other end of the run —
src/dr/FlexDR_maze.cpp:3089-3098 and the seven copies below it. -/
def patchSide (horz : Bool) (p q o : MIdx) : Bool :=
  let c := fun m : MIdx => if horz then m.x else m.y
  if c p < c q then true
  else if c p > c q then false
  else decide (c p < c o)

/-- the request made for the run `points[prevI..i-1]` — src/dr/FlexDR_maze.cpp:3070-3137 and 3171-3236. -/
def patchReqOf (T : PatchTech) (pts : List MIdx) (prevI i : Nat) (area s e : Int) : PatchReq :=
  let z := (ptAt pts (i - 1)).z
  let gap := T.req z - (area - s - e) - min s e
  if i - 1 = prevI then ⟨ptAt pts (i - 1), ptAt pts (i - 1), gap, true, false⟩
  else
    let bp := ptAt pts prevI
    let ep := ptAt pts (i - 1)
    ⟨bp, ep, gap, patchSide (T.horz z) bp (ptAt pts (prevI + 1)) ep,
      patchSide (T.horz z) ep (ptAt pts (i - 2)) bp⟩

/-- local variables of the loop -/
structure PatchSt where
  area : Int
  start : Int
  prevI : Nat
  out : List PatchReq
deriving DecidableEq, Repr

/-- one turn of the loop — src/dr/FlexDR_maze.cpp:3046-3157. -/
def patchStep (g : Grid) (T : PatchTech) (pts : List MIdx) (st : PatchSt) (i : Nat) : PatchSt :=
  let prev := ptAt pts (i - 1)
  let curr := ptAt pts i
  if curr.z ≠ prev.z then
    let e := if curr.z < prev.z then T.half (prev.z - 1) false else T.half prev.z true
    let area := st.area + e
    let out := if area < T.req prev.z then st.out ++ [patchReqOf T pts st.prevI i area st.start e] else st.out
    let s := if curr.z < prev.z then T.half (prev.z - 1) true else T.half prev.z false
    { area := s, start := s, prevI := i, out }
  else
    let len := (coordAt g.xs prev.x - coordAt g.xs curr.x).natAbs + (coordAt g.ys prev.y - coordAt g.ys curr.y).natAbs
    if st.area < T.req prev.z then { st with area := st.area + len * T.width prev.z } else st

/-- the part after the loop — src/dr/FlexDR_maze.cpp:3159-3243. -/
def patchLast (T : PatchTech) (amap : MIdx → Option Int) (pts : List MIdx) (st : PatchSt) : List PatchReq :=
  let n := pts.length
  let prev := ptAt pts (n - 1)
  let area := st.area + (amap prev).getD 0
  if area < T.req prev.z then st.out ++ [patchReqOf T pts st.prevI n area st.start 0] else st.out

/-- all requests for a path — src/dr/FlexDR_maze.cpp:2990-3243. `amap` is the map of areas. -/
def patchReqs (g : Grid) (T : PatchTech) (amap : MIdx → Option Int) (path : List MIdx) : List PatchReq :=
  match patchPoints path with
  | [] => []
  | p :: ps =>
    let st : PatchSt := { area := (amap p).getD (T.req p.z), start := 0, prevI := 0, out := [] }
    patchLast T amap (p :: ps) ((List.range ps.length).foldl (fun st k => patchStep g T (p :: ps) st (k + 1)) st)

/-! ### choice and shape of a patch -/

/-- what the choice of the end depends on besides the grid: route box and cost factors -/
structure PatchEnv where
  routeBox : Box
  drc : Nat
  marker : Nat

/-- far end of the centre line of a patch — src/dr/FlexDR_maze.cpp:3256-3269. -/
def patchEnd (o : Point) (horz left : Bool) (len : Int) : Point :=
  if horz then (if left then ⟨o.x - len, o.y⟩ else ⟨o.x + len, o.y⟩)
  else (if left then ⟨o.x, o.y - len⟩ else ⟨o.x, o.y + len⟩)

/-- cost of one edge under the patch — src/dr/FlexDR_maze.cpp:3294-3311 and 3318-3335. -/
def patchEdgeCost (g : Grid) (S : SeekTech) (E : PatchEnv) (n : MIdx) (d : Dir) : Nat :=
  (if g.hasDRCCost n d then g.edgeLen S n d * E.drc else 0)
    + (if g.hasShapeCost n d then g.edgeLen S n d * 8 else 0)
    + (if g.hasMarkerCost n d then g.edgeLen S n d * E.marker else 0)

/-- `routeNet_postAstarAddPathMetal_isClean` — src/dr/FlexDR_maze.cpp:3248-3340. `none` is the
largest `int`: the patch would leave the route box. The bounding box of the two ends uses `min` and
`max` of points, which for points on one axis-parallel line are the lower and upper one. -/
def patchCost (g : Grid) (S : SeekTech) (E : PatchEnv) (bp : MIdx) (horz left : Bool) (len : Int) : Option Nat :=
  let o : Point := ⟨coordAt g.xs bp.x, coordAt g.ys bp.y⟩
  let e := patchEnd o horz left len
  if !E.routeBox.containsPt e then none
  else
    let box : Box := if Point.lt e o then ⟨e, o⟩ else ⟨o, e⟩
    let ib := g.idxBox box
    if horz then
      let lo := max 0 (ib.1.1 - 1)
      some (((List.range (ib.2.1 - lo).toNat).map
        (fun (k : Nat) => patchEdgeCost g S E ⟨lo + k, bp.y, bp.z⟩ .E)).sum)
    else
      let lo := max 0 (ib.1.2 - 1)
      some (((List.range (ib.2.2 - lo).toNat).map
        (fun (k : Nat) => patchEdgeCost g S E ⟨bp.x, lo + k, bp.z⟩ .N)).sum)

/-- comparison of two results of `isClean` -/
def patchLe : Option Nat → Option Nat → Bool
  | _, none => true
  | none, some _ => false
  | some a, some b => decide (a ≤ b)

/-- length of a patch — src/dr/FlexDR_maze.cpp:3396-3397: `gap / width / grid` rounded up, times the grid. -/
def marLen (T : PatchTech) (gap w : Int) : Int := -((-gap) / (w * T.mfg)) * T.mfg

/-- `routeNet_postAstarAddPatchMetal_addPWire` — src/dr/FlexDR_maze.cpp:3343-3373. The level stands for
the layer number; `/ 2` of the code truncates, the width is positive. -/
def patchWire (g : Grid) (net : Nat) (bp : MIdx) (horz left : Bool) (len w : Int) : DPatch :=
  let h := w.tdiv 2
  { net, layer := bp.z, o := ⟨coordAt g.xs bp.x, coordAt g.ys bp.y⟩,
    off :=
      if horz then (if left then ⟨⟨0 - len, 0 - h⟩, ⟨0, 0 + h⟩⟩ else ⟨⟨0, 0 - h⟩, ⟨0 + len, 0 + h⟩⟩)
      else (if left then ⟨⟨0 - h, 0 - len⟩, ⟨0 + h, 0⟩⟩ else ⟨⟨0 - h, 0⟩, ⟨0 + h, 0 + len⟩⟩) }

/-- `routeNet_postAstarAddPatchMetal` — src/dr/FlexDR_maze.cpp:3387-3437. -/
def patchMetal (g : Grid) (S : SeekTech) (T : PatchTech) (E : PatchEnv) (net : Nat) (r : PatchReq) : DPatch :=
  let w := T.width r.bp.z
  let len := marLen T r.gap w
  let horz := T.horz r.bp.z
  let costL := patchCost g S E r.bp horz r.bpLeft len
  let costR := patchCost g S E r.ep horz r.epLeft len
  if patchLe costL costR then patchWire g net r.bp horz r.bpLeft len w
  else patchWire g net r.ep horz r.epLeft len w

/-- the patches added for a path — src/dr/FlexDR_maze.cpp:2990-3437. -/
def patchesFor (g : Grid) (S : SeekTech) (T : PatchTech) (E : PatchEnv) (net : Nat) (amap : MIdx → Option Int)
    (path : List MIdx) : List DPatch := (patchReqs g T amap path).map (patchMetal g S T E net)

/-! ### areas at the access points -/

/-- `routeNet_prepAreaMap` — src/dr/FlexDR_maze.cpp:2928-2941: `aps` lists node and area of all access
points of the net in order. -/
def areaMap (aps : List (MIdx × Int)) : MIdx → Option Int :=
  aps.foldl (fun m a n => if n = a.1 then some (match m n with | some v => max v a.2 | none => a.2) else m n)
    (fun _ => none)

/-- an object of the net that the region query returns at the access point -/
inductive AObj where
  | seg (b e : Point) (width : Int)
  | via (o : Point)
  | patch (o : Point)
deriving DecidableEq, Repr

/-- the first via or patch at `p` among the results, counted with its box — the inner loops of
src/dr/FlexDR_init.cpp:1751-1771 and 1782-1802. Both run over `results`, the objects at the access
point, although the query at the far end just before fills `results2`. -/
def farArea (p : Point) : List (Box × AObj) → Int
  | [] => 0
  | (b, .via o) :: rs => if o = p then b.width * b.length / 2 else farArea p rs
  | (b, .patch o) :: rs => if o = p then b.width * b.length else farArea p rs
  | (_, .seg ..) :: rs => farArea p rs

/-- the area one object adds — src/dr/FlexDR_init.cpp:1739-1804. -/
def segArea (routeBox : Box) (bp : Point) (results : List (Box × AObj)) : AObj → Int
  | .seg b e w =>
    (if bp = b ∧ routeBox.containsPt e = false then
      ((e.x - b.x).natAbs + (e.y - b.y).natAbs) * w + farArea e results else 0)
    + (if routeBox.containsPt b = false ∧ bp = e then
      ((e.x - b.x).natAbs + (e.y - b.y).natAbs) * w + farArea b results else 0)
  | _ => 0

/-- the area of an access point on the boundary — src/dr/FlexDR_init.cpp:1730-1810: `objs` are the
objects of the net on the layer with their boxes; the query returns those whose box contains the
point. -/
def boundaryArea (routeBox : Box) (bp : Point) (objs : List (Box × AObj)) : Int :=
  let results := objs.filter (fun o => o.1.containsPt bp)
  (results.map (fun o => segArea routeBox bp results o.2)).sum

end TR
