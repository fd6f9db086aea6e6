import Verif.Track.Model
import Verif.Geom.Model
/-! # Model: the access points of the pins of a region

Models `initNet_term_new` (src/dr/FlexDR_init.cpp:1337-1497), `initNet_termGenAp_new` (866-1304), `getTrackLocs` (1307-1335) and
`initNets_numPinsIn` (1643-1714).

Simplifications:
* Coordinates are unbounded integers. The six directions of an access point are the fields of `ApDirs`; the definitions of vias are numbers.
* An access point found by pin access is told from the others by a number, in the place of its address.
* The shapes of a pin are rectangles (the code prints a message for anything else). They are given as they lie in the library; the rectangles of
  an instance's pin are moved by `upd` (`getUpdatedXform`), its access points by `at` (`getTransform`), without rotation.
* `setOnTrack`, which nothing reads, and the debug output are left out. `ENABLE_BOUNDARY_MAR_FIX` is the field `marFix`.
* The branches for `useCenterLine = false` are dead code. -/
namespace TR

/-- what these functions read of the technology and the block -/
structure ApTech where
  bottom : Int
  top : Int
  routing : Int → Bool
  horz : Int → Bool
  rectOnly : Int → Bool
  width : Int → Int
  minArea : Int → Option Int
  /-- `getTrackPatterns`: `isHorizontal`, pattern -/
  pats : Int → List (Bool × TrackPat)
  manuGrid : Int
  viaAccess : Int
  marFix : Bool

/-- `validAccess` — src/db/drObj/drAccessPattern.h:58-80. -/
structure ApDirs where
  e : Bool
  s : Bool
  w : Bool
  n : Bool
  u : Bool
  d : Bool
deriving DecidableEq, Repr

/-- `drAccessPattern` — src/db/drObj/drAccessPattern.h:37-42; `vias` is `vU` (`none` for the null pointer). -/
structure DrAp where
  layer : Int
  pt : Point
  cost : Int
  area : Int
  dirs : ApDirs
  vias : Option (List Nat)
deriving DecidableEq, Repr

/-- `frAccessPoint`, as pin access left it -/
structure PreAp where
  id : Nat
  layer : Int
  pt : Point
  dirs : ApDirs
  vias : List Nat
deriving DecidableEq, Repr

/-- a pin: its rectangles with their layers, and its access points for each class of instances (`getPinAccess`) -/
structure TermPin where
  shapes : List (Int × Box)
  access : List (List PreAp)

/-- the instance of a terminal: `getUpdatedXform`, `getTransform`, `getPinAccessIdx` (`none` for -1) and `frInstTerm::getAccessPoints` -/
structure TermInst where
  upd : Xform
  at' : Xform
  paIdx : Option Nat
  pref : List (Option Nat)

/-- a terminal of a net: an `frInstTerm` (with its instance) or an `frTerm` of the design -/
structure NetTerm where
  inst : Option TermInst
  pins : List TermPin

/-! ### the points of pin access -/

/-- `setBeginArea` — src/dr/FlexDR_init.cpp:964-968, 1034-1038, 1197-1201, 1283-1287, 1407-1413. -/
def apArea (T : ApTech) (l : Int) : Int := (T.minArea l).getD 0

/-- is a point of pin access used in the region? — src/dr/FlexDR_init.cpp:1421-1441. -/
def apKept (T : ApTech) (route : Box) (initDR : Bool) (p : Point) (l : Int) : Bool :=
  route.containsPt p &&
  !(initDR && decide (route.right = p.x) && decide (route.top = p.y)) &&
  !((decide (route.right = p.x) && !T.horz l && T.rectOnly l) || (decide (route.top = p.y) && T.horz l && T.rectOnly l))

/-- the body of the loop over the access points — src/dr/FlexDR_init.cpp:1381-1448. -/
def preAp (T : ApTech) (route : Box) (initDR : Bool) (shift : Xform) (pref : Option Nat) (a : PreAp) : Option DrAp :=
  let p := a.pt.transform shift
  if apKept T route initDR p a.layer then
    some ⟨a.layer, p, if pref = some a.id then 0 else 1, if T.marFix then apArea T a.layer else 0, a.dirs,
      if a.dirs.u = true ∧ a.vias ≠ [] then some a.vias else none⟩
  else none

/-- the loop over the pins; `k` is `pinIdx` — src/dr/FlexDR_init.cpp:1368-1450. -/
def preAps (T : ApTech) (route : Box) (initDR : Bool) (I : TermInst) : Nat → List TermPin → List DrAp
  | _, [] => []
  | k, p :: ps =>
    if p.access = [] then preAps T route initDR I k ps
    else match I.paIdx with
      | none => preAps T route initDR I k ps
      | some i =>
        (p.access.getD i []).filterMap (preAp T route initDR { I.at' with ori := .R0 } (I.pref.getD k none)) ++
          preAps T route initDR I (k + 1) ps

/-! ### temporary access points -/

/-- `getTrackLocs` — src/dr/FlexDR_init.cpp:1307-1335 (`isHorzTracks` makes no difference: every track is inserted before it is looked at). -/
def trackLocs (T : ApTech) (l lo hi : Int) : List Int :=
  coordVector (((T.pats l).filter fun p => p.1 != T.horz l).map (·.2)) lo (hi + 1)

/-- the layer whose tracks cross those of layer `l` — e.g. src/dr/FlexDR_init.cpp:907-913. -/
def crossLayer (T : ApTech) (l : Int) : Int :=
  if l + 2 ≤ T.top then l + 2 else if T.bottom ≤ l - 2 then l - 2 else l

/-- `boost::polygon::intersect` of a rectangle with the region: the common rectangle, which may be a line or a point —
src/dr/FlexDR_init.cpp:897-900. -/
def cutTo (route b : Box) : Option Box :=
  if b.left ≤ route.right ∧ route.left ≤ b.right ∧ b.bottom ≤ route.top ∧ route.bottom ≤ b.top then
    some ⟨⟨max b.left route.left, max b.bottom route.bottom⟩, ⟨min b.right route.right, min b.top route.top⟩⟩
  else none

/-- the rectangle of a pin in the design and its part in the region; `none` for layers that are not routing layers and rectangles outside —
src/dr/FlexDR_init.cpp:888-900, 1070-1083. -/
def shapeIn (T : ApTech) (route : Box) (x : Option Xform) (s : Int × Box) : Option (Int × Box × Box) :=
  if T.routing s.1 then
    let b := match x with
      | some t => s.2.transform t
      | none => s.2
    (cutTo route b).map fun c => (s.1, b, c)
  else none

/-- the x and y of tracks over a rectangle — src/dr/FlexDR_init.cpp:901-925. -/
def crossLocs (T : ApTech) (l : Int) (c : Box) : List Int × List Int :=
  if T.horz l then (trackLocs T (crossLayer T l) c.left c.right, trackLocs T l c.bottom c.top)
  else (trackLocs T l c.left c.right, trackLocs T (crossLayer T l) c.bottom c.top)

/-- the temporary point of an instance's pin — src/dr/FlexDR_init.cpp:929-968, 1011-1038: up is always allowed, down never. -/
def tempAp (T : ApTech) (l : Int) (p : Point) : DrAp :=
  let planar := decide (l ≠ T.viaAccess)
  ⟨l, p, 7, apArea T l, ⟨planar, planar, planar, planar, true, false⟩, none⟩

/-- first loop over the rectangles of a pin of an instance: a crossing of two tracks — src/dr/FlexDR_init.cpp:881-978. -/
def instTrackAp (T : ApTech) (route : Box) (initDR : Bool) : List (Int × Box × Box) → List DrAp
  | [] => []
  | (l, _, c) :: r =>
    match crossLocs T l c with
    | (x :: _, y :: _) =>
      if initDR = false ∨ (x ≠ route.right ∧ y ≠ route.top) then [tempAp T l ⟨x, y⟩] else instTrackAp T route initDR r
    | _ => instTrackAp T route initDR r

/-- a track over the rectangle or the middle of it — src/dr/FlexDR_init.cpp:1011-1023. -/
def trackOrMid (initDR : Bool) (locs : List Int) (lo hi : Int) : Int :=
  match locs, initDR with
  | v :: _, false => v
  | _, _ => (lo + hi).tdiv 2

/-- second loop over the rectangles of a pin of an instance — src/dr/FlexDR_init.cpp:981-1055. -/
def instMidAp (T : ApTech) (route : Box) (initDR : Bool) : List (Int × Box × Box) → List DrAp
  | [] => []
  | (l, _, c) :: r =>
    let x := trackOrMid initDR (crossLocs T l c).1 c.left c.right
    let y := trackOrMid initDR (crossLocs T l c).2 c.bottom c.top
    if initDR = false ∨ x ≠ route.right ∨ y ≠ route.top then [tempAp T l ⟨x, y⟩] else instMidAp T route initDR r

/-- the centre line of a pin of the design, on the manufacturing grid — src/dr/FlexDR_init.cpp:1113-1115, 1149-1151. -/
def centreLine (T : ApTech) (lo hi : Int) : Int := ((lo + hi).tdiv 2).tdiv T.manuGrid * T.manuGrid

/-- the bounds between which tracks are looked for when the centre line is outside — src/dr/FlexDR_init.cpp:1132-1137, 1168-1172. -/
def insetBy (w lo hi : Int) : Int × Int := if 2 * w ≤ hi - lo then (lo + w, hi - w) else (lo, hi)

/-- the x and y of the points tried on a rectangle of a pin of the design — src/dr/FlexDR_init.cpp:1084-1183. -/
def termLocs (T : ApTech) (route : Box) (l : Int) (b c : Box) : List Int × List Int :=
  if b.top - b.bottom < b.right - b.left then
    let m := centreLine T b.bottom b.top
    if route.bottom ≤ m ∧ m < route.top then (trackLocs T (crossLayer T l) c.left c.right, [m])
    else
      let r := insetBy (T.width l) c.left c.right
      (trackLocs T (crossLayer T l) r.1 r.2, trackLocs T l c.bottom c.top)
  else
    let m := centreLine T b.left b.right
    if route.left ≤ m ∧ m < route.right then ([m], trackLocs T (crossLayer T l) c.bottom c.top)
    else
      (trackLocs T l c.left c.right,
        if 2 * T.width l ≤ c.top - c.bottom then trackLocs T (crossLayer T l) (c.bottom + T.width l) (c.top - T.width l) else [])

/-- the points of one rectangle of a pin of the design — src/dr/FlexDR_init.cpp:1187-1233. -/
def termRectAps (T : ApTech) (route : Box) (initDR : Bool) (l : Int) (b c : Box) : List DrAp :=
  let z := decide (b.top - b.bottom < b.right - b.left)
  let q := termLocs T route l b c
  q.1.flatMap fun x => q.2.filterMap fun y =>
    if (initDR = false ∨ x ≠ route.right ∨ y ≠ route.top) ∧
        (route.left ≤ x ∧ x < route.right ∧ route.bottom ≤ y ∧ y < route.top) then
      some ⟨l, ⟨x, y⟩, 0, apArea T l, ⟨z, !z, z, !z, false, false⟩, none⟩
    else none

/-- first loop over the rectangles of a pin of the design — src/dr/FlexDR_init.cpp:1064-1243. -/
def termTrackAps (T : ApTech) (route : Box) (initDR : Bool) : List (Int × Box × Box) → List DrAp
  | [] => []
  | (l, b, c) :: r =>
    if termRectAps T route initDR l b c ≠ [] then termRectAps T route initDR l b c else termTrackAps T route initDR r

/-- the middle of the whole rectangle if it is in the region, else the middle of the part in the region — src/dr/FlexDR_init.cpp:1264-1277. -/
def midIn (lo hi rlo rhi clo chi : Int) : Int :=
  if rlo ≤ (lo + hi).tdiv 2 ∧ (lo + hi).tdiv 2 < rhi then (lo + hi).tdiv 2 else (clo + chi).tdiv 2

/-- second loop over the rectangles of a pin of the design — src/dr/FlexDR_init.cpp:1246-1297. -/
def termMidAp (T : ApTech) (route : Box) (initDR : Bool) : List (Int × Box × Box) → List DrAp
  | [] => []
  | (l, b, c) :: r =>
    let x := midIn b.left b.right route.left route.right c.left c.right
    let y := midIn b.bottom b.top route.bottom route.top c.bottom c.top
    if initDR = false ∨ x ≠ route.right ∨ y ≠ route.top then
      [⟨l, ⟨x, y⟩, 0, apArea T l, ⟨true, true, true, true, true, true⟩, none⟩]
    else termMidAp T route initDR r

/-- the points of one pin — src/dr/FlexDR_init.cpp:879-1055 and 1061-1299. -/
def tempPin (T : ApTech) (route : Box) (initDR : Bool) (x : Option Xform) (p : TermPin) : List DrAp :=
  let ss := p.shapes.filterMap (shapeIn T route x)
  match x with
  | some _ => instTrackAp T route initDR ss ++ instMidAp T route initDR ss
  | none => if termTrackAps T route initDR ss ≠ [] then termTrackAps T route initDR ss else termMidAp T route initDR ss

/-- does the code divide by the manufacturing grid? — src/dr/FlexDR_init.cpp:1115, 1151: in the first loop, for the first rectangle of the design's
terminal that is in the region. -/
def usesGrid (T : ApTech) (route : Box) (n : NetTerm) : Bool :=
  n.inst.isNone && n.pins.any fun p => !(p.shapes.filterMap (shapeIn T route none)).isEmpty

/-- `initNet_termGenAp_new` — src/dr/FlexDR_init.cpp:866-1304. -/
def tempAps (T : ApTech) (route : Box) (initDR : Bool) (n : NetTerm) : List DrAp :=
  n.pins.flatMap (tempPin T route initDR (n.inst.map (·.upd)))

/-- what becomes of a terminal: access points, the program ends with the message "still does not have temp ap", or it divides by zero -/
inductive TermOut where
  | aps (l : List DrAp)
  | exit
  | divZero

/-- the points of pin access; a terminal of the design has none (`pinAccessIdx` is -1) — src/dr/FlexDR_init.cpp:1367-1450. -/
def foundAps (T : ApTech) (route : Box) (initDR : Bool) (n : NetTerm) : List DrAp :=
  match n.inst with
  | some I => preAps T route initDR I 0 n.pins
  | none => []

/-- one round of `initNet_term_new` — src/dr/FlexDR_init.cpp:1340-1496. -/
def termAps (T : ApTech) (route : Box) (initDR : Bool) (n : NetTerm) : TermOut :=
  if foundAps T route initDR n ≠ [] then .aps (foundAps T route initDR n)
  else if usesGrid T route n = true ∧ T.manuGrid = 0 then .divZero
  else if tempAps T route initDR n ≠ [] then .aps (tempAps T route initDR n) else .exit

/-! ### how many pins lie among the pins of a net -/

/-- the point that stands for a pin: the first access point of cost 0, else the first — src/dr/FlexDR_init.cpp:1648-1664, 1674-1690; `none` for
a pin without access points, where the code follows a null pointer. -/
def pinSpot (aps : List DrAp) : Option Point :=
  match aps.find? fun a => a.cost == 0 with
  | some a => some a.pt
  | none => aps.head?.map (·.pt)

/-- the loop that widens the box — src/dr/FlexDR_init.cpp:1669-1702. -/
def spotBox (ext : Box) (spots : List Point) : Int × Int × Int × Int :=
  spots.foldl (fun q p => (if p.x < q.1 then p.x else q.1, if p.x > q.2.1 then p.x else q.2.1,
      if p.y < q.2.2.1 then p.y else q.2.2.1, if p.y > q.2.2.2 then p.y else q.2.2.2))
    (ext.right, ext.left, ext.top, ext.bottom)

/-- `numPinsIn` and `pinBox` of a net — src/dr/FlexDR_init.cpp:1703-1713. -/
def pinsAmong (ext : Box) (all : List Point) (spots : List Point) : Nat × Box :=
  let q := spotBox ext spots
  if q.1 ≤ q.2.1 ∧ q.2.2.1 ≤ q.2.2.2 then
    ((all.filter fun p => (Box.mk4 q.1 q.2.2.1 q.2.1 q.2.2.2).containsPt p).length, Box.mk4 q.1 q.2.2.1 q.2.1 q.2.2.2)
  else (99999, ext)

/-- `initNets_numPinsIn`: for each net, given the access points of each of its pins; `none` if a pin has none —
src/dr/FlexDR_init.cpp:1643-1714. -/
def numPinsIn (ext : Box) (nets : List (List (List DrAp))) : Option (List (Nat × Box)) :=
  (nets.mapM fun (pins : List (List DrAp)) => pins.mapM pinSpot).map fun spots => spots.map (pinsAmong ext spots.flatten)

end TR
