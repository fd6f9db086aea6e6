import Verif.PA.Track.Model
/-! # Pin access: generation and selection of access points

Models `prepPoint_pin` and the functions it calls, `src/pa/FlexPA_prep.cpp:104-480, 481-515, 593-886, 922-1117`.

Simplifications: coordinates are unbounded integers; the maximal rectangles of the pin's merged shapes (after placement) are given for every layer;
the geometry checker is an arbitrary function of the point, the layer and the wire direction or via tried; every routing layer is either horizontal
or vertical; there is a second routing layer (otherwise the program exits). -/
namespace TR

/-- a via definition: its boxes on the lower and the upper metal layer, with the origin at 0 -/
structure PVia where
  l1 : Box
  l2 : Box

/-- technology data used here -/
structure PaTech where
  bottom : Int
  top : Int
  grid : Int
  pats : List PTrack
  vert : Int → Bool
  routing : Int → Bool
  width : Int → Int
  minWidth : Int → Int
  rectOnly : Int → Bool
  onGridOnly : Int → Bool
  /-- single-cut vias of a cut layer, in the order of their priority (`layerNum2ViaDefs[l][1]`) -/
  vias : Int → List PVia
  viaInPinLo : Int
  viaInPinHi : Int
  /-- `VIA_ACCESS_LAYERNUM` -/
  viaLayer : Int

/-- kind of pin: standard cell, macro or pad, cell of another class, top level — src/pa/FlexPA_prep.cpp:405-422, 926-934. -/
inductive PinKind
  | std | macro | other | io
deriving DecidableEq

/-- `frAccessPoint` — src/db/obj/frAccess.h:40-215. `lowT`, `highT`: types in the two directions; `vias`: indices of the usable via definitions -/
structure AccPt where
  pt : Point
  layer : Int
  e : Bool
  s : Bool
  w : Bool
  n : Bool
  u : Bool
  lowT : Nat
  highT : Nat
  vias : List Nat
deriving DecidableEq

/-- `trackCoords[layerNum]` -/
def PaTech.coords (T : PaTech) (l : Int) : CMap := layerCoords T.grid T.pats l (T.vert l)

/-- src/pa/FlexPA_prep.cpp:300-308. -/
def PaTech.second (T : PaTech) (l : Int) : Int := if l + 2 ≤ T.top then l + 2 else l - 2

/-- `prepPoint_pin_genPoints_rect_genGrid` — src/pa/FlexPA_prep.cpp:104-113. -/
def genGrid (tracks : CMap) (low high : Int) (coords : CMap) : CMap :=
  ((tracks.dropWhile (fun e => decide (e.1 < low))).takeWhile (fun e => !decide (e.1 > high))).foldl (fun m e => cInsert e.1 e.2 m) coords

/-- the coordinates counted — src/pa/FlexPA_prep.cpp:120-129. -/
def onGridCount (low high : Int) (coords : CMap) : Nat :=
  (((coords.dropWhile (fun e => decide (e.1 < low))).takeWhile (fun e => !decide (e.1 > high))).filter (fun e => e.2 == 0)).length

/-- `prepPoint_pin_genPoints_rect_genCenter` — src/pa/FlexPA_prep.cpp:116-146. -/
def genCenter (grid low high : Int) (coords : CMap) : CMap :=
  if onGridCount low high coords ≥ 2 then coords else cCap (halfCoord grid low high) 2 coords

/-- one via of `genEnc` — src/pa/FlexPA_prep.cpp:248-290. -/
def encVia (rect : Box) (horz : Bool) (coords : CMap) (v : PVia) : CMap :=
  if v.l1.right - v.l1.left > rect.right - rect.left ∨ v.l1.top - v.l1.bottom > rect.top - rect.bottom then coords
  else if horz then cCap (rect.bottom - v.l1.bottom) 3 (cCap (rect.top - v.l1.top) 3 coords)
  else cCap (rect.left - v.l1.left) 3 (cCap (rect.right - v.l1.right) 3 coords)

/-- `prepPoint_pin_genPoints_rect_genEnc` — src/pa/FlexPA_prep.cpp:228-292. -/
def genEnc (T : PaTech) (rect : Box) (l : Int) (horz : Bool) (coords : CMap) : CMap :=
  if l + 1 > T.top then coords else ((T.vias (l + 1)).take 2).foldl (encVia rect horz) coords

/-- coordinates in one direction: tracks, centre and enclosure positions as the type asks — src/pa/FlexPA_prep.cpp:332-366. `horz`: the coordinates
are ordinates -/
def axisCoords (T : PaTech) (rect : Box) (l tl : Int) (horz : Bool) (type : Nat) : CMap :=
  let low := if horz then rect.bottom else rect.left
  let high := if horz then rect.top else rect.right
  let m0 := genGrid (T.coords tl) low high []
  let m1 := if type ≥ 2 then genCenter T.grid low high m0 else m0
  if type ≥ 3 then genEnc T rect l horz m1 else m1

/-- `prepPoint_pin_genPoints_rect`: a narrow macro pin along its layer's direction is accessed on its centre line — src/pa/FlexPA_prep.cpp:316-329.
`guess_orientation` of boost: horizontal if at least as wide as high. -/
def useCenterLine (T : PaTech) (rect : Box) (l : Int) (isMacro : Bool) : Bool :=
  isMacro &&
  (if rect.right - rect.left ≥ rect.top - rect.bottom then !T.vert l && decide (rect.top - rect.bottom < 2 * T.width l)
   else T.vert l && decide (rect.right - rect.left < 2 * T.width l))

/-- the access point made by `prepPoint_pin_genPoints_rect_ap_helper` — src/pa/FlexPA_prep.cpp:162-205. -/
def newAp (T : PaTech) (p : Point) (l : Int) (planar via : Bool) (lowT highT : Nat) : AccPt :=
  let along := planar && !(T.onGridOnly l && lowT != 0)
  let across := planar && !T.rectOnly l
  { pt := p, layer := l
    e := if T.vert l then across else along
    w := if T.vert l then across else along
    s := if T.vert l then along else across
    n := if T.vert l then along else across
    u := via, lowT := lowT, highT := highT, vias := [] }

/-- access points collected so far and the set of (point, layer) pairs -/
abbrev ApState := List AccPt × List (Point × Int)

/-- `prepPoint_pin_genPoints_rect_ap_helper` — src/pa/FlexPA_prep.cpp:148-208. -/
def apHelper (T : PaTech) (rect : Box) (l : Int) (planar via : Bool) (p : Point) (lowT highT : Nat) (st : ApState) : ApState :=
  if !rect.containsPt p then st
  else if st.2.contains (p, l) then st
  else (st.1 ++ [newAp T p l planar via lowT highT], (p, l) :: st.2)

/-- one pair of coordinates — src/pa/FlexPA_prep.cpp:218-223. -/
def rectApPair (T : PaTech) (rect : Box) (l : Int) (planar via : Bool) (lt ut : Nat) (st : ApState) (x y : Int × Nat) : ApState :=
  let lowCost := if T.vert l then x.2 else y.2
  let highCost := if T.vert l then y.2 else x.2
  if lowCost = lt ∧ highCost = ut then apHelper T rect l planar via ⟨x.1, y.1⟩ lowCost highCost st else st

/-- `prepPoint_pin_genPoints_rect_ap` — src/pa/FlexPA_prep.cpp:210-226. -/
def rectAp (T : PaTech) (rect : Box) (l : Int) (planar via : Bool) (xs ys : CMap) (lt ut : Nat) (st : ApState) : ApState :=
  xs.foldl (fun st x => ys.foldl (fun st y => rectApPair T rect l planar via lt ut st x y) st) st

/-- coordinates along the layer's own tracks and their type — src/pa/FlexPA_prep.cpp:332-384. -/
def lowCoords (T : PaTech) (rect : Box) (l : Int) (isMacro : Bool) (lt : Nat) : CMap :=
  if useCenterLine T rect l isMacro then
    (genCenter T.grid (if T.vert l then rect.left else rect.bottom) (if T.vert l then rect.right else rect.top) []).map (fun e => (e.1, 0))
  else axisCoords T rect l l (!T.vert l) lt

/-- `lowerType` is reset to 0 for a horizontal layer only — src/pa/FlexPA_prep.cpp:363-364. -/
def lowType (T : PaTech) (rect : Box) (l : Int) (isMacro : Bool) (lt : Nat) : Nat :=
  if useCenterLine T rect l isMacro && !T.vert l then 0 else lt

/-- `prepPoint_pin_genPoints_rect` — src/pa/FlexPA_prep.cpp:293-391. -/
def genRect (T : PaTech) (l : Int) (planar via : Bool) (lt ut : Nat) (isMacro : Bool) (st : ApState) (rect : Box) : ApState :=
  if min (rect.right - rect.left) (rect.top - rect.bottom) < T.minWidth l then st
  else
    let low := lowCoords T rect l isMacro lt
    let high := axisCoords T rect l (T.second l) (T.vert l) ut
    if T.vert l then rectAp T rect l planar via low high (lowType T rect l isMacro lt) ut st
    else rectAp T rect l planar via high low (lowType T rect l isMacro lt) ut st

/-- `allowPlanar` — src/pa/FlexPA_prep.cpp:403-422. -/
def allowPlanar (T : PaTech) (k : PinKind) (l : Int) : Bool :=
  !(k == .std && ((decide (l ≥ T.viaInPinLo) && decide (l ≤ T.viaInPinHi)) || decide (l ≤ T.viaLayer)))

/-- `isMacroCellPin` of `layerShapes` — src/pa/FlexPA_prep.cpp:415-425. -/
def likeMacro (k : PinKind) : Bool := k == .macro || k == .io

/-- `allowVia` — src/pa/FlexPA_prep.cpp:426, 453-458. -/
def allowVia (T : PaTech) (k : PinKind) (l : Int) : Bool := (l == T.viaLayer || l == T.viaLayer + 2) && k != .io

/-- `prepPoint_pin_genPoints_layerShapes` — src/pa/FlexPA_prep.cpp:394-437. -/
def genLayer (T : PaTech) (k : PinKind) (shapes : Int → List Box) (lt ut : Nat) (st : ApState) (l : Int) : ApState :=
  if !T.routing l then st
  else if !likeMacro k && decide (l + 2 ≤ T.top) && T.onGridOnly (l + 2) && ut != 0 then st
  else (shapes l).foldl (genRect T l (allowPlanar T k l) (allowVia T k l) lt ut (likeMacro k)) st

/-- layers from the highest to the lowest -/
def layersDown (n : Nat) : List Int := (List.range n).reverse.map (fun (i : Nat) => (i : Int))

/-- `prepPoint_pin_genPoints` — src/pa/FlexPA_prep.cpp:445-479. `n`: number of layers -/
def genPoints (T : PaTech) (k : PinKind) (n : Nat) (shapes : Int → List Box) (lt ut : Nat) (st : ApState) : ApState :=
  (layersDown n).foldl (genLayer T k shapes lt ut) st

inductive PDir
  | E | S | W | N
deriving DecidableEq

/-- the geometry checker (true: no violation) and the cell's boundary box -/
structure PaEnv where
  planar : Point → Int → PDir → Bool
  via : Point → Int → Nat → Bool
  bbox : Option Box

def AccPt.get (a : AccPt) : PDir → Bool
  | .E => a.e
  | .S => a.s
  | .W => a.w
  | .N => a.n

def AccPt.set (a : AccPt) (d : PDir) (b : Bool) : AccPt :=
  match d with
  | .E => { a with e := b }
  | .S => { a with s := b }
  | .W => { a with w := b }
  | .N => { a with n := b }

/-- `hasAccess()`; access from below is never set -/
def AccPt.any (a : AccPt) : Bool := a.e || a.s || a.w || a.n || a.u

/-- end point of the wire tried: two wire widths away (`stepSizeMultiplier`) — src/pa/FlexPA_prep.cpp:481-505; FlexPA.h. -/
def planarEnd (T : PaTech) (a : AccPt) : PDir → Point
  | .W => ⟨a.pt.x - 2 * T.width a.layer, a.pt.y⟩
  | .E => ⟨a.pt.x + 2 * T.width a.layer, a.pt.y⟩
  | .S => ⟨a.pt.x, a.pt.y - 2 * T.width a.layer⟩
  | .N => ⟨a.pt.x, a.pt.y + 2 * T.width a.layer⟩

/-- `prepPoint_pin_checkPoint_planar` — src/pa/FlexPA_prep.cpp:593-682. -/
def checkPlanar (T : PaTech) (E : PaEnv) (k : PinKind) (shapes : Int → List Box) (d : PDir) (a : AccPt) : AccPt :=
  if !a.get d then a
  else if k == .std && (shapes a.layer).any (fun r => r.containsPt (planarEnd T a d)) then a.set d false
  else a.set d (E.planar a.pt a.layer d)

/-- a box moved -/
def Box.shift (b : Box) (p : Point) : Box := ⟨⟨b.left + p.x, b.bottom + p.y⟩, ⟨b.right + p.x, b.top + p.y⟩⟩

/-- smallest of a list, `d` if there is none -/
def minOf (d : Int) : List Int → Int
  | [] => d
  | a :: l => l.foldl min a

def maxOf (d : Int) : List Int → Int
  | [] => d
  | a :: l => l.foldl max a

/-- how far the via's metal extends beyond the bounding box of its intersection with the pin: left, right, bottom, top —
src/pa/FlexPA_prep.cpp:733-744. `extents` of an empty set leaves the rectangle (0,0,0,0). -/
def viaExts (v : Box) (shapes : List Box) : Int × Int × Int × Int :=
  let hit := shapes.filter (fun r => decide (max r.left v.left < min r.right v.right) && decide (max r.bottom v.bottom < min r.top v.top))
  (max 0 (minOf 0 (hit.map (fun r => max r.left v.left)) - v.left), max 0 (- maxOf 0 (hit.map (fun r => min r.right v.right)) + v.right),
   max 0 (minOf 0 (hit.map (fun r => max r.bottom v.bottom)) - v.bottom), max 0 (- maxOf 0 (hit.map (fun r => min r.top v.top)) + v.top))

/-- via metal must stay inside the pin — src/pa/FlexPA_prep.cpp:698-703. -/
def viaInPin (T : PaTech) (a : AccPt) : Bool :=
  (decide (a.layer ≥ T.viaInPinLo) && decide (a.layer ≤ T.viaInPinHi)) || a.lowT == 3 || a.highT == 3

/-- on the left or right boundary of the cell — src/pa/FlexPA_prep.cpp:719-727. -/
def lrBound (T : PaTech) (E : PaEnv) (a : AccPt) : Bool :=
  match E.bbox with
  | none => false
  | some b => decide (a.pt.x ≤ b.left + 3 * T.width a.layer) || decide (a.pt.x ≥ b.right - 3 * T.width a.layer)

/-- the rank of a via — src/pa/FlexPA_prep.cpp:741-747. -/
def viaRank (T : PaTech) (E : PaEnv) (shapes : Int → List Box) (a : AccPt) (v : PVia) : Int :=
  let x := viaExts (v.l1.shift a.pt) (shapes a.layer)
  if lrBound T E a && !viaInPin T a then max x.1 x.2.1 else max (max x.1 x.2.1) (max x.2.2.1 x.2.2.2)

/-- is the via usable — src/pa/FlexPA_prep.cpp:748-773. -/
def viaOk (T : PaTech) (E : PaEnv) (shapes : Int → List Box) (a : AccPt) (idx : Nat) (v : PVia) : Bool :=
  !(viaInPin T a && decide (viaRank T E shapes a v > 0)) &&
  E.bbox.all (fun b => b.containsBox (v.l1.shift a.pt)) && E.bbox.all (fun b => b.containsBox (v.l2.shift a.pt)) &&
  E.via a.pt a.layer idx

/-- insertion into the set of (rank, index) -/
def rankIns (r : Int × Nat) : List (Int × Nat) → List (Int × Nat)
  | [] => [r]
  | s :: l => if r.1 < s.1 ∨ (r.1 = s.1 ∧ r.2 < s.2) then r :: s :: l else if r = s then s :: l else s :: rankIns r l

/-- the usable vias, best first — src/pa/FlexPA_prep.cpp:705-717, 729-774. -/
def validVias (T : PaTech) (E : PaEnv) (shapes : Int → List Box) (a : AccPt) : List (Int × Nat) :=
  (((T.vias (a.layer + 1)).take 2).zipIdx).foldl
    (fun acc v => if viaOk T E shapes a v.2 v.1 then rankIns (viaRank T E shapes a v.1, v.2) acc else acc) []

/-- `prepPoint_pin_checkPoint_via` — src/pa/FlexPA_prep.cpp:684-781. -/
def checkVia (T : PaTech) (E : PaEnv) (shapes : Int → List Box) (a : AccPt) : AccPt :=
  if !a.u then a
  else
    let vs := (validVias T E shapes a).map (·.2)
    { a with u := !vs.isEmpty, vias := a.vias ++ vs }

/-- `prepPoint_pin_checkPoint` — src/pa/FlexPA_prep.cpp:848-871. -/
def checkPoint (T : PaTech) (E : PaEnv) (k : PinKind) (shapes : Int → List Box) (a : AccPt) : AccPt :=
  checkVia T E shapes (checkPlanar T E k shapes .N (checkPlanar T E k shapes .S (checkPlanar T E k shapes .E (checkPlanar T E k shapes .W a))))

/-- which points are kept — src/pa/FlexPA_prep.cpp:949-961. -/
def keepAp (T : PaTech) (k : PinKind) (a : AccPt) : Bool :=
  if k == .std then (a.layer == T.viaLayer && a.u) || (a.layer != T.viaLayer && a.any)
  else (k == .macro || k == .io) && a.any

/-- the search for points of further types stops — src/pa/FlexPA_prep.cpp:962-995. `nStd`, `nMacro`: `MINNUMACCESSPOINT_*` -/
def enoughAps (nStd nMacro : Nat) (k : PinKind) (aps : List AccPt) : Bool :=
  (k == .std && decide (aps.length ≥ nStd)) || (k == .macro && decide (aps.length ≥ nMacro)) || (k == .io && decide (aps.length > 0))

/-- `prepPoint_pin_helper`: kept points and point set after one combination of types — src/pa/FlexPA_prep.cpp:922-961. -/
def pinStep (T : PaTech) (E : PaEnv) (k : PinKind) (n : Nat) (shapes : Int → List Box) (st : ApState) (lt ut : Nat) : ApState :=
  let g := genPoints T k n shapes lt ut ([], st.2)
  (st.1 ++ (g.1.map (checkPoint T E k shapes)).filter (keepAp T k), g.2)

/-- the combinations of types in the order in which they are tried — src/pa/FlexPA_prep.cpp:1022-1078. -/
def apTypes : List (Nat × Nat) := [(0, 0), (1, 0), (2, 0), (3, 0), (0, 1), (1, 1), (2, 1), (3, 1), (0, 2), (1, 2), (2, 2), (3, 2)]

def pinLoop (T : PaTech) (E : PaEnv) (k : PinKind) (n : Nat) (shapes : Int → List Box) (nStd nMacro : Nat) : List (Nat × Nat) → ApState → List AccPt
  | [], st => st.1
  | t :: ts, st =>
    let st' := pinStep T E k n shapes st t.1 t.2
    if enoughAps nStd nMacro k st'.1 then st'.1 else pinLoop T E k n shapes nStd nMacro ts st'

/-- `prepPoint_pin`: the access points stored for the pin — src/pa/FlexPA_prep.cpp:998-1117. -/
def prepPin (T : PaTech) (E : PaEnv) (k : PinKind) (n : Nat) (shapes : Int → List Box) (nStd nMacro : Nat) : List AccPt :=
  pinLoop T E k n shapes nStd nMacro apTypes ([], [])

end TR
