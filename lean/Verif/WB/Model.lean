import Verif.Geom.Model
import Verif.Conn.Model
/-! # Model: loading a worker's region and writing the result back

Models `initNetObjs_*` (src/dr/FlexDR_init.cpp:40-294), the division into objects of the region and outside
(src/dr/FlexDR_init.cpp:404-432, 833-856), `initMarkers`, `init` (3992-4029) and FlexDR_end.cpp
(`endGetModNets` … `end`, src/dr/FlexDR_end.cpp:33-546).

Simplifications:
* The routed objects of the design are one list; the lists of the nets and the region query, which the code
  updates together, are not kept apart. Removing an object removes one list element equal to it.
* The branches for vertical and horizontal wires, mirror images in the code, are written once: `a` is the
  coordinate along the wire, `c` the one across.
* Extensions and widths (`frUInt4`) are natural numbers, coordinates unbounded integers.
* A via is given by its origin, cut layer and bounding box relative to the origin. -/
namespace TR

/-- `frEndStyleEnum` — src/db/infra/frSegStyle.h:35-39. -/
inductive EndKind where
  | truncate | extend | variable
deriving DecidableEq, Repr

/-- `frSegStyle` — src/db/infra/frSegStyle.h:56-103. -/
structure SegStyle where
  beginKind : EndKind
  beginExt : Nat
  endKind : EndKind
  endExt : Nat
  width : Nat
deriving DecidableEq, Repr

/-- `frPathSeg` of a net — src/db/obj/frShape.h:429-559. -/
structure DSeg where
  net : Nat
  layer : Int
  b : Point
  e : Point
  st : SegStyle
deriving DecidableEq, Repr

/-- `frVia` of a net; stored on its cut layer — src/frRegionQuery.cpp:186-191. -/
structure DVia where
  net : Nat
  cut : Int
  o : Point
  off : Box
deriving DecidableEq, Repr

/-- `frPatchWire` of a net — src/db/obj/frShape.h:193-300. -/
structure DPatch where
  net : Nat
  layer : Int
  o : Point
  off : Box
deriving DecidableEq, Repr

inductive DObj where
  | seg (s : DSeg)
  | via (v : DVia)
  | patch (p : DPatch)
deriving DecidableEq, Repr

def DObj.net : DObj → Nat
  | .seg s => s.net
  | .via v => v.net
  | .patch p => p.net

/-- wire is handled as vertical: `begin.x() == end.x()` — src/dr/FlexDR_end.cpp:56. -/
def DSeg.horz (s : DSeg) : Bool := decide (s.b.x ≠ s.e.x)

/-- coordinate of a point along and across a horizontal or vertical wire -/
def Point.a (p : Point) (horz : Bool) : Int := if horz then p.x else p.y
def Point.c (p : Point) (horz : Bool) : Int := if horz then p.y else p.x
def ptAC (horz : Bool) (a c : Int) : Point := if horz then ⟨a, c⟩ else ⟨c, a⟩

/-- `frPathSeg::getBBox` — src/db/obj/frShape.h:522-537. -/
def DSeg.bbox (s : DSeg) : Box :=
  let h : Int := ((s.st.width / 2 : Nat) : Int)
  if s.horz then Box.mk4 (s.b.x - s.st.beginExt) (s.b.y - h) (s.e.x + s.st.endExt) (s.e.y + h)
  else Box.mk4 (s.b.x - h) (s.b.y - s.st.beginExt) (s.e.x + h) (s.e.y + s.st.endExt)

/-- bounding box at an origin — src/db/obj/frShape.h:273-279, src/db/obj/frVia.h. -/
def Box.at (b : Box) (o : Point) : Box := ⟨⟨b.left + o.x, b.bottom + o.y⟩, ⟨b.right + o.x, b.top + o.y⟩⟩

def DObj.bbox : DObj → Box
  | .seg s => s.bbox
  | .via v => v.off.at v.o
  | .patch p => p.off.at p.o

/-! ### removal -/

/-- low and high border of the region along and across a wire -/
def Box.loA (R : Box) (horz : Bool) : Int := if horz then R.left else R.bottom
def Box.hiA (R : Box) (horz : Bool) : Int := if horz then R.right else R.top
def Box.loC (R : Box) (horz : Bool) : Int := if horz then R.bottom else R.left
def Box.hiC (R : Box) (horz : Bool) : Int := if horz then R.top else R.right

/-- `condition1` with the lower bound: the track of the wire belongs to the region —
src/dr/FlexDR_end.cpp:66-68, 137-139, src/dr/FlexDR_init.cpp:59-60, 144-145. -/
def trackIn (init : Bool) (R : Box) (horz : Bool) (c : Int) : Bool :=
  decide (R.loC horz ≤ c) && (if init then decide (c < R.hiC horz) else decide (c ≤ R.hiC horz))

/-- the parts of a wire below and above the region, with new end styles where it is cut — the two `if`s of
src/dr/FlexDR_end.cpp:71-128 and 142-197; `w` is the default width of the layer. -/
def lowPart (R : Box) (w : Nat) (s : DSeg) : DSeg :=
  let h := s.horz
  { s with e := ptAC h (min (s.e.a h) (R.loA h)) (s.e.c h)
           st := if s.e.a h > R.loA h then { s.st with endKind := .extend, endExt := w / 2 } else s.st }
def highPart (R : Box) (w : Nat) (s : DSeg) : DSeg :=
  let h := s.horz
  { s with b := ptAC h (max (s.b.a h) (R.hiA h)) (s.b.c h)
           st := if s.b.a h < R.hiA h then { s.st with beginKind := .extend, beginExt := w / 2 } else s.st }

/-- `endRemoveNets_pathSeg` — src/dr/FlexDR_end.cpp:48-202: `none` if the wire is left alone, else the wires
that replace it and the boundary points. Slanted wires are left alone. -/
def removeSeg (init : Bool) (R : Box) (w : Nat) (s : DSeg) : Option (List DSeg × List Node) :=
  let h := s.horz
  if h && decide (s.b.y ≠ s.e.y) then none
  else if trackIn init R h (s.b.c h) && !(decide (s.b.a h > R.hiA h) || decide (s.e.a h < R.loA h)) then
    let lo := decide (s.b.a h < R.loA h)
    let hi := decide (s.e.a h > R.hiA h)
    some ((if lo then [lowPart R w s] else []) ++ (if hi then [highPart R w s] else []),
      (if lo && decide (s.e.a h ≥ R.loA h) then [⟨(lowPart R w s).e, s.layer⟩] else []) ++
      (if hi && decide (s.b.a h ≤ R.hiA h) then [⟨(highPart R w s).b, s.layer⟩] else []))
  else none

/-- `endRemoveNets_via`, `endRemoveNets_patchWire` — src/dr/FlexDR_end.cpp:204-242: the origin belongs to the region. -/
def originIn (init : Bool) (R : Box) (p : Point) : Bool :=
  decide (p.x ≥ R.left) && decide (p.y ≥ R.bottom) &&
    (if init then decide (p.x < R.right) && decide (p.y < R.top) else decide (p.x ≤ R.right) && decide (p.y ≤ R.top))

/-- one object in the loop of `endRemoveNets` — src/dr/FlexDR_end.cpp:244-284: the objects that replace it and
the boundary points added for its net. Objects not found by the query or of unmodified nets stay. -/
def removeObj (init : Bool) (R : Box) (width : Int → Nat) (mod : Nat → Bool) (o : DObj) : List DObj × List (Nat × Node) :=
  if R.overlaps o.bbox && mod o.net then
    match o with
    | .seg s => match removeSeg init R (width s.layer) s with
      | none => ([o], [])
      | some r => (r.1.map .seg, r.2.map (fun n => (s.net, n)))
    | .via v => if originIn init R v.o then ([], []) else ([o], [])
    | .patch p => if originIn init R p.o then ([], []) else ([o], [])
  else ([o], [])

/-- `endRemoveNets` — src/dr/FlexDR_end.cpp:244-284. -/
def removeNets (init : Bool) (R : Box) (width : Int → Nat) (mod : Nat → Bool) (objs : List DObj) : List DObj × List (Nat × Node) :=
  (objs.flatMap (fun o => (removeObj init R width mod o).1), objs.flatMap (fun o => (removeObj init R width mod o).2))

/-! ### merging at boundary points -/

/-- the wire that replaces two wires meeting at a boundary point — src/dr/FlexDR_end.cpp:376-393, 403-420. -/
def mergeSegs (h : Bool) (s1 s2 : DSeg) : DSeg :=
  { s1 with b := ptAC h (min (s1.b.a h) (s2.b.a h)) (s1.b.c h)
            e := ptAC h (max (s1.e.a h) (s2.e.a h)) (s1.e.c h)
            st := if s1.b.a h < s2.b.a h then { s1.st with endKind := s2.st.endKind, endExt := s2.st.endExt }
              else { s1.st with beginKind := s2.st.beginKind, beginExt := s2.st.beginExt } }

/-- wires of a net found at a point that end there — src/dr/FlexDR_end.cpp:345-363. -/
def segsAt (objs : List DObj) (net : Nat) (n : Node) (horz : Bool) : List DSeg :=
  objs.filterMap (fun
    | .seg s => if s.layer = n.layer ∧ s.bbox.overlaps ⟨n.pt, n.pt⟩ ∧ s.net = net ∧ (s.b = n.pt ∨ s.e = n.pt) ∧ s.horz = horz then some s else none
    | _ => none)

/-- `hasPatchMetal` — src/dr/FlexDR_end.cpp:364-376. -/
def patchAt (objs : List DObj) (net : Nat) (n : Node) : Bool :=
  objs.any (fun
    | .patch p => decide (p.layer = n.layer) && (p.off.at p.o).overlaps ⟨n.pt, n.pt⟩ && decide (p.net = net) && decide (p.o = n.pt)
    | _ => false)

/-- one boundary point in `endAddNets_merge` — src/dr/FlexDR_end.cpp:313-434. `pinAt`: a pin shape of the net
covers the point; `grid`: manufacturing grid; `ord`: the order in which the query returns wires. -/
def mergePt (grid : Int) (pinAt : Nat → Node → Bool) (ord : List DSeg → List DSeg) (objs : List DObj) (net : Nat) (n : Node) : List DObj :=
  if pinAt net n && !(decide (n.pt.x.tmod grid ≠ 0) || decide (n.pt.y.tmod grid ≠ 0)) then objs
  else if patchAt objs net n then objs
  else match ord (segsAt objs net n true), ord (segsAt objs net n false) with
    | [s1, s2], [] => ((objs.erase (.seg s1)).erase (.seg s2)) ++ [.seg (mergeSegs true s1 s2)]
    | [], [s1, s2] => ((objs.erase (.seg s1)).erase (.seg s2)) ++ [.seg (mergeSegs false s1 s2)]
    | _, _ => objs

/-- `endAddNets` — src/dr/FlexDR_end.cpp:436-471: the worker's best routes of modified nets, then merging. -/
def addNets (grid : Int) (pinAt : Nat → Node → Bool) (ord : List DSeg → List DSeg) (objs routes : List DObj) (bounds : List (Nat × Node)) : List DObj :=
  bounds.foldl (fun os x => mergePt grid pinAt ord os x.1 x.2) (objs ++ routes)

/-! ### violations and the decision -/

/-- `frMarker`: layer, box, whether it only requests a recheck, and the rest of its data -/
structure DMarker where
  layer : Int
  box : Box
  recheck : Bool
  data : Nat
deriving DecidableEq, Repr

/-- `endRemoveMarkers`, `endAddMarkers` — src/dr/FlexDR_end.cpp:473-498. -/
def replaceMarkers (drcBox : Box) (best ms : List DMarker) : List DMarker :=
  ms.filter (fun m => !drcBox.overlaps m.box) ++ best.filter (fun m => drcBox.overlaps m.box)

/-- settings of a worker -/
structure WorkerCfg where
  init : Bool           -- first pass
  enableDRC : Bool
  iter : Nat            -- `getDRIter`
  ripupMode : Nat
  drcTest : Bool        -- global `DRCTEST`
  routeBox : Box
  drcBox : Box

/-- `initMarkers` — src/dr/FlexDR_init.cpp:3992-4009: the number of violations at the start and `needRecheck`. -/
def initMarkers (C : WorkerCfg) (ms : List DMarker) : Nat × Bool :=
  let q := ms.filter (fun m => C.drcBox.overlaps m.box)
  let k := (q.filter (fun m => !m.recheck)).length
  (if C.iter ≤ 1 ∧ k = 0 then 1 else k, q.any (fun m => m.recheck))

/-- `skipRouting` — src/dr/FlexDR_init.cpp:4020-4025. -/
def skipRouting (C : WorkerCfg) (initNum : Nat) (recheck : Bool) : Bool :=
  !C.drcTest && C.enableDRC && decide (C.iter ≠ 0) && decide (initNum = 0) && !recheck

/-- the decision of `end` — src/dr/FlexDR_end.cpp:519-535: the result is written back. -/
def writesBack (C : WorkerCfg) (initNum : Nat) (recheck : Bool) (bestNum : Nat) : Bool :=
  if skipRouting C initNum recheck then false
  else if C.enableDRC && decide (C.iter ≠ 0) && decide (initNum = 0) && !recheck then false
  else if C.enableDRC && decide (C.ripupMode = 0) && decide (bestNum > initNum) then false
  else if C.enableDRC && decide (C.iter ≠ 0) && decide (C.ripupMode = 1) && decide (bestNum > 5 * initNum) then false
  else true

/-- what a worker brings to its end: the nets it rerouted (`isModified` of the whole net, after
`endGetModNets`), their best routes, and the violations of those routes -/
structure WorkerResult where
  mod : Nat → Bool
  routes : List DObj
  best : List DMarker

structure DesignSt where
  objs : List DObj
  markers : List DMarker

/-- the parts of the design the write-back reads and does not change -/
structure DesignEnv where
  width : Int → Nat
  grid : Int
  pinAt : Nat → Node → Bool
  ord : List DSeg → List DSeg
  /-- the boundary points as they are visited: a map of nets to sorted sets without duplicates -/
  arrange : List (Nat × Node) → List (Nat × Node)

/-- `FlexDRWorker::end` — src/dr/FlexDR_end.cpp:519-546, for a worker that loaded its violations from `ms0`. -/
def workerEnd (E : DesignEnv) (C : WorkerCfg) (ms0 : List DMarker) (W : WorkerResult) (D : DesignSt) : DesignSt :=
  let i := initMarkers C ms0
  if writesBack C i.1 i.2 W.best.length then
    let r := removeNets C.init C.routeBox E.width W.mod D.objs
    { objs := addNets E.grid E.pinAt E.ord r.1 W.routes (E.arrange r.2)
      markers := if C.enableDRC then replaceMarkers C.drcBox W.best D.markers else D.markers }
  else D

/-! ### loading -/

/-- `initNetObjs_pathSeg` — src/dr/FlexDR_init.cpp:40-232: (route objects, pure outside objects). -/
def loadSeg (init : Bool) (R : Box) (w : Nat) (s : DSeg) : List DSeg × List DSeg :=
  let h := s.horz
  if h && decide (s.b.y ≠ s.e.y) then ([], [])
  else if trackIn init R h (s.b.c h) then
    let low := if s.b.a h < R.loA h then [lowPart R w s] else []
    let lowExt := decide (s.e.a h < R.loA h)
    let mid := if !(decide (s.b.a h ≥ R.hiA h) || decide (s.e.a h ≤ R.loA h)) then
      [{ s with b := ptAC h (max (s.b.a h) (R.loA h)) (s.b.c h)
                e := ptAC h (min (s.e.a h) (R.hiA h)) (s.e.c h)
                st := (fun st : SegStyle => if s.e.a h > R.hiA h then { st with endKind := EndKind.extend, endExt := w / 2 } else st)
                  (if s.b.a h < R.loA h then { s.st with beginKind := .extend, beginExt := w / 2 } else s.st) }] else []
    let high := if s.e.a h > R.hiA h then [highPart R w s] else []
    let highExt := decide (s.b.a h > R.hiA h)
    ((if lowExt then [] else low) ++ mid ++ (if highExt then [] else high), (if lowExt then low else []) ++ (if highExt then high else []))
  else ([], [s])

/-- division of the route objects by the end points — src/dr/FlexDR_init.cpp:411-424, 836-850:
(objects the worker may rip up, objects that stay). -/
def loadSplit (R : Box) (r : List DSeg × List DSeg) : List DSeg × List DSeg :=
  (r.1.filter (fun s => R.containsPt s.b && R.containsPt s.e), r.2 ++ r.1.filter (fun s => !(R.containsPt s.b && R.containsPt s.e)))

/-- `initNetObjs` and the division, for one object: what the worker may rip up — src/dr/FlexDR_init.cpp:296-332,
234-294 (vias and patches by their origin). -/
def loadObj (init : Bool) (R ext : Box) (width : Int → Nat) (o : DObj) : List DObj :=
  if ext.overlaps o.bbox then
    match o with
    | .seg s => (loadSplit R (loadSeg init R (width s.layer) s)).1.map .seg
    | .via v => if originIn init R v.o then [o] else []
    | .patch p => if originIn init R p.o then [o] else []
  else []

/-- all objects loaded from the region -/
def loadRoutes (init : Bool) (R ext : Box) (width : Int → Nat) (objs : List DObj) : List DObj := objs.flatMap (loadObj init R ext width)

end TR
