import Verif.TaWork.Model
import Verif.GCell.Model
/-! # Model: the wires and the fixed objects of a panel of track assignment

Models `initIroute`, `initIroute_helper(_pin, _generic, _generic_helper)`, `initIroutes`, `initFixedObjs(_helper)`, `initFixedObjs_calcBloatDist`
— src/ta/FlexTA_init.cpp:92-460, 462-485, 660-812, 857-883 — `saveToGuides` — src/ta/FlexTA_end.cpp:33-49 — and the passes of `initTA` and
`searchRepair` — src/ta/FlexTA.cpp:133-346 — with the queries of guides and pins of global routing — src/frRegionQuery.cpp:283-336, 517-569.

Simplifications:
* Guides are numbered; a guide has one layer (`genGuides` makes no others, C43). Its wires are the segments stored by `saveToGuides`.
* The state of a net's access points is the list of what `getAccessPoints` holds, in chip coordinates without the shift of the component.
* Every cut layer has a default via (without one the code dereferences a null pointer).
* Which track a wire gets is open (C34): an arbitrary function. The branches for a special process (`DBPROCESSNODE`) are not modelled.
* Threads: the panels of a batch read the guides before any of them writes (`end` is called after the batch); with one thread every batch is
  one panel. -/
namespace TR

/-- `frGuide`: net, layer, the two points (centres of GCells) and the segments found (layer, begin, end) — src/db/obj/frGuide.h. -/
structure TGuide where
  net : Nat
  layer : Int
  b : Point
  e : Point
  routes : List (Int × Point × Point)
deriving DecidableEq, Repr

/-- a pin of global routing: the terminal at a point — src/frRegionQuery.cpp:558-569. `inst`: a terminal of a component (at `shift`), with
`getPinAccessIdx`; for each pin whether it `hasPinAccess`; the preferred access points in the order of the pins (point, layer). -/
structure GrPin where
  at_ : Point
  net : Nat
  inst : Bool
  shift : Point
  accIdx : Int
  pins : List Bool
  aps : List (Option (Point × Int))
deriving DecidableEq, Repr

/-- what `initIroute` reads: the lowest routing layer, the number of layers, the guides, the pins, default styles and vias -/
structure TaEnv where
  bottom : Int
  layers : Int
  dir : Int → Bool
  routing : Int → Bool
  pins : List GrPin
  style : Int → SegStyle
  defVia : Int → MzVia

/-- `queryGuide` at a point — src/frRegionQuery.cpp:283-315. -/
def guidesAt (gs : List TGuide) (p : Point) (l : Int) : List TGuide :=
  gs.filter fun g => decide (g.layer = l) && (Box.mk4 g.b.x g.b.y g.e.x g.e.y).meets ⟨p, p⟩

/-- guides of the net on the layers below and above — src/ta/FlexTA_init.cpp:309-328. -/
def nbrGuides (E : TaEnv) (gs : List TGuide) (g : TGuide) (p : Point) : List TGuide :=
  ((if g.layer - 2 ≥ E.bottom then guidesAt gs p (g.layer - 2) else []) ++
    (if g.layer + 2 < E.layers then guidesAt gs p (g.layer + 2) else [])).filter fun n => decide (n.net = g.net)

/-- insertion into a `std::set<frCoord>` -/
def coordIns (x : Int) : List Int → List Int
  | [] => [x]
  | y :: ys => if x < y then x :: y :: ys else if x = y then y :: ys else y :: coordIns x ys

/-- the variables of `initIroute_helper_generic`: `minBegin` and `maxEnd` if set, via places, `wlen` -/
structure WireAcc where
  lo : Option Int := none
  hi : Option Int := none
  down : List Int := []
  up : List Int := []
  wlen : Int := 0
deriving DecidableEq, Repr

/-- one segment of a neighbour — src/ta/FlexTA_init.cpp:338-357; `i`: the end of the guide looked at. -/
def nbrSeg (horz : Bool) (l : Int) (last : Bool) (a : WireAcc) (s : Int × Point × Point) : WireAcc :=
  let x := s.2.1.a horz
  let a := if last then { a with hi := some (match a.hi with | none => x | some h => max h x) }
    else { a with lo := some (match a.lo with | none => x | some h => min h x) }
  if s.1 = l - 2 then { a with down := coordIns x a.down } else { a with up := coordIns x a.up }

/-- one neighbour — src/ta/FlexTA_init.cpp:327-366. -/
def nbrStep (horz : Bool) (l : Int) (last : Bool) (cp : Point) (a : WireAcc) (n : TGuide) : WireAcc :=
  let a := if n.routes = [] then
      (if n.layer = l - 2 then { a with down := coordIns (n.b.a horz) a.down } else { a with up := coordIns (n.b.a horz) a.up })
    else n.routes.foldl (nbrSeg horz l last) a
  { a with wlen := a.wlen - (if cp = n.e then 1 else 0) + (if cp = n.b then 1 else 0) }

/-- the two ends of a wire — src/ta/FlexTA_init.cpp:369-380. -/
def wireSpan (lo hi : Int) : Int × Int :=
  let s := if lo > hi then (hi, lo) else (lo, hi)
  if s.1 = s.2 then (s.1, s.2 + 1) else s

/-- a wire before it is placed: its ends, the places of vias down and up, the two values that guide the choice of the track -/
structure WireInit where
  a1 : Int
  a2 : Int
  down : List Int
  up : List Int
  wlen : Int
  wlen2 : Option Int
deriving DecidableEq, Repr

/-- pins of global routing of the net at a point — src/frRegionQuery.cpp:331-336, src/ta/FlexTA_init.cpp:134-155. -/
def pinsAt (E : TaEnv) (net : Nat) (p : Point) : List GrPin := E.pins.filter fun t => decide (t.at_ = p) && decide (t.net = net)

/-- the loop over the pins of a terminal — src/ta/FlexTA_init.cpp:156-195, 247-278: `k` is `pinIdx`, which is only counted on at the end of the
body; `ok` is the test of the access point (after the shift). -/
def accLoop (t : GrPin) (ok : Point → Int → Bool) : List Bool → Nat → Option Point
  | [], _ => none
  | has :: ps, k =>
    match (if t.inst then (t.aps[k]?).join else none) with
    | none => accLoop t ok ps k
    | some ap =>
      if has = false ∨ (if t.inst then t.accIdx else -1) = -1 then accLoop t ok ps k
      else
        let q : Point := ⟨ap.1.x + t.shift.x, ap.1.y + t.shift.y⟩
        if ok q ap.2 then some q else accLoop t ok ps (k + 1)

/-- `initIroute_helper_pin` — src/ta/FlexTA_init.cpp:93-201. -/
def pinWire (E : TaEnv) (horz : Bool) (rb : Box) (gs : List TGuide) (g : TGuide) : Option WireInit :=
  if g.b ≠ g.e then none
  else
    let has (l : Int) : Bool := (guidesAt gs g.b l).any fun n => decide (n.net = g.net)
    ((pinsAt E g.net g.b).findSome? fun t => accLoop t (fun q l => decide (l = g.layer) && rb.meets ⟨q, q⟩) t.pins 0).map fun q =>
      let x := q.a horz
      ⟨x, x, if g.layer - 2 ≥ E.bottom ∧ has (g.layer - 2) = true then [x] else [],
        if g.layer + 2 < E.layers ∧ has (g.layer + 2) = true then [x] else [], 0, some (q.c horz)⟩

/-- `initIroute_helper_generic_helper` — src/ta/FlexTA_init.cpp:212-284: `wlen2`, `none` if it keeps its initial value. -/
def pinCoord (E : TaEnv) (horz : Bool) (rb : Box) (g : TGuide) : Option Int :=
  let ts := pinsAt E g.net g.b ++ (if g.e = g.b then [] else pinsAt E g.net g.e)
  match ts.findSome? fun t => accLoop t (fun q _ => rb.meets ⟨q, q⟩) t.pins 0 with
  | some q => some (q.c horz)
  | none => if ts = [] then none else some 0

/-- `initIroute_helper_generic` — src/ta/FlexTA_init.cpp:286-384. -/
def genericWire (E : TaEnv) (horz : Bool) (rb : Box) (gs : List TGuide) (g : TGuide) : WireInit :=
  let a := (nbrGuides E gs g g.b).foldl (nbrStep horz g.layer false g.b) {}
  let a := (nbrGuides E gs g g.e).foldl (nbrStep horz g.layer true g.e) a
  let s := wireSpan (a.lo.getD (g.b.a horz)) (a.hi.getD (g.e.a horz))
  ⟨s.1, s.2, a.down, a.up, a.wlen, pinCoord E horz rb g⟩

/-- `initIroute_helper` — src/ta/FlexTA_init.cpp:203-209. -/
def wireInit (E : TaEnv) (horz : Bool) (rb : Box) (gs : List TGuide) (g : TGuide) : WireInit :=
  (pinWire E horz rb gs g).getD (genericWire E horz rb gs g)

/-- the figures of a wire on track `t` — src/ta/FlexTA_init.cpp:428-452. -/
def wireFigs (E : TaEnv) (horz : Bool) (l t : Int) (w : WireInit) : List TaFig :=
  TaFig.seg l (ptAC horz w.a1 t) (ptAC horz w.a2 t) (E.style l) ::
    (w.up.map fun x => TaFig.via (l + 1) (E.defVia (l + 1)) (ptAC horz x t)) ++
    (w.down.map fun x => TaFig.via (l - 1) (E.defVia (l - 1)) (ptAC horz x t))

/-- `isExt` — src/ta/FlexTA_init.cpp:394; `frBox::contains` — src/db/infra/frBox.h:107-115. -/
def Box.holds (r b : Box) : Bool := decide (b.right ≤ r.right) && decide (r.left ≤ b.left) && decide (b.top ≤ r.top) && decide (r.bottom ≤ b.bottom)

/-- the box of a guide — src/db/obj/frGuide.h:106-108. -/
def TGuide.box (g : TGuide) : Box := Box.mk4 g.b.x g.b.y g.e.x g.e.y

/-- `initIroutes`: numbers of the guides of the panel (assigned here) and of those around it with a wire — src/ta/FlexTA_init.cpp:386-400, 462-490. -/
def panelGuides (E : TaEnv) (horz : Bool) (rb eb : Box) (gs : List TGuide) : List Nat :=
  (List.range gs.length).filter fun i => match gs[i]? with
    | none => false
    | some g => E.routing g.layer && decide (E.dir g.layer = horz) && eb.meets g.box && rb.holds g.box
def extGuides (E : TaEnv) (horz : Bool) (rb eb : Box) (gs : List TGuide) : List Nat :=
  (List.range gs.length).filter fun i => match gs[i]? with
    | none => false
    | some g => E.routing g.layer && decide (E.dir g.layer = horz) && eb.meets g.box && !rb.holds g.box && decide (g.routes ≠ [])

/-- `saveToGuides` for guide `i` on track `t` — src/ta/FlexTA_end.cpp:33-49. -/
def saved (E : TaEnv) (horz : Bool) (rb : Box) (gs : List TGuide) (g : TGuide) (t : Int) : TGuide :=
  let w := wireInit E horz rb gs g
  { g with routes := [(g.layer, ptAC horz w.a1 t, ptAC horz w.a2 t)] }

/-- one panel: `now` are the guides when the panel is set up, `out` the guides that are written; `tr` the tracks chosen -/
def runPanel (E : TaEnv) (horz : Bool) (tr : Nat → Int) (now : List TGuide) (out : List TGuide) (p : Int × Box × Box) : List TGuide :=
  (panelGuides E horz p.2.1 p.2.2 now).foldl (fun o i => match now[i]? with
    | none => o
    | some g => o.set i (saved E horz p.2.1 now g (tr i))) out

/-- a batch — src/ta/FlexTA.cpp:212-228 — or a panel with one thread — src/ta/FlexTA.cpp:139-182. -/
def runTaBatch (E : TaEnv) (horz : Bool) (tr : Nat → Int) (gs : List TGuide) (ps : List (Int × Box × Box)) : List TGuide :=
  ps.foldl (runPanel E horz tr gs) gs

/-- `initTA_helper` for one direction, with its panels in batches — src/ta/FlexTA.cpp:133-233. -/
def runDir (E : TaEnv) (horz : Bool) (tr : Nat → Int) (batches : List (List (Int × Box × Box))) (gs : List TGuide) : List TGuide :=
  batches.foldl (runTaBatch E horz tr) gs

/-- the panels of a direction — src/ta/FlexTA.cpp:134-182. -/
def taPanels (g : GGrid) (horz : Bool) (size : Int) : List (Int × Box × Box) := if horz then taPanelsH g size 0 else taPanelsV g size 0

/-! ### fixed objects -/

/-- a fixed shape as found by the query: terminal of net `net` (`none`: no net), special wire or via, or blockage -/
inductive FixKind where
  | term
  | wire
  | obs
deriving DecidableEq, Repr

structure FixObj where
  layer : Int
  box : Box
  kind : FixKind
  net : Option Nat
deriving DecidableEq, Repr

/-- distance by which a fixed shape is enlarged — src/ta/FlexTA_init.cpp:725, 736, 774, 857-883; `TASHAPEBLOATWIDTH` is 1.5 (src/global.cpp:86).
`none`: the table is empty. -/
def bloatOf (P : PanelTech) (o : FixObj) : Option Int :=
  match o.kind with
  | .term => some ((3 * P.c.width o.layer).tdiv 2)
  | k =>
    let w := P.c.width o.layer
    let ow := if k = .obs ∧ P.c.useMinObs = true then w else o.box.width
    let prl := if P.c.horz o.layer then o.box.right - o.box.left else o.box.top - o.box.bottom
    (match P.c.spc o.layer with
    | none => some w
    | some (.fixed s) => some s
    | some (.prl t) => t.find ow prl
    | some (.tw t) => t.find ow w prl).map fun d => d + w.tdiv 2

/-- `initFixedObjs_helper` — src/ta/FlexTA_init.cpp:660-703. -/
def fixLines (P : PanelTech) (box : Box) (d : Int) (l : Int) (own : CostOwner) : List CostRec :=
  let b := (box.bloat d).fr P.horz
  (tracksIn (P.locs l) b.bottom b.top).map fun t => ⟨l, lineBox P.horz b.left b.right t, own, .short l⟩

/-- the records of one fixed object; blockages belong to no net — src/ta/FlexTA_init.cpp:721-775. -/
def fixRecs (P : PanelTech) (o : FixObj) : List CostRec :=
  match bloatOf P o with
  | none => []
  | some d => fixLines P (o.box.bloat (-1)) d o.layer (if o.kind = .obs then .unknown else o.net.elim .unknown .net)

/-- `initFixedObjs` — src/ta/FlexTA_init.cpp:706-817: layers of the panel's direction, shapes found in the surroundings `eb`. -/
def fixedRecs (P : PanelTech) (eb : Box) (objs : List FixObj) : List CostRec :=
  (upFrom P.c.bottom P.c.top).flatMap fun l =>
    if P.routing l = true ∧ P.c.horz l = P.horz then (objs.filter fun o => decide (o.layer = l) && eb.meets o.box).flatMap (fixRecs P) else []

end TR
