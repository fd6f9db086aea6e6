import Verif.GC.Cut.Model
import Verif.GC.Corner
/-! # Geometry checker: cut spacing rules of LEF58_SPACING

Models `checkLef58CutSpacing_main` and the functions it calls (src/gc/FlexGC_main.cpp:2357-2366, 2720-3347, 3457-3478, 3570-3580) and which
corners count as fixed (src/gc/FlexGC_init.cpp:624-644).

Simplifications: as in `GC/Cut/Model.lean` (unbounded integers, shapes given, queries return the matching shapes in any order, a violation is
added to the list and the store that drops repetitions is left out). Fields of a rule that no check reads are left out. -/
namespace TR

/-- `frLef58CutSpacingConstraint` — src/db/tech/frConstraint.h:1247-1702; -1 stands for a value that is not given. -/
structure L58Rule where
  id : Nat := 0
  spacing : Int := -1
  c2c : Bool := false
  sameNet : Bool := false
  sameMetal : Bool := false
  sameVia : Bool := false
  second : Option Int := none
  stack : Bool := false
  orth : Int := -1
  cls : Int := -1
  shortEdge : Bool := false
  concave : Bool := false
  extension : Int := -1
  eolWidth : Int := -1
  minLength : Int := -1
  adj : Int := -1
  exactAligned : Int := -1
  twoCuts : Int := -1
  within : Int := -1
  exceptPG : Bool := false
  exceptAll : Int := -1
  enclosure : Int := -1
  toAll : Bool := false
  noPrl : Bool := false
  sidePar : Bool := false
  sameMask : Bool := false
deriving DecidableEq

/-- a cut layer with its shapes and rules: `base` as for the other rules, `classes` width and length of the cut classes of the layer, `rings`
the outlines of the metal of each layer with their nets, `parts` the fixed (`true`) and routed (`false`) rectangles of a net on a layer, the
rules for cuts in general and for cuts of one net -/
structure C58Db where
  base : CutDb
  classes : List (Int × Int)
  rings : Int → List (Nat × List GEdge)
  parts : Bool → Int → Nat → List Box
  cons : List L58Rule
  consSame : List L58Rule

/-- `gcRect::length` — src/db/gcObj/gcShape.h:297-300. -/
def GRect.length (r : GRect) : Int := max (r.box.right - r.box.left) (r.box.top - r.box.bottom)

/-- the loop of `getCutClassIdx` from class `i` on -/
def clsFrom (w l : Int) : List (Int × Int) → Int → Int → Int
  | [], _, res => res
  | c :: cs, i, res => clsFrom w l cs (i + 1) (if c.1 = w ∧ c.2 = l then i else res)

/-- `frLayer::getCutClassIdx` — src/db/tech/frLayer.h:149-158: the last class of that size, -1 if there is none. -/
def clsIdx (cs : List (Int × Int)) (w l : Int) : Int := clsFrom w l cs 0 (-1)

/-- the class of a cut -/
def C58Db.clsOf (C : C58Db) (r : GRect) : Int := clsIdx C.classes r.width r.length

/-- the distance that is compared, squared -/
def dist58 (c2c : Bool) (a b : Box) : Int := if c2c = true then ptDist2 (boxCentre a) (boxCentre b) else rectDist2 a b

/-- the count of `checkLef58CutSpacing_spc_hasAdjCuts` and `…_hasTwoCuts_helper` — src/gc/FlexGC_main.cpp:2744-2782, 2796-2835. -/
def C58Db.count (C : C58Db) (query : Int → Box → List GRect) (c : L58Rule) (r : GRect) : Int :=
  (query C.base.layer (gBloat r.box c.within)).foldl (fun (cnt : Int) s =>
    if dist58 c.c2c r.box s.box ≥ c.within * c.within then cnt
    else if C.clsOf s = c.cls then cnt + 1 else cnt) (-1)

/-- the condition of the rule on neighbouring cuts — src/gc/FlexGC_main.cpp:2783-2794, 2836-2842, 2872-2882. -/
def C58Db.crowded (C : C58Db) (query : Int → Box → List GRect) (c : L58Rule) (r s : GRect) : Bool :=
  decide (C.count query c r ≥ c.adj) ||
    (decide (c.twoCuts ≠ -1) && (decide (C.count query c r ≥ c.twoCuts) && decide (C.count query c s ≥ c.twoCuts)))

/-- options with which an ADJACENTCUTS rule is not checked — src/gc/FlexGC_main.cpp:2884-2915. -/
def L58Rule.odd (c : L58Rule) : Bool :=
  decide (c.exactAligned ≠ -1) || c.exceptPG || decide (c.exceptAll ≠ -1) || c.toAll || c.noPrl || decide (c.enclosure ≠ -1) || c.sidePar || c.sameMask

/-- `checkLef58CutSpacing_spc_getReqSpcVal` — src/gc/FlexGC_main.cpp:2845-2865. -/
def C58Db.req (C : C58Db) (c : L58Rule) (r s : GRect) : Int :=
  let q := c.spacing
  if c.adj ≠ -1 then
    let q := if bigObs C.base C.base.layer r then c.within else q
    if bigObs C.base C.base.layer s then c.within else q
  else q

/-- `checkLef58CutSpacing_spc_adjCut` — src/gc/FlexGC_main.cpp:2867-2973. -/
def C58Db.adjPair (C : C58Db) (query : Int → Box → List GRect) (c : L58Rule) (r s : GRect) (m : Box) : List GMk :=
  if !C.crowded query c r s then []
  else if c.odd then []
  else if dist58 c.c2c r.box s.box ≥ C.req c r s * C.req c r s then []
  else if r.fixed && s.fixed then []
  else [⟨m, C.base.layer, .other c.id, srcPair (C.base.net r.net).owner (C.base.net s.net).owner⟩]

/-- edge `i` of an outline, counted around -/
def ringEdge (ring : List GEdge) (i : Nat) : GEdge := ring.getD (i % ring.length) default

/-- is the corner at the beginning of edge `i` fixed? — src/gc/FlexGC_init.cpp:624-644; a corner that is neither convex nor concave keeps
the initial value `false`. -/
def C58Db.cornFixed (C : C58Db) (l : Int) (ring : List GEdge) (i : Nat) : Bool :=
  let k := cornerAt ring i
  match k.kind with
  | .convex => (C.parts true l k.net).any (fun b => cornerOn k b)
  | .concave => !(C.parts false l k.net).any (fun b => b.overlaps ⟨k.pt, k.pt⟩ &&
      !(decide (b.left < k.pt.x) && decide (k.pt.x < b.right) && decide (b.bottom < k.pt.y) && decide (k.pt.y < b.top)))
  | .unknown => false

/-- the violation of a cut and a corner of the metal — src/gc/FlexGC_main.cpp:3101-3116, 3268-3283: `s` is the metal rectangle over the cut. -/
def C58Db.cornMark (C : C58Db) (c : L58Rule) (r s : GRect) (p : Point) : GMk :=
  ⟨genIntersect ⟨p, p⟩ r.box, C.base.layer, .other c.id, srcPair (C.base.net r.net).owner (C.base.net s.net).owner⟩

/-- the branch CONCAVECORNER for one edge — src/gc/FlexGC_main.cpp:3073-3118. -/
def C58Db.concaveAt (C : C58Db) (c : L58Rule) (r : GRect) (l2 : Int) (s : GRect) (ring : List GEdge) (i : Nat) : List GMk :=
  let k := cornerAt ring i
  if k.kind ≠ .concave then []
  else if (k.pt.x ≠ s.box.left ∧ k.pt.x ≠ s.box.right) ∧ (k.pt.y ≠ s.box.bottom ∧ k.pt.y ≠ s.box.top) then []
  else
    let d := if c.c2c then ptDist2 (boxCentre r.box) k.pt else rectDist2 r.box ⟨k.pt, k.pt⟩
    if d ≥ c.spacing * c.spacing then []
    else if r.fixed && C.cornFixed l2 ring i then []
    else [C.cornMark c r s k.pt]

/-- is the edge before or after the corner the end of a line? — src/gc/FlexGC_main.cpp:3190-3231. -/
def lineEnd58 (c : L58Rule) (ring : List GEdge) (i : Nat) : Bool :=
  let n := ring.length
  let k := cornerAt ring i
  let prevEol := decide (k.prevKind = .convex) &&
    (decide (c.minLength = -1) || !(decide (k.nextLen < c.minLength) || decide ((ringEdge ring (i + n - 2)).span < c.minLength)))
  let nextEol := decide (k.nextKind = .convex) &&
    (decide (c.minLength = -1) || !(decide (k.prevLen < c.minLength) || decide ((ringEdge ring (i + 1)).span < c.minLength)))
  (prevEol && decide (k.prevLen < c.eolWidth)) || (nextEol && decide (k.nextLen < c.eolWidth))

/-- the branch NONEOLCONVEXCORNER for one edge — src/gc/FlexGC_main.cpp:3182-3285. -/
def C58Db.convexAt (C : C58Db) (c : L58Rule) (r : GRect) (l2 : Int) (s : GRect) (ring : List GEdge) (i : Nat) : List GMk :=
  let k := cornerAt ring i
  if k.kind ≠ .convex then []
  else if lineEnd58 c ring i then []
  else
    let m := genIntersect ⟨k.pt, k.pt⟩ r.box
    let dx := m.right - m.left
    let dy := m.top - m.bottom
    let vert := (ringEdge ring i).dir = .N ∨ (ringEdge ring i).dir = .S
    let ex := if vert then min c.spacing k.prevLen else min c.spacing k.nextLen
    let ey := if vert then min c.spacing k.nextLen else min c.spacing k.prevLen
    if ex * dy + ey * dx ≥ ex * ey then []
    else if r.fixed && C.cornFixed l2 ring i then []
    else [C.cornMark c r s k.pt]

/-- `checkLef58CutSpacing_spc_layer` — src/gc/FlexGC_main.cpp:3024-3347; `edges` is the query for edges of outlines (an outline and the number
of the edge). -/
def C58Db.layerPair (C : C58Db) (edges : Int → Box → List (List GEdge × Nat)) (c : L58Rule) (r : GRect) (l2 : Int) (s : GRect) : List GMk :=
  if c.stack then []
  else if c.orth ≠ -1 then []
  else if c.cls = -1 then []
  else if c.shortEdge then []
  else if C.clsOf r ≠ c.cls then []
  else if c.concave then
    if !s.box.containsBox r.box then []
    else (edges l2 s.box).flatMap fun e => C.concaveAt c r l2 s e.1 e.2
  else if c.extension ≠ -1 then []
  else if c.eolWidth ≠ -1 then
    if !s.box.containsBox r.box then []
    else (edges l2 s.box).flatMap fun e => C.convexAt c r l2 s e.1 e.2
  else []

/-- `checkLef58CutSpacing_main` for two shapes — src/gc/FlexGC_main.cpp:2722-2742. -/
def C58Db.pair (C : C58Db) (query : Int → Box → List GRect) (edges : Int → Box → List (List GEdge × Nat)) (c : L58Rule) (r s : GRect) : List GMk :=
  if r.id = s.id then []
  else if c.sameNet && decide (r.net ≠ s.net) then []
  else
    match c.second with
    | some l2 => C.layerPair edges c r l2 s
    | none => if c.adj ≠ -1 then C.adjPair query c r s (genIntersect r.box s.box) else []

/-- `checkLef58CutSpacing_getMaxSpcVal` — src/gc/FlexGC_main.cpp:2357-2366. -/
def L58Rule.maxSpc (c : L58Rule) : Int := if c.adj ≠ -1 then max c.spacing c.within else c.spacing

/-- `checkLef58CutSpacing_main` for a shape and a rule — src/gc/FlexGC_main.cpp:3457-3478. -/
def C58Db.rule (C : C58Db) (query : Int → Box → List GRect) (edges : Int → Box → List (List GEdge × Nat)) (skip : Bool) (r : GRect) (c : L58Rule) : List GMk :=
  (query (c.second.getD C.base.layer) (gBloat r.box c.maxSpc)).flatMap fun s => if skip && decide (r.net ≠ s.net) then [] else C.pair query edges c r s

/-- the LEF58 rules for a shape — src/gc/FlexGC_main.cpp:3570-3580: the flag that is set when the layer has a rule for one net. -/
def C58Db.rect (C : C58Db) (query : Int → Box → List GRect) (edges : Int → Box → List (List GEdge × Nat)) (r : GRect) : List GMk :=
  C.consSame.flatMap (C.rule query edges false r) ++ C.cons.flatMap (C.rule query edges (!C.consSame.isEmpty) r)

/-- the LEF58 part of `checkCutSpacing` on one layer — src/gc/FlexGC_main.cpp:3583-3613. -/
def C58Db.check (C : C58Db) (query : Int → Box → List GRect) (edges : Int → Box → List (List GEdge × Nat)) (target : Option Nat) : List GMk :=
  ((C.base.rects C.base.layer).filter (fun r => target.all (fun n => decide (r.net = n)))).flatMap (C.rect query edges)

end TR
