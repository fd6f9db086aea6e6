import Verif.Track.Model
import Verif.Guide.Model
/-! # Model: spacing tables and forbidden lengths

Models the lookup tables (`fr1DLookupTbl`, `fr2DLookupTbl`, two-width rows) — src/db/tech/frLookupTbl.h:73-124,
198-239, src/db/tech/frConstraint.h:972-1024 —, the addressing of the forbidden-length tables —
src/db/tech/frTechObject.h:136-159, 253-291 — and their computation —
src/rp/FlexRP_prep.cpp:102-378, 382-419, 569-882.

Simplifications:
* A lookup that would read outside `vals` is `none`.
* The decrement of an iterator at the begin of a vector (undefined by the standard; the code clamps the
  resulting distance to zero) is a subtraction of integers; `decDefined` says when it is defined.
* Coordinates are unbounded integers; `INT_MIN`, the mark for "no rule", is `none`.
* The part of the preparation that is active for one process node only and the table of forbidden
  through vias are modelled in Tech/Gf14.lean.
* Bounding boxes of a via are given; `width()`/`length()` are those of `frBox`. -/
namespace TR

/-! ### lookup tables -/

/-- `fr1DLookupTbl::getRowIdx` — src/db/tech/frLookupTbl.h:92-124. -/
def tbl1Idx (rows : List Int) (v : Int) : Nat :=
  if rows.headD 0 ≤ v ∧ v ≤ rows.getLastD 0 then
    let pos := lowerBound rows v
    if pos ≠ 0 then pos - 1 else pos
  else if v < rows.headD 0 then 0
  else rows.length - 1

/-- `fr1DLookupTbl::find` — src/db/tech/frLookupTbl.h:73-78. -/
def tbl1Find (rows vals : List Int) (v : Int) : Option Int := vals[tbl1Idx rows v]?

/-- `fr2DLookupTbl::getRowIdx`, `getColIdx` — src/db/tech/frLookupTbl.h:230-239. -/
def tbl2Idx (keys : List Int) (v : Int) : Nat := (max 0 ((lowerBound keys v : Int) - 1)).toNat

/-- the decremented iterator is not before the first element -/
def decDefined (keys : List Int) (v : Int) : Prop := 0 < lowerBound keys v

/-- `fr2DLookupTbl` with numeric keys -/
structure Tbl2 where
  rows : List Int
  cols : List Int
  vals : List (List Int)

/-- `fr2DLookupTbl::find` — src/db/tech/frLookupTbl.h:183-191. -/
def Tbl2.find (t : Tbl2) (r c : Int) : Option Int := (t.vals[tbl2Idx t.rows r]?).bind (fun l => l[tbl2Idx t.cols c]?)

/-- `findMin`, `findMax` — src/db/tech/frLookupTbl.h:192-197. -/
def Tbl2.findMin (t : Tbl2) : Int := (t.vals.headD []).headD 0
def Tbl2.findMax (t : Tbl2) : Int := (t.vals.getLastD []).getLastD 0

/-- `frSpacingTableTwRowType` — src/db/tech/frConstraint.h:1000-1007. -/
structure TwRow where
  width : Int
  prl : Int
deriving DecidableEq, Repr

/-- `operator<` — src/db/tech/frConstraint.h:1004-1006. -/
def TwRow.lt (a b : TwRow) : Bool := decide (a.width < b.width) || decide (a.prl < b.prl)

/-- `std::lower_bound` on rows: first row that is not below `q`, if the rows below `q` come first -/
def twLower (rows : List TwRow) (q : TwRow) : Nat := (rows.takeWhile (fun r => r.lt q)).length

/-- `getRowIdx` for two-width rows — src/db/tech/frLookupTbl.h:230-239. -/
def twIdx (rows : List TwRow) (q : TwRow) : Nat := (max 0 ((twLower rows q : Int) - 1)).toNat

structure TwTbl where
  rows : List TwRow
  vals : List (List Int)

/-- `frSpacingTableTwConstraint::find` — src/db/tech/frConstraint.h:1017-1019; rows and columns have the
same keys (src/io/io.cpp:3889-3890). -/
def TwTbl.find (t : TwTbl) (w1 w2 prl : Int) : Option Int :=
  (t.vals[twIdx t.rows ⟨w1, prl⟩]?).bind (fun l => l[twIdx t.rows ⟨w2, prl⟩]?)

/-- the minimum-spacing rule of a layer -/
inductive SpcRule where
  | fixed (s : Int)
  | prl (t : Tbl2)
  | tw (t : TwTbl)

/-- required spacing of shapes of widths `w1`, `w2` with parallel run length `p` —
e.g. src/rp/FlexRP_prep.cpp:832-839. -/
def SpcRule.req (r : SpcRule) (w1 w2 p : Int) : Option Int :=
  match r with
  | .fixed s => some s
  | .prl t => t.find (max w1 w2) p
  | .tw t => t.find w1 w2 p

/-! ### forbidden-length tables: queries -/

/-- `getTableEntryIdx` — src/db/tech/frTechObject.h:254-264. -/
def entry2 (a b : Bool) : Nat := (if a then 1 else 0) * 2 + (if b then 1 else 0)
/-- `getTableEntryIdx` — src/db/tech/frTechObject.h:266-280. -/
def entry3 (a b c : Bool) : Nat := ((if a then 1 else 0) * 2 + (if b then 1 else 0)) * 2 + (if c then 1 else 0)

/-- `isIncluded` — src/db/tech/frTechObject.h:282-291. -/
def isIncluded (ivs : List (Int × Int)) (len : Int) : Bool := ivs.any (fun i => decide (i.1 ≤ len) && decide (i.2 ≥ len))

abbrev LenTable := List (List (Int × Int))

/-- `isVia2ViaForbiddenLen` for one layer — src/db/tech/frTechObject.h:137-144. `none`: no such entry. -/
def isVia2Via (t : LenTable) (prevDown currDown dirX : Bool) (len : Int) : Option Bool :=
  (t[entry3 (!prevDown) (!currDown) (!dirX)]?).map (fun l => isIncluded l len)

/-- `isViaForbiddenTurnLen` for one layer — src/db/tech/frTechObject.h:146-149. -/
def isViaTurn (t : LenTable) (down dirX : Bool) (len : Int) : Option Bool :=
  (t[entry2 (!down) (!dirX)]?).map (fun l => isIncluded l len)

/-- `isLine2LineForbiddenLen` for one layer — src/db/tech/frTechObject.h:151-154. -/
def isLine2Line (t : LenTable) (zShape dirX : Bool) (len : Int) : Option Bool :=
  (t[entry2 (!zShape) (!dirX)]?).map (fun l => isIncluded l len)

/-! ### forbidden-length tables: preparation -/

/-- merge of the ranges in an interval set and shrinking by one at both ends —
src/rp/FlexRP_prep.cpp:390-402, and likewise 125-139, 204-218, 268-282. -/
def storeRanges (rs : List (Int × Int)) : List (Int × Int) :=
  (rs.foldl (fun (s : IvSet) r => if r.1 ≤ r.2 then ivIns r.1 r.2 s else s) []).map (fun i => (i.1 + 1, i.2 - 1))

/-- a default via: layers, shapes on the two metal layers and the cut -/
structure RVia where
  l1 : Int
  l2 : Int
  cut : Int
  box1 : Box
  box2 : Box
  cutBox : Box
deriving DecidableEq, Repr

def Box.spanX (b : Box) : Int := b.right - b.left
def Box.spanY (b : Box) : Int := b.top - b.bottom
/-- `frBox::width`, `frBox::length` — src/db/infra/frBox.h:97-106. -/
def Box.minSpan (b : Box) : Int := min b.spanX b.spanY
def Box.maxSpan (b : Box) : Int := max b.spanX b.spanY

/-- extent along and across the direction of the move -/
def Box.along (b : Box) (dirX : Bool) : Int := if dirX then b.spanX else b.spanY
def Box.across (b : Box) (dirX : Bool) : Int := if dirX then b.spanY else b.spanX

/-- shape on layer `l`: `getLayer1BBox` if the lower layer is `l`, else `getLayer2BBox` —
e.g. src/rp/FlexRP_prep.cpp:797-801. -/
def RVia.boxOn (v : RVia) (l : Int) : Box := if v.l1 = l then v.box1 else v.box2

/-- a cut spacing rule — `frCutSpacingConstraint` -/
structure CutRule where
  spacing : Int
  c2c : Bool := false
  secondLayer : Bool := false
  adjacent : Bool := false
  parallelOverlap : Bool := false
  area : Bool := false
  sameNet : Bool := false
  stack : Bool := false

/-- a minimum-cut rule — `frMinimumcutConstraint`; `above`: FROMABOVE, if a connection is given;
`len`: length and distance, if given -/
structure MinCutRule where
  width : Int
  above : Option Bool := none
  len : Option (Int × Int) := none

/-- rules of the layers -/
structure RTech where
  width : Int → Int                            -- default width
  pitch : Int → Int
  horz : Int → Bool
  minSpc : Int → Option SpcRule
  cutSame : Int → List CutRule                 -- `getCutSpacing(true)`
  cutDiff : Int → List CutRule                 -- `getCutSpacing(false)`
  interSame : Int → Int → Option CutRule       -- `getInterLayerCutSpacing(l, true)`
  interDiff : Int → Int → Option CutRule
  minCut : Int → List MinCutRule

/-- required spacing on a layer, if there is a rule (a read outside a table counts as none) -/
def RTech.req (T : RTech) (l w1 w2 p : Int) : Option Int := (T.minSpc l).bind (fun r => r.req w1 w2 p)

/-- range `(a, a + required spacing)` if there is a requirement -/
def spcRange (a : Int) : Option Int → List (Int × Int)
  | some s => [(a, s + a)]
  | none => []

/-- `prep_via2viaForbiddenLen_minSpc`, first part — src/rp/FlexRP_prep.cpp:788-846. -/
def v2vMinSpc1 (T : RTech) (l : Int) (v1 v2 : RVia) (dirX : Bool) : List (Int × Int) :=
  let b1 := v1.boxOn l
  let b2 := v2.boxOn l
  if b1.across dirX > T.width l ∧ b2.across dirX > T.width l then
    spcRange ((b1.along dirX + b2.along dirX).tdiv 2)
      (T.req l b1.minSpan b2.minSpan (min (b1.across dirX) (b2.across dirX)))
  else []

/-- the second part: the other metal layer of two equal vias — src/rp/FlexRP_prep.cpp:848-881. For a move
along y the distance at which the shapes touch is computed from the x extent of the shape on layer `l` (857). -/
def v2vMinSpc2 (T : RTech) (l : Int) (v1 v2 : RVia) (dirX : Bool) : List (Int × Int) :=
  if v1 = v2 then
    let b1 := if v1.l1 = l then v1.box2 else v1.box1
    let l' := if v1.l1 = l then l + 2 else l - 2
    let b2 := v2.boxOn l
    spcRange (if dirX then b1.spanX else b2.spanX) (T.req l' b1.minSpan b2.minSpan (b1.across dirX))
  else []

/-- one rule of `prep_via2viaForbiddenLen_minimumCut`: ranges of the two tests; if the first test does not
apply because of the connection, the second one is skipped — src/rp/FlexRP_prep.cpp:614-675. -/
def minCutTest (horz : Bool) (metal other : Box) (otherAbove : Bool) (r : MinCutRule) : Option (List (Int × Int)) :=
  if (match r.len with | none => true | some x => decide (metal.maxSpan > x.1)) && decide (metal.minSpan > r.width) then
    if (match r.above with | none => true | some a => decide (a = otherAbove)) then
      let d := (match r.len with | none => 0 | some x => x.2)
      some [(0, d + (if horz then max (other.right - metal.left) (metal.right - other.left)
        else max (other.top - metal.bottom) (metal.top - other.bottom)))]
    else none
  else some []

def minCutRule (T : RTech) (l : Int) (v1 v2 : RVia) (r : MinCutRule) : List (Int × Int) :=
  match minCutTest (T.horz l) (v1.boxOn l) v2.cutBox (decide (v2.l1 = l)) r with
  | none => []
  | some a => match minCutTest (T.horz l) (v2.boxOn l) v1.cutBox (decide (v1.l1 = l)) r with
    | none => a
    | some b => a ++ b

/-- `prep_via2viaForbiddenLen_minimumCut` — src/rp/FlexRP_prep.cpp:569-676. The direction of the move is not used. -/
def v2vMinCut (T : RTech) (l : Int) (v1 v2 : RVia) : List (Int × Int) := (T.minCut l).flatMap (minCutRule T l v1 v2)

/-- a rule between cuts of one layer — src/rp/FlexRP_prep.cpp:709-744. -/
def cutRange (sameNet : Bool) (b : Box) (dirX : Bool) (r : CutRule) : List (Int × Int) :=
  if r.secondLayer || r.adjacent || r.parallelOverlap || r.area || (r.sameNet != sameNet) then []
  else [(0, r.spacing + (if r.c2c then 0 else b.along dirX))]

/-- `prep_via2viaForbiddenLen_cutSpc` — src/rp/FlexRP_prep.cpp:679-786. -/
def v2vCutSpc (T : RTech) (v1 v2 : RVia) (dirX : Bool) : List (Int × Int) :=
  if v1.cut = v2.cut then
    if !(T.cutSame v1.cut).isEmpty then (T.cutSame v1.cut).flatMap (cutRange true v1.cutBox dirX)
    else (T.cutDiff v1.cut).flatMap (cutRange false v1.cutBox dirX)
  else
    match ((T.interSame v1.cut v2.cut).or (T.interSame v2.cut v1.cut)).or ((T.interDiff v1.cut v2.cut).or (T.interDiff v2.cut v1.cut)) with
    | none => []
    | some r =>
      let s := if r.spacing = 0 then 0 else r.spacing + (if r.c2c then 0 else (v1.cutBox.along dirX + v2.cutBox.along dirX).tdiv 2)
      if s ≠ 0 ∧ r.stack = false then [(0, s)] else []

/-- all ranges — src/rp/FlexRP_prep.cpp:383-388; nothing if a via is missing. -/
def v2vRanges (T : RTech) (l : Int) (v1 v2 : Option RVia) (dirX : Bool) : List (Int × Int) :=
  match v1, v2 with
  | some a, some b => v2vMinSpc1 T l a b dirX ++ v2vMinSpc2 T l a b dirX ++ v2vMinCut T l a b ++ v2vCutSpc T a b dirX
  | _, _ => []

/-- `prep_via2viaForbiddenLen` for one layer: the eight entries — src/rp/FlexRP_prep.cpp:344-366. -/
def v2vTable (T : RTech) (l : Int) (down up : Option RVia) : LenTable :=
  let f := fun v1 v2 dirX => storeRanges (v2vRanges T l v1 v2 dirX)
  [f down down true, f down down false, f down up true, f down up false,
   f up down true, f up down false, f up up true, f up up false]

/-- `prep_viaForbiddenTurnLen_minSpc` — src/rp/FlexRP_prep.cpp:284-332. -/
def turnRanges (T : RTech) (l : Int) (v : Option RVia) (dirX : Bool) : List (Int × Int) :=
  match v with
  | none => []
  | some v =>
    let b := v.boxOn l
    if b.across dirX > T.width l then
      spcRange ((b.along dirX + T.width l).tdiv 2) (T.req l b.minSpan (T.width l) (b.across dirX))
    else []

/-- `prep_viaForbiddenTurnLen` for one layer — src/rp/FlexRP_prep.cpp:231-282. -/
def turnTable (T : RTech) (l : Int) (down up : Option RVia) : LenTable :=
  let f := fun v dirX => storeRanges (turnRanges T l v dirX)
  [f down true, f down false, f up true, f up false]

/-- `prep_lineForbiddenLen_minSpc` — src/rp/FlexRP_prep.cpp:143-170; `prep_lineForbiddenLen` 102-141. -/
def lineRanges (T : RTech) (l : Int) (zShape : Bool) : List (Int × Int) :=
  spcRange (T.width l) (T.req l (T.width l) (T.width l) (if zShape then T.width l else T.pitch l))

def lineTable (T : RTech) (l : Int) : LenTable :=
  [storeRanges (lineRanges T l true), storeRanges (lineRanges T l true),
   storeRanges (lineRanges T l false), storeRanges (lineRanges T l false)]

end TR
