import Verif.WB.Model
/-! # Model: writing the routes of a net to DEF and reading them back

Models `fillConnFigs_net`, `splitVia_helper`, `mergeSplitConnFigs`, `fillConnFigs` (src/io/io.cpp:5010-5338), the
routes printed for a net (src/io/defw.cpp:347-424), the default style of a layer (src/db/tech/frLayer.h:119-125)
and the reading of the wires of a net (`getDefNets`, src/io/io.cpp:617-846).

Simplifications:
* The text of the file is a list of paths, each a list of the elements the DEF parser library delivers
  (`DEFIPATH_LAYER`, …); the lexical form of a path and the library are not modelled.
* A `std::map` is the sorted list of its keys and the elements of a key; ends of wires are compared with the
  coordinate along the wire (`Point.a`), tracks with the one across (`Point.c`).
* Extensions and widths are natural numbers, coordinates unbounded integers. -/
namespace TR

/-- a via as it is printed: name of its definition, its lower layer, its cut layer, its origin —
src/io/defw.cpp:399-408, src/io/io.cpp:5114-5120. -/
structure OVia where
  name : String
  low : Int
  cut : Int
  o : Point
deriving DecidableEq, Repr

/-- an element of `connFigs` — src/io/io.cpp:5010-5054. -/
inductive OFig where
  | seg (s : DSeg)
  | via (v : OVia)
  | patch (p : DPatch)
deriving DecidableEq, Repr

/-- `getDefaultSegStyle` — src/db/tech/frLayer.h:119-125. -/
def defStyle (w : Nat) : SegStyle := ⟨.extend, w / 2, .extend, w / 2, w⟩

/-! ### maps -/

/-- insertion of a key into the sorted keys of a map -/
def insKey (lt : α → α → Bool) (x : α) : List α → List α
  | [] => [x]
  | y :: r => if lt x y then x :: y :: r else if lt y x then y :: insKey lt x r else y :: r

/-- the keys of a map after the insertions, in the order of iteration -/
def sortKeys (lt : α → α → Bool) (l : List α) : List α := l.foldl (fun acc x => insKey lt x acc) []

def intLt (a b : Int) : Bool := decide (a < b)

/-- `operator<` of a tuple of three numbers (`false < true`) -/
def lt3 (a b : Int × Int × Int) : Bool :=
  decide (a.1 < b.1 ∨ (a.1 = b.1 ∧ (a.2.1 < b.2.1 ∨ (a.2.1 = b.2.1 ∧ a.2.2 < b.2.2))))

/-! ### merging the wires of a track -/

/-- `make_tuple(layerNum, isH, trackLoc)` — src/io/io.cpp:5106-5111. -/
def DSeg.mkey (s : DSeg) : Int × Int × Int := (s.layer, if s.horz then 1 else 0, s.b.c s.horz)

/-- `beginCoord`, `endCoord` — src/io/io.cpp:5108-5109. -/
def DSeg.lo (s : DSeg) : Int := s.b.a s.horz
def DSeg.hi (s : DSeg) : Int := s.e.a s.horz

/-- the elements of `pathSegMergeMap[key][c]` in the order of insertion — src/io/io.cpp:5110-5111. -/
def trackEvents (segs : List DSeg) (c : Int) : List (DSeg × Bool) :=
  segs.flatMap (fun s => (if s.lo = c then [(s, true)] else []) ++ (if s.hi = c then [(s, false)] else []))

/-- `style` before the wires that begin are looked at: width 0 — src/io/io.cpp:5135, 5144-5145. -/
def cutStyle : SegStyle := ⟨.truncate, 0, .truncate, 0, 0⟩

/-- src/io/io.cpp:5147-5158. -/
def beginStyleOf (st : SegStyle) : List (DSeg × Bool) → SegStyle
  | [] => st
  | (s, isB) :: r =>
    beginStyleOf (if isB && decide (s.st.beginExt > st.beginExt) then
      { st with beginKind := s.st.beginKind, beginExt := s.st.beginExt } else st) r

/-- src/io/io.cpp:5164-5176: style, and `end` of the last wire that ends. -/
def endStyleOf (st : SegStyle) (e : Point) : List (DSeg × Bool) → SegStyle × Point
  | [] => (st, e)
  | (s, isB) :: r =>
    if isB then endStyleOf st e r
    else endStyleOf (if decide (s.st.endExt > st.endExt) then
      { st with endKind := s.st.endKind, endExt := s.st.endExt } else st) s.e r

/-- variables of the loop over the coordinates of a track; `cur` is `newPathSeg` while `hasSeg` —
src/io/io.cpp:5132-5136. -/
structure SweepSt where
  cnt : Int
  cur : Option DSeg
  out : List DSeg

/-- `cnt += …` — src/io/io.cpp:5139-5141. -/
def evCount : List (DSeg × Bool) → Int
  | [] => 0
  | (_, isB) :: r => (if isB then 1 else -1) + evCount r

/-- one coordinate of a track — src/io/io.cpp:5137-5182. A map element always has a wire; without one the model
does nothing. -/
def sweepStep (st : SweepSt) (evs : List (DSeg × Bool)) : SweepSt :=
  let cnt := st.cnt + evCount evs
  match st.cur with
  | none =>
    if cnt > 0 then
      match evs with
      | [] => { st with cnt := cnt }
      | (s0, _) :: _ => { st with cnt := cnt, cur := some { s0 with st := beginStyleOf cutStyle evs } }
    else { st with cnt := cnt }
  | some s =>
    if cnt = 0 then
      let r := endStyleOf s.st s.e evs
      { cnt := cnt, cur := none, out := st.out ++ [{ s with e := r.2, st := r.1 }] }
    else { st with cnt := cnt }

/-- the coordinates of a track in order — src/io/io.cpp:5110-5111, 5137. -/
def trackPts (segs : List DSeg) : List Int := sortKeys intLt (segs.flatMap (fun s => [s.lo, s.hi]))

/-- the merged wires of a track — src/io/io.cpp:5128-5184. -/
def mergeTrack (segs : List DSeg) : List DSeg :=
  ((trackPts segs).foldl (fun st c => sweepStep st (trackEvents segs c)) ⟨0, none, []⟩).out

/-- the wires that are merged: those with two different ends — src/io/io.cpp:5096-5111. -/
def longSegs (figs : List OFig) : List DSeg :=
  figs.filterMap (fun | .seg s => if s.b = s.e then none else some s | _ => none)

def segKeys (segs : List DSeg) : List (Int × Int × Int) := sortKeys lt3 (segs.map DSeg.mkey)

/-- `mergedPathSegs`: the wires of each layer, direction and track — src/io/io.cpp:5124-5184. -/
abbrev MergeMap := Int × Int × Int → List DSeg

def mergeAll (segs : List DSeg) : MergeMap := fun k => mergeTrack (segs.filter (fun s => s.mkey = k))

def MergeMap.put (m : MergeMap) (k : Int × Int × Int) (l : List DSeg) : MergeMap := fun k' => if k' = k then l else m k'

/-! ### splitting at vias -/

/-- the two parts of a wire split at a via — src/io/io.cpp:5065-5075; `w` is the width of the layer. -/
def viaSplit (w : Nat) (p : Point) (s : DSeg) : DSeg × DSeg :=
  ({ s with e := p, st := { s.st with endKind := .extend, endExt := w / 2 } },
   { s with b := p, st := { s.st with beginKind := .extend, beginExt := w / 2 } })

/-- the test of src/io/io.cpp:5063-5064. -/
def viaInside (isH : Int) (p : Point) (s : DSeg) : Bool :=
  (decide (isH = 0) && decide (s.b.x < p.x) && decide (s.e.x > p.x)) ||
  (decide (isH = 1) && decide (s.b.y < p.y) && decide (s.e.y > p.y))

/-- `splitVia_helper` — src/io/io.cpp:5056-5082: the first wire with the via inside is cut, the new part is put at
the end. `w` is the width of the layer. -/
def splitVia (w : Nat) (isH : Int) (p : Point) (l : List DSeg) : List DSeg :=
  match l.findIdx? (viaInside isH p) with
  | none => l
  | some i => match l[i]? with
    | none => l
    | some s => l.set i (viaSplit w p s).1 ++ [(viaSplit w p s).2]

/-- one call of the helper for a layer; layers outside the technology are left alone — src/io/io.cpp:5058-5059. -/
def splitViaAt (width : Int → Nat) (m : MergeMap) (layer isH : Int) (p : Point) : MergeMap :=
  let k := (layer, isH, if isH = 1 then p.y else p.x)
  m.put k (splitVia (width layer) isH p (m k))

/-- the four calls for a via; the third passes `isH = 0` — src/io/io.cpp:5188-5212. -/
def splitVias (width : Int → Nat) (m : MergeMap) : List (Int × Int × Int) → MergeMap
  | [] => m
  | (x, y, cut) :: r =>
    let m1 := splitViaAt width m (cut - 1) 1 ⟨x, y⟩
    let m2 := splitViaAt width m1 (cut - 1) 0 ⟨x, y⟩
    let m3 := splitViaAt width m2 (cut + 1) 0 ⟨x, y⟩
    let m4 := splitViaAt width m3 (cut + 1) 0 ⟨x, y⟩
    splitVias width m4 r

/-! ### splitting where a horizontal and a vertical wire meet -/

/-- `seg1` (vertical) is split at the height of `seg2` — src/io/io.cpp:5235. -/
def cutsV (s1 s2 : DSeg) : Bool := decide (s2.b.y > s1.b.y) && decide (s2.b.y < s1.e.y)
/-- `seg2` (horizontal) is split at `seg1` — src/io/io.cpp:5256. -/
def cutsH (s1 s2 : DSeg) : Bool := decide (s1.b.x > s2.b.x) && decide (s1.b.x < s2.e.x)

/-- the parts of `seg1` — src/io/io.cpp:5237-5253. -/
def partsV (w : Nat) (s1 s2 : DSeg) : DSeg × DSeg :=
  ({ s1 with e := ⟨s1.e.x, s2.e.y⟩, st := { s1.st with endKind := .extend, endExt := w / 2 } },
   { s1 with b := ⟨s1.e.x, s2.b.y⟩, st := { s1.st with beginKind := .extend, beginExt := w / 2 } })

/-- the parts of `seg2`; the new one is a copy of `seg1` with other ends and style — src/io/io.cpp:5258-5274. -/
def partsH (w : Nat) (s1 s2 : DSeg) : DSeg × DSeg :=
  ({ s2 with e := ⟨s1.e.x, s2.e.y⟩, st := { s2.st with endKind := .extend, endExt := w / 2 } },
   { s1 with b := ⟨s1.e.x, s2.b.y⟩, e := s2.e, st := { s2.st with beginKind := .extend, beginExt := w / 2 } })

/-- the pairs of positions in the order of the two inner loops — src/io/io.cpp:5222, 5227. -/
def pairIdx (n m : Nat) : List (Nat × Nat) := (List.range n).flatMap (fun i => (List.range m).map (fun j => (i, j)))

/-- the two inner loops: at most one pair of wires of the two tracks is split — src/io/io.cpp:5221-5286. -/
def splitPair (w : Nat) (vs hs : List DSeg) : List DSeg × List DSeg :=
  let hit := (pairIdx vs.length hs.length).find? (fun ij => match vs[ij.1]?, hs[ij.2]? with
    | some s1, some s2 => cutsV s1 s2 || cutsH s1 s2
    | _, _ => false)
  match hit with
  | none => (vs, hs)
  | some (i, j) => match vs[i]?, hs[j]? with
    | some s1, some s2 =>
      (if cutsV s1 s2 then vs.set i (partsV w s1 s2).1 ++ [(partsV w s1 s2).2] else vs,
       if cutsH s1 s2 then hs.set j (partsH w s1 s2).1 ++ [(partsH w s1 s2).2] else hs)
    | _, _ => (vs, hs)

/-- one vertical and one horizontal track of a layer — src/io/io.cpp:5217-5219. -/
def splitTracks (width : Int → Nat) (m : MergeMap) (kv kh : Int × Int × Int) : MergeMap :=
  let r := splitPair (width kv.1) (m kv) (m kh)
  (m.put kv r.1).put kh r.2

/-- the pairs of tracks in the order of the outer loops — src/io/io.cpp:5215-5219. -/
def crossPairs (keys : List (Int × Int × Int)) : List ((Int × Int × Int) × (Int × Int × Int)) :=
  (keys.filter (fun k => k.2.1 = 0)).flatMap (fun kv =>
    (keys.filter (fun k => k.2.1 = 1 ∧ k.1 = kv.1)).map (fun kh => (kv, kh)))

def splitCross (width : Int → Nat) (m : MergeMap) (keys : List (Int × Int × Int)) : MergeMap :=
  (crossPairs keys).foldl (fun m p => splitTracks width m p.1 p.2) m

/-! ### the whole -/

def OVia.key (v : OVia) : Int × Int × Int := (v.o.x, v.o.y, v.cut)

def figVias (figs : List OFig) : List OVia := figs.filterMap (fun | .via v => some v | _ => none)

/-- `viaMergeMap`: of the vias with one key the last is kept — src/io/io.cpp:5112-5119, 5309-5311. -/
def lastVias (vs : List OVia) : List OVia :=
  (sortKeys lt3 (vs.map OVia.key)).filterMap (fun k => vs.reverse.find? (fun v => decide (v.key = k)))

/-- `mergeSplitConnFigs` — src/io/io.cpp:5085-5313; `width` gives the width of each layer of the technology. -/
def mergeSplit (width : Int → Nat) (figs : List OFig) : List OFig :=
  let segs := longSegs figs
  let keys := segKeys segs
  let m := splitCross width (splitVias width (mergeAll segs) (sortKeys lt3 ((figVias figs).map OVia.key))) keys
  (keys.flatMap m).map .seg ++ (lastVias (figVias figs)).map .via

/-! ### printing -/

/-- the elements of a path delivered by the DEF parser: `DEFIPATH_*` — src/io/io.cpp:677-769. -/
inductive PathTok where
  | layer (n : String)
  | via (n : String)
  | width (w : Nat)
  | point (x y : Int)
  | flush (x y : Int) (ext : Int)
  | shape
  | rect (l b r t : Int)
  | virt (x y : Int)
deriving DecidableEq, Repr

/-- what the writer and the reader know of the technology -/
structure DefTech where
  layerName : Int → String
  layerNum : String → Option Int
  width : Int → Nat
  viaDef : String → Option (Int × Int)

/-- an end of a wire — src/io/defw.cpp:377-394. -/
def endTok (k : EndKind) (ext : Nat) (p : Point) : PathTok :=
  match k with
  | .extend => .point p.x p.y
  | .truncate => .flush p.x p.y 0
  | .variable => .flush p.x p.y ext

/-- a path — src/io/defw.cpp:351-419. -/
def writeFig (T : DefTech) : OFig → List PathTok
  | .seg s => [.layer (T.layerName s.layer), endTok s.st.beginKind s.st.beginExt s.b,
      endTok s.st.endKind s.st.endExt s.e]
  | .via v => [.layer (T.layerName v.low), .point v.o.x v.o.y, .via v.name]
  | .patch p => [.layer (T.layerName p.layer), .point p.o.x p.o.y, .rect p.off.left p.off.bottom p.off.right p.off.top]

/-- a routed net of the design: wires, vias and patches, and the routes of its guides -/
structure ONet where
  name : String
  shapes : List DSeg
  vias : List OVia
  patches : List DPatch
  guides : List (List OFig)

/-- `fillConnFigs_net` — src/io/io.cpp:5010-5054 (routes of guides are wires and vias, other objects are left out). -/
def netFigs (isTA : Bool) (n : ONet) : List OFig :=
  if isTA then n.guides.flatten.filter (fun | .patch _ => false | _ => true)
  else n.shapes.map .seg ++ n.vias.map .via ++ n.patches.map .patch

/-- `fillConnFigs`: `connFigs` of a net name — src/io/io.cpp:5325-5338. -/
def connFigs (T : DefTech) (isTA : Bool) (nets : List ONet) (name : String) : List OFig :=
  let l := (nets.filter (fun n => n.name = name)).flatMap (netFigs isTA)
  if isTA then mergeSplit T.width l else l

/-- the routes printed for a net of the reference file — src/io/defw.cpp:347-424. -/
def writeNet (T : DefTech) (isTA : Bool) (nets : List ONet) (name : String) : List (List PathTok) :=
  (connFigs T isTA nets name).map (writeFig T)

/-! ### reading -/

/-- variables of a path — src/io/io.cpp:655-674. -/
structure RdSt where
  layer : String := ""
  via : Option String := none
  beg : Option Point := none
  fin : Option Point := none
  begExt : Int := -1
  finExt : Int := -1
  rect : Bool := false
  width : Nat := 0

/-- one element — src/io/io.cpp:678-768. An unknown layer ends the program (`none`). -/
def rdTok (T : DefTech) (st : RdSt) : PathTok → Option RdSt
  | .layer n => if (T.layerNum n).isSome then some { st with layer := n } else none
  | .via n => some { st with via := some n }
  | .width w => some { st with width := w }
  | .point x y => some (match st.beg with
    | none => { st with beg := some ⟨x, y⟩ }
    | some _ => { st with fin := some ⟨x, y⟩ })
  | .flush x y e => some (match st.beg with
    | none => { st with beg := some ⟨x, y⟩, begExt := e }
    | some _ => { st with fin := some ⟨x, y⟩, finExt := e })
  | .shape => some { st with begExt := 0, finExt := 0 }
  | .rect _ _ _ _ => some { st with rect := true }
  | .virt x y => some (match st.beg with
    | none => { st with beg := some ⟨x, y⟩ }
    | some _ => { st with fin := some ⟨x, y⟩ })

def rdToks (T : DefTech) (st : RdSt) : List PathTok → Option RdSt
  | [] => some st
  | t :: r => (rdTok T st t).bind (fun st' => rdToks T st' r)

/-- style of an end — src/io/io.cpp:797-820. -/
def rdEnd (w : Nat) (ext : Int) : EndKind × Nat :=
  if ext = -1 then (.extend, w / 2) else if ext = 0 then (.truncate, 0) else (.variable, ext.toNat)

/-- the wire of a path — src/io/io.cpp:778-822. -/
def rdSeg (net : Nat) (l : Int) (w0 : Nat) (st : RdSt) (b e : Point) : DSeg :=
  let sw := decide (b.x > e.x) || decide (b.y > e.y)
  let w := if st.width = 0 then w0 else st.width
  let be := rdEnd w (if sw then st.finExt else st.begExt)
  let en := rdEnd w (if sw then st.begExt else st.finExt)
  ⟨net, l, if sw then e else b, if sw then b else e, ⟨be.1, be.2, en.1, en.2, w⟩⟩

/-- what a path adds to its net — src/io/io.cpp:772-844: nothing with a `RECT`; a wire with two points; a via whose
definition is known at the last point. A path without a point leaves the coordinates at -1. -/
def rdPath (T : DefTech) (net : Nat) (p : List PathTok) : Option (List DSeg × List OVia) :=
  (rdToks T {} p).bind (fun st =>
    (T.layerNum st.layer).map (fun l =>
      if st.rect then ([], [])
      else
        let b := st.beg.getD ⟨-1, -1⟩
        ((match st.fin with
          | some e => [rdSeg net l (T.width l) st b e]
          | none => []),
         (match st.via with
          | some n => (match T.viaDef n with
            | some (low, cut) => [⟨n, low, cut, st.fin.getD b⟩]
            | none => [])
          | none => []))))

/-- the wires and vias of the paths of a net, in order — src/io/io.cpp:640-846. -/
def rdNet (T : DefTech) (net : Nat) : List (List PathTok) → Option (List DSeg × List OVia)
  | [] => some ([], [])
  | p :: r => (rdPath T net p).bind (fun a => (rdNet T net r).map (fun b => (a.1 ++ b.1, a.2 ++ b.2)))

end TR
