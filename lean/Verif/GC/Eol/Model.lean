import Verif.GC.Model
/-! # Geometry checker: end-of-line spacing

Models `checkMetalEndOfLine` and the functions it calls, `src/gc/FlexGC_main.cpp:1922-2345`.

Simplifications: coordinates are unbounded integers; the shapes of the layer are given (edges of all outlines with their neighbours, maximal
rectangles, routed area of each net); queries of the r-trees return the matching objects in any order. -/
namespace TR

/-- `gcSegment` of an outline, metal on its left, with the start of the edge before it and the end of the edge after it -/
structure LEdge where
  prevLo : Point
  lo : Point
  hi : Point
  nextHi : Point
  net : Nat
  fixed : Bool
deriving DecidableEq

/-- `frSpacingEndOfLineConstraint` — src/db/tech/frConstraint.h:794-844. -/
structure EolRule where
  id : Nat
  space : Int
  width : Int
  within : Int
  parSpace : Int
  parWithin : Int
  twoEdges : Bool

/-- the shapes of a layer -/
structure EolDb where
  layer : Int
  owner : Nat → Nat
  route : Nat → List Box
  rects : List Box
  edges : List LEdge

/-- `gcSegment::getDir` — src/db/gcObj/gcShape.h:153-171. -/
def LEdge.dir (e : LEdge) : EDir :=
  if e.lo.x = e.hi.x then (if e.lo.y < e.hi.y then .N else .S) else (if e.lo.x < e.hi.x then .E else .W)

/-- boost::polygon `orientation` of the segments `ab` and `cd`: the sign of the cross product -/
def segOrient (a b c d : Point) : Int := ((b.x - a.x) * (d.y - c.y) - (b.y - a.y) * (d.x - c.x)).sign

/-- `OPPOSITEDIR`: two directions are opposite — src/frBaseTypes.h:211-212. -/
def EDir.code : EDir → Int
  | .S => 2
  | .W => 3
  | .E => 4
  | .N => 5

/-- length of an axis-parallel edge -/
def LEdge.len (e : LEdge) : Int := (e.hi.x - e.lo.x).natAbs + (e.hi.y - e.lo.y).natAbs

/-- `checkMetalEndOfLine_eol_isEolEdge` — src/gc/FlexGC_main.cpp:1922-1934. -/
def isEolEdge (c : EolRule) (e : LEdge) : Bool :=
  if e.len ≥ c.width then false
  else if !(decide (segOrient e.prevLo e.lo e.lo e.hi = 1) && decide (segOrient e.lo e.hi e.hi e.nextHi = 1)) then false
  else true

/-- `checkMetalEndOfLine_eol_hasParallelEdge_oneDir_getQueryBox` — src/gc/FlexGC_main.cpp:1937-1994. -/
def eolParBox (c : EolRule) (low : Bool) (e : LEdge) : Box :=
  if low then
    match e.dir with
    | .E => ⟨⟨e.lo.x - c.parSpace, e.lo.y - c.within⟩, ⟨e.lo.x, e.lo.y + c.parWithin⟩⟩
    | .W => ⟨⟨e.lo.x, e.lo.y - c.parWithin⟩, ⟨e.lo.x + c.parSpace, e.lo.y + c.within⟩⟩
    | .N => ⟨⟨e.lo.x - c.parWithin, e.lo.y - c.parSpace⟩, ⟨e.lo.x + c.within, e.lo.y⟩⟩
    | .S => ⟨⟨e.lo.x - c.within, e.lo.y⟩, ⟨e.lo.x + c.parWithin, e.lo.y + c.parSpace⟩⟩
  else
    match e.dir with
    | .E => ⟨⟨e.hi.x, e.hi.y - c.within⟩, ⟨e.hi.x + c.parSpace, e.hi.y + c.parWithin⟩⟩
    | .W => ⟨⟨e.hi.x - c.parSpace, e.hi.y - c.parWithin⟩, ⟨e.hi.x, e.hi.y + c.within⟩⟩
    | .N => ⟨⟨e.hi.x - c.parWithin, e.hi.y⟩, ⟨e.hi.x + c.within, e.hi.y + c.parSpace⟩⟩
    | .S => ⟨⟨e.hi.x - c.within, e.hi.y - c.parSpace⟩, ⟨e.hi.x + c.parWithin, e.hi.y⟩⟩

/-- `checkMetalEndOfLine_eol_hasParallelEdge_oneDir_getParallelEdgeRect` — src/gc/FlexGC_main.cpp:1996-2018. -/
def edgeStrip (e : LEdge) : Box :=
  match e.dir with
  | .E => ⟨⟨e.lo.x, e.lo.y⟩, ⟨e.hi.x, e.hi.y + 1⟩⟩
  | .W => ⟨⟨e.hi.x, e.hi.y - 1⟩, ⟨e.lo.x, e.lo.y⟩⟩
  | .N => ⟨⟨e.lo.x - 1, e.lo.y⟩, ⟨e.hi.x, e.hi.y⟩⟩
  | .S => ⟨⟨e.hi.x, e.hi.y⟩, ⟨e.lo.x + 1, e.lo.y⟩⟩

/-- `checkMetalEndOfLine_eol_hasEol_getQueryBox` — src/gc/FlexGC_main.cpp:2088-2117. -/
def eolBox (c : EolRule) (e : LEdge) : Box :=
  match e.dir with
  | .E => ⟨⟨e.lo.x - c.within, e.lo.y - c.space⟩, ⟨e.hi.x + c.within, e.hi.y⟩⟩
  | .W => ⟨⟨e.hi.x - c.within, e.hi.y⟩, ⟨e.lo.x + c.within, e.lo.y + c.space⟩⟩
  | .N => ⟨⟨e.lo.x, e.lo.y - c.within⟩, ⟨e.hi.x + c.space, e.hi.y + c.within⟩⟩
  | .S => ⟨⟨e.hi.x - c.space, e.hi.y - c.within⟩, ⟨e.lo.x, e.lo.y + c.within⟩⟩

/-- boost::polygon `intersects(a, b, false)`: the interiors meet -/
def meetInside (a b : Box) : Bool := decide (max a.left b.left < min a.right b.right) && decide (max a.bottom b.bottom < min a.top b.top)

/-- the part of the strip of an edge in a rectangle has routed metal of the net of the edge — src/gc/FlexGC_main.cpp:2053-2066, 2243-2256. -/
def stripRouted (D : EolDb) (q : Box) (f : LEdge) : Bool := !f.fixed && decide (coveredArea (boxMeet q (edgeStrip f)) (D.route f.net) ≠ 0)

/-- the loop of `checkMetalEndOfLine_eol_hasParallelEdge_oneDir` — src/gc/FlexGC_main.cpp:2033-2069; the result and `hasRoute` -/
def parLoop (D : EolDb) (c : EolRule) (low : Bool) (e : LEdge) : List LEdge → Bool × Bool → Bool × Bool
  | [], s => s
  | p :: t, s =>
    if (if low then segOrient p.lo p.hi e.lo e.hi else segOrient e.lo e.hi p.lo p.hi) ≠ -1 then parLoop D c low e t s
    else if !meetInside (eolParBox c low e) (edgeStrip p) then parLoop D c low e t s
    else if !s.2 && stripRouted D (eolParBox c low e) p then (true, true)
    else parLoop D c low e t (true, s.2)

/-- `checkMetalEndOfLine_eol_hasParallelEdge` — src/gc/FlexGC_main.cpp:2073-2086; the result and `hasRoute` -/
def hasParallel (D : EolDb) (c : EolRule) (query : Box → List LEdge) (e : LEdge) (hasRoute : Bool) : Bool × Bool :=
  if c.parSpace = -1 then (true, hasRoute)
  else
    let l := parLoop D c true e (query (eolParBox c true e)) (false, hasRoute)
    let r := parLoop D c false e (query (eolParBox c false e)) (false, l.2)
    if !c.twoEdges && (l.1 || r.1) then (true, r.2)
    else if c.twoEdges && l.1 && r.1 then (true, r.2)
    else (false, r.2)

/-- `checkMetalEndOfLine_eol_hasEol_helper` — src/gc/FlexGC_main.cpp:2119-2172. -/
def eolHelper (D : EolDb) (c : EolRule) (e f : LEdge) : List GMk :=
  let m := genIntersect (edgeStrip e) (edgeStrip f)
  let b :=
    if (m.right - m.left) * (m.top - m.bottom) = 0 then
      (if e.dir = .W ∨ e.dir = .E then (⟨⟨m.left - 1, m.bottom⟩, ⟨m.right + 1, m.top⟩⟩ : Box)
       else ⟨⟨m.left, m.bottom - 1⟩, ⟨m.right, m.top + 1⟩⟩)
    else m
  if D.rects.any (fun r => meetInside b r) then []
  else [⟨m, D.layer, .other c.id, srcPair (D.owner e.net) (D.owner f.net)⟩]

/-- the loop of `checkMetalEndOfLine_eol_hasEol` — src/gc/FlexGC_main.cpp:2232-2263. -/
def eolLoop (D : EolDb) (c : EolRule) (e : LEdge) : List LEdge → Bool → List GMk
  | [], _ => []
  | f :: t, hasRoute =>
    if e.dir.code + f.dir.code ≠ 7 then eolLoop D c e t hasRoute
    else if !meetInside (eolBox c e) (edgeStrip f) then eolLoop D c e t hasRoute
    else
      let hr := if !hasRoute && stripRouted D (eolBox c e) f then true else hasRoute
      if !hr then eolLoop D c e t hr
      else eolHelper D c e f ++ eolLoop D c e t hr

/-- `checkMetalEndOfLine_eol` — src/gc/FlexGC_main.cpp:2266-2296. -/
def eolEdge (D : EolDb) (c : EolRule) (query : Box → List LEdge) (e : LEdge) : List GMk :=
  if !isEolEdge c e then []
  else
    let hr0 := !e.fixed && decide (coveredArea (edgeStrip e) (D.route e.net) ≠ 0)
    let t := hasParallel D c query e hr0
    if !t.1 then []
    else eolLoop D c e (query (eolBox c e)) t.2

/-- `checkMetalEndOfLine_main` for the edges `es` — src/gc/FlexGC_main.cpp:2298-2318. -/
def eolCheck (D : EolDb) (cons : List EolRule) (query : Box → List LEdge) (es : List LEdge) : List GMk :=
  es.flatMap (fun e => cons.flatMap (fun c => eolEdge D c query e))

end TR
