import Verif.GC.Corner
/-! # Model: maximal rectangles and the rectangles-only rule

Models the use of maximal rectangles in src/gc/FlexGC_init.cpp:671-728 and src/gc/FlexGC_main.cpp:1623-1718.

Simplifications:
* boost::polygon's `get_max_rectangles` is modelled by a search over the coordinates of the boxes that make up a shape.
  That it returns the maximal rectangles is its contract; c114 shows that the search does.
* The area of an intersection is the number of unit cells in it. -/
namespace TR

/-- every unit cell of a rectangle lies in one of the boxes -/
def insideAll (bs : List Box) (r : Box) : Bool := (unitCells r).all (fun c => bs.any (fun b => cellIn b c))

/-- the rectangle grown by one unit to the left, right, bottom, top -/
def growL (r : Box) : Box := ⟨⟨r.left - 1, r.bottom⟩, ⟨r.right, r.top⟩⟩
def growR (r : Box) : Box := ⟨⟨r.left, r.bottom⟩, ⟨r.right + 1, r.top⟩⟩
def growB (r : Box) : Box := ⟨⟨r.left, r.bottom - 1⟩, ⟨r.right, r.top⟩⟩
def growT (r : Box) : Box := ⟨⟨r.left, r.bottom⟩, ⟨r.right, r.top + 1⟩⟩

/-- drop repeated elements -/
def distinctRects : List Box → List Box
  | [] => []
  | r :: rs => if r ∈ distinctRects rs then distinctRects rs else r :: distinctRects rs

/-- boost::polygon `get_max_rectangles`, as called in src/gc/FlexGC_init.cpp:677, 722 and src/gc/FlexGC_main.cpp:1644, 1678. -/
def maxRects (bs : List Box) : List Box :=
  distinctRects (((bs.map Box.left).flatMap (fun l => (bs.map Box.right).flatMap (fun r =>
    (bs.map Box.bottom).flatMap (fun b => (bs.map Box.top).map (fun t => (⟨⟨l, b⟩, ⟨r, t⟩⟩ : Box)))))).filter (fun r =>
      decide (r.left < r.right) && decide (r.bottom < r.top) && insideAll bs r &&
      !insideAll bs (growL r) && !insideAll bs (growR r) && !insideAll bs (growB r) && !insideAll bs (growT r)))

/-- `initNet_pins_maxRectangles` with its helpers — src/gc/FlexGC_init.cpp:671-728, metal of one net on one layer: the maximal rectangles
of routed and fixed metal together, each with its fixed flag. Simplification: all polygons of the net on the layer at once. -/
def flaggedRects (routed fixed : List Box) : List (Box × Bool) :=
  (maxRects (routed ++ fixed)).map (fun r => (r, decide (r ∈ maxRects fixed)))

/-- an edge of an outline: direction and end point; the metal is on its left -/
abbrev REdge := EDir × Point

/-- the concave corners of an outline — src/gc/FlexGC_main.cpp:1650-1660. -/
def concaveOf (ring : List REdge) : List Point :=
  (List.range ring.length).filterMap (fun i => match ring[i]?, ring[(i + 1) % ring.length]? with
    | some e, some f => if turnSign e.1 f.1 = -1 then some e.2 else none
    | _, _ => none)

/-- the square around a corner — src/gc/FlexGC_main.cpp:1664-1665. -/
def cornerSquare (p : Point) (w : Int) : Box := ⟨⟨p.x - w, p.y - w⟩, ⟨p.x + w, p.y + w⟩⟩

/-- `checkMetalShape_rectOnly` for a layer with the rule — src/gc/FlexGC_main.cpp:1623-1718: the boxes of the violations. -/
def rectOnlyCheck (minWidth : Nat) (metal fixed : List Box) (rings : List (List REdge)) : List Box :=
  if (maxRects metal).length = 1 then []
  else (rings.flatMap concaveOf).flatMap (fun p =>
    let q := cornerSquare p minWidth
    if (unitCells q).countP (fun c => metal.any (fun b => cellIn b c) && fixed.any (fun b => cellIn b c)) = coveredArea q metal then []
    else maxRects (metal.map (boxMeet q)))

end TR
