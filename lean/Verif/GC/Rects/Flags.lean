import Verif.GC.Rects.Model
import Verif.GcDb.Model
/-! # Model: flags of corners

Models src/gc/FlexGC_init.cpp:626-643. -/
namespace TR

/-- a point on the border of a rectangle: boost::polygon `contains` with and without the border — src/gc/FlexGC_init.cpp:638. -/
def onBorder (p : Point) (b : Box) : Bool :=
  decide (b.left ≤ p.x ∧ p.x ≤ b.right ∧ b.bottom ≤ p.y ∧ p.y ≤ b.top) && !decide (b.left < p.x ∧ p.x < b.right ∧ b.bottom < p.y ∧ p.y < b.top)

/-- the fixed flag of a corner — src/gc/FlexGC_init.cpp:626-643. `getRectangles` are the shapes added as single rectangles, not the polygons. -/
def cornFixed (d : DbNet) (layer : Nat) (c : GCorner) : Bool :=
  match c.kind with
  | .convex => (d.fixedCut.filter (fun x => decide (x.1 = layer))).any (fun x => cornerOn c x.2)
  | .concave => !(d.routeCut.filter (fun x => decide (x.1 = layer))).any (fun x => onBorder c.pt x.2)
  | .unknown => false

end TR
