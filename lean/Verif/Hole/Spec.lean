import Verif.Hole.Model
import Verif.GC.ShapeSpec
import Verif.GC.Rects.Spec
/-! # Specification: steps at line ends, holes, all shape rules, patches -/
namespace TR

/-- the smallest rectangle around points -/
structure Tight (ps : List Point) (b : Box) : Prop where
  holds : ∀ p ∈ ps, b.Has p
  left : ∃ p ∈ ps, p.x = b.left
  right : ∃ p ∈ ps, p.x = b.right
  bottom : ∃ p ∈ ps, p.y = b.bottom
  top : ∃ p ∈ ps, p.y = b.top

/-- the outline turns to the left from one edge to the next -/
def TurnsLeft (a b : OEdge) : Prop :=
  0 < (a.hi.x - a.lo.x) * (b.hi.y - b.lo.y) - (a.hi.y - a.lo.y) * (b.hi.x - b.lo.x)

/-- a step at a line end: somewhere around the outline come an edge shorter than `len`, the end of a line narrower than `eol` (the outline
turns left before and after it), and again an edge shorter than `len`; one of the three belongs to routed metal, and `b` is the
rectangle around the corners from the beginning of the first edge to the end of the third -/
def EolStep (len eol : Int) (es : List OEdge) (b : Box) : Prop :=
  ∃ i, i < es.length ∧ (Ring es i).len < len ∧ (Ring es (i + 2)).len < len ∧
    TurnsLeft (Ring es i) (Ring es (i + 1)) ∧ TurnsLeft (Ring es (i + 1)) (Ring es (i + 2)) ∧ (Ring es (i + 1)).len < eol ∧
    ((Ring es i).fixed = false ∨ (Ring es (i + 1)).fixed = false ∨ (Ring es (i + 2)).fixed = false) ∧
    Tight [(Ring es i).lo, (Ring es i).hi, (Ring es (i + 1)).hi, (Ring es (i + 2)).hi] b

/-- a side of a polygon counts for a cell: how often, and in which direction (up `1`, down `-1`), it crosses the ray from the middle of
the cell to the left -/
def rayCross (c : Point) (e : Point × Point) : Int :=
  if e.1.x = e.2.x ∧ e.1.x ≤ c.x then
    if e.1.y ≤ c.y ∧ c.y < e.2.y then 1
    else if e.2.y ≤ c.y ∧ c.y < e.1.y then -1
    else 0
  else 0

/-- how often the polygon runs around the cell -/
def winding (ps : List Point) (c : Point) : Int := ((polySides ps).map (rayCross c)).sum

/-- the cell lies inside of the polygon -/
def Inside (ps : List Point) (c : Point) : Prop := winding ps c ≠ 0

/-- a simple rectilinear polygon: all sides run along an axis, and it runs around each cell once or not at all, always in the same
direction -/
structure SimplePoly (ps : List Point) : Prop where
  ne : ps ≠ []
  sides : ∀ e ∈ polySides ps, e.1.x = e.2.x ∨ e.1.y = e.2.y
  once : (∀ c, winding ps c = 0 ∨ winding ps c = 1) ∨ (∀ c, winding ps c = 0 ∨ winding ps c = -1)

/-- the set of cells has `n` elements -/
def HasSize (S : Point → Prop) (n : Nat) : Prop := ∃ l : List Point, l.Nodup ∧ (∀ c, c ∈ l ↔ S c) ∧ l.length = n

/-- the metal and the routed metal have a cell in common -/
def PartRouted (metal routed : List Box) : Prop := ∃ c, (∃ m ∈ metal, CellOf m c) ∧ ∃ r ∈ routed, CellOf r c

/-- a hole that is too small for a MINENCLOSEDAREA statement without a WIDTH, in metal that is routed in part -/
def HoleViolation (ss : List HoleStmt) (metal routed : List Box) (holes : List (List Point)) (id : Nat) (b : Box) : Prop :=
  ∃ s ∈ ss, s.id = id ∧ s.width = none ∧ ∃ h ∈ holes, (∃ n : Nat, HasSize (Inside h) n ∧ (n : Int) < s.area) ∧
    PartRouted metal routed ∧ Tight h b

/-- the layer is one the worker looks at -/
def ShpDb.Looks (D : ShpDb) (i : Int) (L : ShapeLayer) : Prop :=
  D.layer i = some L ∧ D.bottom ≤ i ∧ i ≤ D.top ∧ D.minLayer ≤ i ∧ i ≤ D.maxLayer

/-- the net is the one asked for, or any if none was asked for -/
def ShpDb.Asks (D : ShpDb) (n : Nat) : Prop :=
  (∀ t, D.target = some t → n = t) ∧ (D.target = none → n ∈ D.nets)

/-- a rule is broken by a polygon of a net on a layer, with marker box `b` -/
def BreaksRule (L : ShapeLayer) (grid : Int) (fixed routed : List Box) (P : ShapePin) : ShapeRule → Box → Prop
  | .width, b => (b ∈ P.hSlices ∧ b.right - b.left < L.minWidth ∨ b ∈ P.vSlices ∧ b.top - b.bottom < L.minWidth) ∧
      ∃ c, CellOf b c ∧ ¬ ∃ s ∈ fixed, CellOf s c
  | .area, _ => False
  | .step, b => ∃ c es, L.step = some c ∧ es ∈ P.outlines ∧ c.type = none ∧ StepViolation c es b
  | .step58 id, b => ∃ r ∈ L.step58, r.id = id ∧ ∃ w es, r.eol = some w ∧ es ∈ P.outlines ∧ EolStep r.len w es b
  | .rectOnly, b => L.rectOnly = true ∧ ¬ IsRectangle P.metal ∧ ∃ p, (∃ es ∈ P.outlines, TurnsRightAt (es.map OEdge.toR) p) ∧
      (∃ c, CellOf ⟨⟨p.x - L.minWidth, p.y - L.minWidth⟩, ⟨p.x + L.minWidth, p.y + L.minWidth⟩⟩ c ∧ MetalCell P.metal c ∧ ¬ MetalCell fixed c) ∧
      Solid b ∧ (∀ c, CellOf b c → CellOf ⟨⟨p.x - L.minWidth, p.y - L.minWidth⟩, ⟨p.x + L.minWidth, p.y + L.minWidth⟩⟩ c ∧ MetalCell P.metal c) ∧
      (∀ s, Solid s → (∀ c, CellOf s c → CellOf ⟨⟨p.x - L.minWidth, p.y - L.minWidth⟩, ⟨p.x + L.minWidth, p.y + L.minWidth⟩⟩ c ∧ MetalCell P.metal c) →
        LiesIn b s → s = b)
  | .grid, b => b ∈ P.rects ∧ ¬ (grid ∣ b.left ∧ grid ∣ b.right ∧ grid ∣ b.bottom ∧ grid ∣ b.top) ∧ ∃ c, CellOf b c ∧ ∃ s ∈ routed, CellOf s c
  | .hole id, b => HoleViolation L.holes P.metal routed P.holes id b

/-- a figure that a patch may start from: a via of the marker's net with its lower metal on the marker's layer, its origin on the vertical or
horizontal line through the middle of the marker (rounded toward zero) -/
def Patchable (m : ShapeMk) (f : NearFig) : Prop :=
  f.via = true ∧ f.owner = m.src ∧ f.layer1 = m.layer ∧
    (f.origin.x = (m.box.left + m.box.right).tdiv 2 ∨ f.origin.y = (m.box.bottom + m.box.top).tdiv 2)

/-- the metal of a patch: its offset box, moved to its origin -/
def PatchMk.metal (p : PatchMk) : Box :=
  ⟨⟨p.off.left + p.origin.x, p.off.bottom + p.origin.y⟩, ⟨p.off.right + p.origin.x, p.off.top + p.origin.y⟩⟩

end TR
