import Verif.GCell.Model
import Verif.GC.Model
/-! Boundary pins of the first detailed routing iteration (src/dr/FlexDR.cpp:146-274, 1253-1277).

Simplifications: coordinates are unbounded integers; the maps and sets of pins are lists of which only membership is used; the
reported errors for non-orthogonal wires add nothing. -/
namespace TR

/-- a wire that track assignment left in a guide: `frPathSeg` in `frGuide::getRoutes` -/
structure TWire where
  net : Nat
  layer : Nat
  b : Point
  e : Point
deriving DecidableEq

/-- wires that are skipped — src/dr/FlexDR.cpp:167-169 -/
def TWire.dummy (w : TWire) : Bool :=
  decide (w.e.x - w.b.x + w.e.y - w.b.y = 1) || decide (w.e.x - w.b.x + w.e.y - w.b.y = 0)

/-- the pins that a wire leaves in the GCells, each with its GCell — src/dr/FlexDR.cpp:158-268; `none`: undefined behaviour -/
def wirePins (g : GGrid) (w : TWire) : Option (List (Point × Point)) :=
  if w.dummy then some []
  else
    match g.idx w.b, g.idx w.e with
    | some i1, some i2 =>
      if w.b.y = w.e.y then
        some ((intsFrom i1.x (i2.x + 1)).flatMap (fun x =>
          let bx := g.box ⟨x, i1.y⟩
          (if w.b.x < bx.left then [(⟨x, i1.y⟩, ⟨bx.left, w.b.y⟩)] else []) ++
          (if w.e.x ≥ bx.right then [(⟨x, i1.y⟩, ⟨bx.right, w.e.y⟩)] else [])))
      else if w.b.x = w.e.x then
        some ((intsFrom i1.y (i2.y + 1)).flatMap (fun y =>
          let bx := g.box ⟨i1.x, y⟩
          (if w.b.y < bx.bottom then [(⟨i1.x, y⟩, ⟨w.b.x, bx.bottom⟩)] else []) ++
          (if w.e.y ≥ bx.top then [(⟨i1.x, y⟩, ⟨w.e.x, bx.top⟩)] else [])))
      else some []
    | _, _ => none

/-- an entry of `gcell2BoundaryPin` -/
structure CellPin where
  cell : Point
  net : Nat
  pt : Point
  layer : Nat
deriving DecidableEq

/-- `initGCell2BoundaryPin` — src/dr/FlexDR.cpp:146-274 -/
def cellPins (g : GGrid) : List TWire → Option (List CellPin)
  | [] => some []
  | w :: rest =>
    match wirePins g w with
    | none => none
    | some l =>
      match cellPins g rest with
      | none => none
      | some r => some (l.map (fun q => ⟨q.1, w.net, q.2, w.layer⟩) ++ r)

/-- `initDR_mergeBoundaryPin` — src/dr/FlexDR.cpp:1258-1277, the pins of one net, with their layers -/
def mergePins (g : GGrid) (pins : List CellPin) (startX startY size : Int) (rb : Box) (net : Nat) : List (Point × Nat) :=
  (intsFrom startX (min g.xp.count (startX + size))).flatMap (fun i =>
    (intsFrom startY (min g.yp.count (startY + size))).flatMap (fun j =>
      ((pins.filter (fun q => decide (q.cell = ⟨i, j⟩) && decide (q.net = net))).filter (fun q =>
        decide (q.pt.x = rb.left) || decide (q.pt.x = rb.right) || decide (q.pt.y = rb.bottom) || decide (q.pt.y = rb.top))).map
          (fun q => (q.pt, q.layer))))

/-- the boundary pins a worker of the first iteration gets for a net — src/dr/FlexDR.cpp:1379, 1595 -/
def workerPins (g : GGrid) (pins : List CellPin) (clip : Int) (W : Worker) (net : Nat) : List (Point × Nat) :=
  mergePins g pins W.i W.j clip W.routeBox net

end TR
