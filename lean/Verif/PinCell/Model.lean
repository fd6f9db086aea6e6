import Verif.GCell.Model
import Verif.Guide.Model
/-!
# The GCells of the terminals of a net

Models `genGuides_gCell2TermMap`, `genGuides_gCell2PinMap`, `genGuides_gCell2APInstTermMap`, `genGuides_gCell2APTermMap` and
`genGuides_addCoverGuide` — src/io/io_guide.cpp:265-574. They make the parameter `pinCells` of `Verif.Guide.Model` and, for one process,
add guides to the guides of a net.

Simplifications:
* the entries that a terminal makes in `gCell2PinMap` are a list; the map itself is the union over the terminals.
* pins consist of rectangles (the reader makes no others; any other shape ends the program, src/io/io_guide.cpp:324-327).
* `getPinAccess(i)` with an index out of range, which is undefined, gives no access points.
* `DBPROCESSNODE == "GF14_13M_3Mx_2Cx_4Kx_2Hx_2Gx_LB"` is the parameter `byAccess`.
-/
namespace TR

/-- what is read: the GCells, preferred directions (`some true`: horizontal; `none`: neither), `USENONPREFTRACKS`, `getTopLayerNum` -/
structure PcTech where
  grid : GGrid
  dir : Int → Option Bool
  nonPref : Bool
  top : Int

/-- a pin: its rectangles with their layers, and its access points (point, layer) for each class of instances -/
structure PcPin where
  shapes : List (Int × Box)
  access : List (List (Point × Int))

/-- the instance of a terminal: `getUpdatedXform`, `getTransform`, `getPinAccessIdx` (`none` for -1), `frInstTerm::getAccessPoints` -/
structure PcInst where
  upd : Xform
  at' : Xform
  paIdx : Option Nat
  pref : List (Option (Point × Int))

/-- an `frInstTerm` (with its instance) or an `frTerm` of the design -/
structure PcTerm where
  inst : Option PcInst
  pins : List PcPin

/-- `condition2`: the rectangle begins at the lower left corner of the GCell — src/io/io_guide.cpp:292-299. -/
def atCorner (b cell : Box) : Bool := decide (b.ll = cell.ll)

/-- `condition3` — src/io/io_guide.cpp:301-305. -/
def atSide (T : PcTech) (l : Int) (b cell : Box) : Bool :=
  (decide (T.dir l = some false) && !T.nonPref && decide (b.left = cell.left)) ||
  (decide (T.dir l = some true) && !T.nonPref && decide (b.bottom = cell.bottom))

/-- is the GCell `(x, y)` left out? `t` is the GCell of the lower left corner — src/io/io_guide.cpp:308-316. -/
def leftOut (T : PcTech) (l : Int) (b cell : Box) (t : Point) (x y : Int) : Bool :=
  (atCorner b cell && decide (x = t.x - 1) && decide (y = t.y - 1)) ||
  (atSide T l b cell && ((decide (x = t.x - 1) && decide (T.dir l = some false)) || (decide (y = t.y - 1) && decide (T.dir l = some true))))

/-- the entries of one rectangle — src/io/io_guide.cpp:272-323. -/
def rectCells (T : PcTech) (s : Int × Box) : Option (List Node) :=
  match T.grid.idx ⟨s.2.left - 1, s.2.bottom - 1⟩, T.grid.idx s.2.ur, T.grid.idx s.2.ll with
  | some p, some q, some t =>
    some ((intRange p.x q.x).flatMap fun x => (intRange p.y q.y).filterMap fun y =>
      if leftOut T s.1 s.2 (T.grid.box t) t x y then none else some ⟨⟨x, y⟩, s.1⟩)
  | _, _, _ => none

/-- the rectangles of a terminal in the design: `frTerm(*origTerm, xform)` for terminals of components — src/io/io_guide.cpp:342-345. -/
def PcTerm.rects (t : PcTerm) : List (Int × Box) :=
  (t.pins.flatMap (·.shapes)).map fun s => match t.inst with
    | some I => (s.1, s.2.transform I.upd)
    | none => s

/-- `genGuides_gCell2TermMap` — src/io/io_guide.cpp:265-330. -/
def termCells (T : PcTech) (t : PcTerm) : Option (List Node) := (t.rects.mapM (rectCells T)).map List.flatten

/-- the preferred access point, otherwise the first — src/io/io_guide.cpp:407-419. -/
def apChoice (pref : Option (Point × Int)) (aps : List (Point × Int)) : Option (Point × Int) :=
  match pref with
  | some a => some a
  | none => aps.head?

/-- the access points chosen for the pins of a terminal: `i` is `pinAccessIdx`, `k` is `pinIdx`, which is not increased for pins without
access — src/io/io_guide.cpp:401-432, 452-478, 523-574. -/
def apChoices (i : Option Nat) (pref : List (Option (Point × Int))) : Nat → List PcPin → List (Point × Int)
  | _, [] => []
  | k, p :: ps =>
    if p.access = [] then apChoices i pref k ps
    else match i with
      | none => apChoices i pref k ps
      | some i' =>
        match apChoice (pref.getD k none) (p.access.getD i' []) with
        | some a => a :: apChoices i pref (k + 1) ps
        | none => apChoices i pref (k + 1) ps

/-- where the access points of a terminal lie in the design. For terminals of components the points are moved by the place of the component
without turning them (src/io/io_guide.cpp:395-398, 424, 546); for those of the design `pinAccessIdx` is 0 in
`genGuides_gCell2APTermMap` (449) and -1 in `genGuides_addCoverGuide` (523), the parameter `ofDesign`. -/
def PcTerm.aps (ofDesign : Option Nat) (t : PcTerm) : List (Point × Int) :=
  match t.inst with
  | some I => (apChoices I.paIdx I.pref 0 t.pins).map fun a => (a.1.transform { I.at' with ori := .R0 }, a.2)
  | none => apChoices ofDesign [] 0 t.pins

/-- the entries of the access points — src/io/io_guide.cpp:421-433, 466-479. -/
def apCells (T : PcTech) (t : PcTerm) : Option (List Node) :=
  (t.aps (some 0)).mapM fun a => (T.grid.idx a.1).map fun c => (⟨c, a.2⟩ : Node)

/-- `genGuides_gCell2PinMap` for one terminal; the access points suffice if there is one for each pin —
src/io/io_guide.cpp:332-376, 429-431, 475-477. -/
def pinCellsOf (T : PcTech) (byAccess : Bool) (t : PcTerm) : Option (List Node) :=
  if byAccess then
    match apCells T t with
    | none => none
    | some ns =>
      if ns.length = t.pins.length ∧ ns ≠ [] then some ns
      else (termCells T t).map (ns ++ ·)
  else termCells T t

/-- the guides added around one access point: the box of the GCells around it, nine times for each of up to three layers —
src/io/io_guide.cpp:545-570. -/
def coverRects (T : PcTech) (a : Point × Int) : Option (List GuideRect) :=
  match T.grid.idx a.1 with
  | none => none
  | some c =>
    let lo := T.grid.box ⟨c.x - 1, c.y - 1⟩
    let hi := T.grid.box ⟨c.x + 1, c.y + 1⟩
    let b := Box.mk4 lo.left lo.bottom hi.right hi.top
    some (([a.2, a.2 + 2, a.2 + 4].filter fun l => decide (l ≤ min (a.2 + 4) T.top)).flatMap fun l => List.replicate 9 ⟨l, b⟩)

/-- `genGuides_addCoverGuide` — src/io/io_guide.cpp:492-574, 581-583. -/
def coverGuides (T : PcTech) (ts : List PcTerm) : Option (List GuideRect) :=
  ((ts.flatMap fun t => t.aps none).mapM (coverRects T)).map List.flatten

end TR
