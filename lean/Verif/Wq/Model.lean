import Verif.Geom.Model

/-!
# The search structure of a region under routing

Models `FlexDRWorkerRegionQuery` (src/dr/FlexDR_rq.cpp:34-239) and the ways detailed routing of a region uses it: the start
(src/dr/FlexDR_init.cpp:1637-1641, src/db/drObj/drNet.h:107-114), ripping a net up (src/dr/FlexDR_maze.cpp:2129-2140,
src/db/drObj/drNet.h:130-135), writing its new wires, vias and patches (src/dr/FlexDR_maze.cpp:2745-2896, 3370-3377) and the
patches of the checker (src/dr/FlexDR_maze.cpp:2073-2093, 2199-2216).

Simplifications: the R-trees of all layers are one list whose entries have a layer, and give exactly the entries whose box meets the
box asked for; `remove` takes out one equal entry if there is one; pointers are numbers; nets are numbered.
-/

namespace TR

/-- `drPathSeg`, `drVia` with the boxes of its definition, `drPatchWire` -/
inductive WqFig
  | seg (layer : Int) (b e : Point) (bExt eExt : Int) (width : Nat)
  | via (o : Point) (l1 l2 cut : Int) (f1 f2 fc : List Box)
  | patch (layer : Int) (o : Point) (off : Box)
deriving DecidableEq, Repr

/-- `drPathSeg::getBBox` — src/db/drObj/drShape.h:169-184 -/
def wqSegBox (b e : Point) (bExt eExt : Int) (width : Nat) : Box :=
  let h : Int := ((width / 2 : Nat) : Int)
  if b.x ≠ e.x then Box.mk4 (b.x - bExt) (b.y - h) (e.x + eExt) (e.y + h)
  else Box.mk4 (b.x - h) (b.y - bExt) (e.x + h) (e.y + eExt)

/-- the entries of an object, in the order in which they are inserted — src/dr/FlexDR_rq.cpp:65-107, 168-205,
src/db/drObj/drShape.h:285-289 -/
def WqFig.boxes : WqFig → List (Int × Box)
  | .seg l b e bx ex w => [(l, wqSegBox b e bx ex w)]
  | .via o l1 l2 cut f1 f2 fc =>
      f1.map (fun b => (l1, b.transform ⟨o.x, o.y, .R0⟩)) ++ f2.map (fun b => (l2, b.transform ⟨o.x, o.y, .R0⟩)) ++
        fc.map (fun b => (cut, b.transform ⟨o.x, o.y, .R0⟩))
  | .patch l o off => [(l, off.transform ⟨o.x, o.y, .R0⟩)]

/-- `drNet`: the routes inside, those outside, which are never changed, and the copy that is written back at the end -/
structure WqNet where
  routes : List (Nat × WqFig) := []
  ext : List (Nat × WqFig) := []
deriving DecidableEq, Repr

/-- entries: layer, box, object -/
abbrev WqEnts := List ((Int × Box) × Nat)

structure WqSt where
  nets : List WqNet
  ents : WqEnts
deriving DecidableEq, Repr

/-- `add` — src/dr/FlexDR_rq.cpp:65-107 -/
def wqAdd (es : WqEnts) (x : Nat × WqFig) : WqEnts := x.2.boxes.foldl (fun es b => (b, x.1) :: es) es

/-- `remove` — src/dr/FlexDR_rq.cpp:168-205 -/
def wqRemove (es : WqEnts) (x : Nat × WqFig) : WqEnts := x.2.boxes.foldl (fun es b => es.erase (b, x.1)) es

/-- `init`: the routes inside and outside of every net — src/dr/FlexDR_rq.cpp:217-239 -/
def wqInit (ns : List WqNet) : WqSt :=
  ⟨ns, ns.foldl (fun es n => n.ext.foldl wqAdd (n.routes.foldl wqAdd es)) []⟩

/-- what routing does -/
inductive WqOp
  | ripup (net : Nat)
  | route (net : Nat) (id : Nat) (f : WqFig)
deriving DecidableEq, Repr

/-- ripping up takes every route inside out of the structure and then deletes them — src/dr/FlexDR_maze.cpp:2129-2140; a new
route is put into the structure and then given to the net — e.g. src/dr/FlexDR_maze.cpp:2764-2766 -/
def WqSt.op (S : WqSt) : WqOp → WqSt
  | .ripup k => match S.nets[k]? with
    | none => S
    | some n => ⟨S.nets.set k { n with routes := [] }, n.routes.foldl wqRemove S.ents⟩
  | .route k i f => match S.nets[k]? with
    | none => S
    | some n => ⟨S.nets.set k { n with routes := n.routes ++ [(i, f)] }, wqAdd S.ents (i, f)⟩

def WqSt.run (S : WqSt) : List WqOp → WqSt
  | [] => S
  | o :: r => (S.op o).run r

/-- `query` — src/dr/FlexDR_rq.cpp:207-215 -/
def WqSt.query (S : WqSt) (q : Box) (l : Int) : List (Box × Nat) :=
  S.ents.filterMap fun e => if e.1.1 = l ∧ e.1.2.overlaps q = true then some (e.1.2, e.2) else none

end TR
