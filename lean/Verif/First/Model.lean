import Verif.Run.Pins
import Verif.TaInit.Model
/-! What a region of the first detailed routing iteration is given of a net to connect (src/dr/FlexDR_init.cpp:386-436, 1573-1637).

Simplifications: the wires and vias that are in the region already are left out (the first iteration removes them before it routes); the sets of
terminals, in the order of their ids, are lists without repetition; coordinates are unbounded integers. -/
namespace TR

/-- an entry of the tree of pins of global routing: a terminal of a net at the centre of a GCell — src/frRegionQuery.cpp:558-569 -/
structure GrTerm where
  term : Nat
  net : Nat
  at_ : Point
deriving DecidableEq

/-- a pin of a net of a region: a terminal, or a place on the border (point and layer) — src/dr/FlexDR_init.cpp:1622-1625, 1573-1603 -/
inductive RegPin where
  | term (t : Nat)
  | border (p : Point) (layer : Nat)
deriving DecidableEq

/-- `queryGRPin` for the box of the region, the terminals of one net — src/frRegionQuery.cpp:331-336, src/dr/FlexDR_init.cpp:390-404, 429-430.
The set `netTerms[net]` holds a terminal once. -/
def netTerms (rb : Box) (ts : List GrTerm) (net : Nat) : List Nat :=
  ((ts.filter (fun t => decide (t.net = net) && rb.meets ⟨t.at_, t.at_⟩)).map (·.term)).eraseDups

/-- the pins of a net of a region in the first iteration: terminals, then the places on the border — `initNet`,
src/dr/FlexDR_init.cpp:1612-1630; `initNet_boundary` in the first iteration, 1573-1603 -/
def netPins (g : GGrid) (pins : List CellPin) (clip : Int) (ts : List GrTerm) (W : Worker) (net : Nat) : List RegPin :=
  (netTerms W.routeBox ts net).map .term ++ (workerPins g pins clip W net).map (fun q => .border q.1 q.2)

/-- the nets of a region: the ones with a wire or via found around it, with a guide that meets it, or with a terminal in it —
src/dr/FlexDR_init.cpp:302-356, 390-404. `objNets`: the nets of the wires and vias found; `gds`: the guides with their nets. -/
def regionNets (rb : Box) (objNets : List Nat) (gds : List (Nat × Box)) (ts : List GrTerm) : List Nat :=
  (objNets ++ (gds.filter (fun x => rb.meets x.2)).map (·.1) ++ (ts.filter (fun t => rb.meets ⟨t.at_, t.at_⟩)).map (·.net)).eraseDups

/-- the wires that track assignment left in the guides, as `initGCell2BoundaryPin` sees them — src/dr/FlexDR.cpp:151-166 -/
def guideWires (gs : List TGuide) : List TWire :=
  gs.flatMap (fun g => g.routes.map (fun r => ⟨g.net, r.1.toNat, r.2.1, r.2.2⟩))

end TR
