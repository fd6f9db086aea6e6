import Verif.Track.Model
/-!
# The memory of past violations and the guides in the routing grid

Models what the rip-up-and-reroute queue of a worker writes into the marker counters of its grid:
`initMazeCost_marker_route_queue_addHistoryCost` (src/dr/FlexDR_init.cpp:2675-2836),
`route_queue_markerCostDecay` (3140-3158), `route_queue_addMarkerCost` (3159-3187), and the labels a worker that
follows guides sets while a net is routed: `initMazeCost_guide_helper` (3465-3506), called by `mazeNetInit` and
`mazeNetEnd` (src/dr/FlexDR_maze.cpp:1752-1780).

Simplifications:
* the shapes the region query finds at a marker are an arbitrary list.
* the layer of a marker is given by its layer index in the grid (`getMazeZIdx`).
* MARKERDECAY is the float nearest to 0.8; for a counter of at most 255 the truncated product is four fifths of
  the counter, rounded down.
* only the queue of `fixMode` 9, the only one the flow uses, is modelled; messages are left out.
-/
namespace TR

/-- a shape found at a marker: a wire with its ends and the nodes of its ends, a via with its net and its node (the one
on the lower layer), a patch — src/dr/FlexDR_init.cpp:2698-2832. -/
inductive HFig where
  | wire (bp ep : Point) (m1 m2 : MIdx) (width : Int)
  | via (o : Point) (net : Nat) (m : MIdx)
  | patch (o : Point) (box : Box)

/-- the grid, `planarHistoryMarkers`, `viaHistoryMarkers` -/
structure HState where
  grid : Grid
  planar : List MIdx
  via : List MIdx

/-- `set::insert` -/
def insNode (l : List MIdx) (n : MIdx) : List MIdx := if n ∈ l then l else n :: l

/-- `addMarkerCostPlanar` and the insertion — src/dr/FlexDR_init.cpp:2775-2779, 2783-2787. -/
def HState.markWire (s : HState) (n : MIdx) : HState :=
  { s with grid := s.grid.addMarkerPlanar n, planar := insNode s.planar n }

/-- src/dr/FlexDR_init.cpp:2801-2805 -/
def HState.markVia (s : HState) (n : MIdx) : HState :=
  { s with grid := s.grid.addMarkerVia n, via := insNode s.via n }

/-- src/dr/FlexDR_init.cpp:2827-2831: the counter of the wires and those of the vias up and down; only the former is
remembered. -/
def HState.markPatch (s : HState) (n : MIdx) : HState :=
  { s with grid := ((s.grid.addMarkerPlanar n).addMarker n .U).addMarker n .D, planar := insNode s.planar n }

/-- the part of a wire inside an index box — src/dr/FlexDR_init.cpp:2761-2764, 2773, 2782. -/
def wireRange (g : Grid) (horz : Bool) (m1 m2 : MIdx) (b : Box) : Int × Int :=
  let w := g.idxBox b
  if horz then (max m1.x w.1.1, min m2.x w.2.1) else (max m1.y w.1.2, min m2.y w.2.2)

/-- the box around the marker grows by the width of the wire until it holds two nodes of the wire, at most `k` times —
src/dr/FlexDR_init.cpp:2718-2770. -/
def growBox (g : Grid) (horz : Bool) (m1 m2 : MIdx) (width : Int) : Nat → Box → Box
  | 0, b => b
  | k + 1, b =>
    if (wireRange g horz m1 m2 b).1 ≥ (wireRange g horz m1 m2 b).2 then growBox g horz m1 m2 width k (b.bloat width)
    else b

/-- the nodes of a wire that are charged — src/dr/FlexDR_init.cpp:2709-2788. -/
def wireNodes (g : Grid) (mk : Box) (m1 m2 : MIdx) (width : Int) : List MIdx :=
  let horz := decide (m1.y = m2.y)
  let r := wireRange g horz m1 m2 (growBox g horz m1 m2 width 5 (mk.bloat width))
  (Grid.rangeIncl r.1 r.2).map fun i => if horz then ⟨i, m1.y, m1.z⟩ else ⟨m1.x, i, m1.z⟩

/-- the nodes of a patch that are charged — src/dr/FlexDR_init.cpp:2817-2826. -/
def patchNodes (g : Grid) (box : Box) (z : Int) : List MIdx :=
  (Grid.rangeIncl (g.mazeXIdx box.left) (g.mazeXIdx box.right)).flatMap fun x =>
    (Grid.rangeIncl (g.mazeYIdx box.bottom) (g.mazeYIdx box.top)).map fun y => ⟨x, y, z⟩

/-- a marker: its box and layer index, the shapes found there -/
structure HMark where
  box : Box
  z : Int
  found : List HFig

/-- one shape found at a marker; the second component is `vioNets` — src/dr/FlexDR_init.cpp:2697-2834. `R`: the box in
which the worker routes. -/
def markFig (R : Box) (mk : Box) (z : Int) (s : HState × List Nat) : HFig → HState × List Nat
  | .wire bp ep m1 m2 width =>
    if R.containsPt bp && R.containsPt ep then ((wireNodes s.1.grid mk m1 m2 width).foldl HState.markWire s.1, s.2) else s
  | .via o net m =>
    if R.containsPt o then
      if net ∈ s.2 then s
      else if m ∈ s.1.via then s
      else (s.1.markVia m, net :: s.2)
    else s
  | .patch o box =>
    if R.containsPt o then ((patchNodes s.1.grid box z).foldl HState.markPatch s.1, s.2) else s

/-- `initMazeCost_marker_route_queue_addHistoryCost` -/
def HState.record (R : Box) (s : HState) (k : HMark) : HState := (k.found.foldl (markFig R k.box k.z) (s, [])).1

/-- `currCost *= MARKERDECAY` — src/dr/FlexGridGraph.h:479-494, src/global.cpp:97. -/
def fade (c : Nat) : Int := ((c * 4 / 5 : Nat) : Int)

/-- first loop of `route_queue_markerCostDecay` — src/dr/FlexDR_init.cpp:3141-3148. -/
def HState.fadePlanar (s : HState) (n : MIdx) : HState :=
  let r := s.grid.decayMarkerPlanarF n fade
  { s with grid := r.1, planar := if r.2 then s.planar.erase n else s.planar }

/-- second loop — src/dr/FlexDR_init.cpp:3149-3157. -/
def HState.fadeVia (s : HState) (n : MIdx) : HState :=
  let r := s.grid.decayMarkerViaF n fade
  { s with grid := r.1, via := if r.2 then s.via.erase n else s.via }

/-- `route_queue_markerCostDecay` -/
def HState.decay (s : HState) : HState :=
  let s := s.planar.foldl HState.fadePlanar s
  s.via.foldl HState.fadeVia s

/-- what the queue does to the counters: after a net was routed they fade, after a check the markers found are recorded —
src/dr/FlexDR_maze.cpp:2244-2253. -/
inductive HStep where
  | record (k : HMark)
  | decay

def HState.step (R : Box) (s : HState) : HStep → HState
  | .record k => s.record R k
  | .decay => s.decay

def HState.run (R : Box) (s : HState) (l : List HStep) : HState := l.foldl (HState.step R) s

/-! ### guides -/

/-- `initMazeCost_guide_helper`: the labels of the guides (box, layer index) of a net — src/dr/FlexDR_init.cpp:3465-3506. -/
def guideLabels (g : Grid) (add : Bool) (gs : List (Box × Int)) : Grid :=
  gs.foldl (fun g r =>
    let w := g.idxBox r.1
    if add then g.setGuide w.1.1 w.1.2 w.2.1 w.2.2 r.2 else g.resetGuide w.1.1 w.1.2 w.2.1 w.2.2 r.2) g

end TR
