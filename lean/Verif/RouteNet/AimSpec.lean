import Verif.RouteNet.Spec

/-!
# Where the router starts a net and which pin it aims at next
-/

namespace TR

/-- the smallest box of grid indices around some nodes -/
structure BoxOf (lo hi : MIdx) (l : List MIdx) : Prop where
  inside : ∀ n ∈ l, lo.x ≤ n.x ∧ n.x ≤ hi.x ∧ lo.y ≤ n.y ∧ n.y ≤ hi.y ∧ lo.z ≤ n.z ∧ n.z ≤ hi.z
  x1 : ∃ n ∈ l, n.x = lo.x
  x2 : ∃ n ∈ l, n.x = hi.x
  y1 : ∃ n ∈ l, n.y = lo.y
  y2 : ∃ n ∈ l, n.y = hi.y
  z1 : ∃ n ∈ l, n.z = lo.z
  z2 : ∃ n ∈ l, n.z = hi.z

/-- how far a number is outside of an interval -/
def gapTo (lo hi v : Int) : Int := if v < lo then lo - v else if hi < v then v - hi else 0

/-- how far a node of the grid is outside of a box of nodes: along the chip in x and y, and in height -/
def toBox (g : Grid) (zH : ZHeights) (lo hi n : MIdx) : Int :=
  gapTo (g.loc lo).x (g.loc hi).x (g.loc n).x + gapTo (g.loc lo).y (g.loc hi).y (g.loc n).y
  + gapTo (zH lo.z) (zH hi.z) (zH n.z)

/-- the mean, rounded towards zero -/
def meanOf (l : List Int) : Int := l.sum.tdiv l.length

/-- the mean place of the pins, each counted where its first access pattern is -/
def pinCentre (zH : ZHeights) (pins : List RPin) : Int × Int × Int :=
  let f := pins.filterMap (·.aps.head?)
  (meanOf (f.map (·.pt.x)), meanOf (f.map (·.pt.y)), meanOf (f.map (fun a => zH a.mi.z)))

/-- the distance of an access pattern to a place -/
def apFrom (zH : ZHeights) (c : Int × Int × Int) (a : AP) : Int :=
  (c.1 - a.pt.x).natAbs + (c.2.1 - a.pt.y).natAbs + (c.2.2 - zH a.mi.z).natAbs

/-- the state of `routeNet` at the head of its loop after `it` searches, all successful —
src/dr/FlexDR_maze.cpp:2963-2986 -/
inductive RouteAt (zH : ZHeights) (pick : Nat → Nat → Nat) (fuel : Nat) (pins : List RPin) (g : Grid) : Nat → RState → Prop
  | start (s) : routeSetSrc zH pins (routePrep pins g).1 (routePrep pins g).2 = some s → RouteAt zH pick fuel pins g 0 s
  | step (it s r) : RouteAt zH pick fuel pins g it s → s.unconn ≠ [] →
      s.grid.resetAllPrev.search (pick it) fuel s.comps = some r → r.found = true →
      RouteAt zH pick fuel pins g (it + 1)
        (let c := if r.path.length = 1 then (s.cc1, s.cc2) else (r.path.foldl ccMin s.cc1, r.path.foldl ccMax s.cc2)
         let s' := postUpdate r.path { s with grid := r.grid, comps := r.comps, cc1 := c.1, cc2 := c.2 }
         { s' with
           figs := s'.figs ++ writePath s'.grid ((pins.filter (·.hasTerm)).flatMap fun p => p.aps.map (·.mi)) r.path
           first := false })

end TR
