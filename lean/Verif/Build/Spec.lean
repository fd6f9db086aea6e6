import Verif.Build.Model
import Verif.Track.Props
/-! Specification vocabulary for the construction of the maze grid. -/
namespace TR

/-- x is a track of layer `l` inside the window: a pattern of the layer lists it. If wires against
the preferred direction run on the tracks of the neighbouring layer, only the patterns for the
layer's own direction count. -/
def GTech.TrackX (T : GTech) (w : Box) (l x : Int) : Prop :=
  l ∈ T.layers ∧ ∃ p, (true, p) ∈ T.pats l ∧ (T.nonPref = true → T.hor l = false) ∧
    IsTrackIn p w.left w.right x

/-- the same for y -/
def GTech.TrackY (T : GTech) (w : Box) (l y : Int) : Prop :=
  l ∈ T.layers ∧ ∃ p, (false, p) ∈ T.pats l ∧ (T.nonPref = true → T.hor l = true) ∧
    IsTrackIn p w.bottom w.top y

/-- the neighbouring routing layer: the next one up, for the topmost one the next one down -/
def GTech.pairLayer (T : GTech) (l : Int) : Int := if T.top < l + 2 then l - 2 else l + 2

/-- An existing object asks for the line through its points along its layer, on that layer, and
for the lines across, on the neighbouring layer; a via for the line along each of its two layers:
the vertical line at `x` on layer `l`. -/
def BObj.LineX (T : GTech) (l x : Int) : BObj → Prop
  | .wire k a b => (x = a.x ∨ x = b.x) ∧ l = (if T.hor k then T.pairLayer k else k)
  | .via k1 k2 p => x = p.x ∧ ((l = k1 ∧ T.hor k1 = false) ∨ (l = k2 ∧ T.hor k2 = false))
  | .ap k p => x = p.x ∧ ((l = k ∧ T.hor k = false) ∨ (l = T.pairLayer k ∧ T.hor (T.pairLayer k) = false))

/-- the horizontal line at `y` on layer `l` -/
def BObj.LineY (T : GTech) (l y : Int) : BObj → Prop
  | .wire k a b => (y = a.y ∨ y = b.y) ∧ l = (if T.hor k then k else T.pairLayer k)
  | .via k1 k2 p => y = p.y ∧ ((l = k1 ∧ T.hor k1 = true) ∨ (l = k2 ∧ T.hor k2 = true))
  | .ap k p => y = p.y ∧ ((l = k ∧ T.hor k = true) ∨ (l = T.pairLayer k ∧ T.hor (T.pairLayer k) = true))

/-- there is a vertical line at `x` for layer `l`, as a track or because an object needs it -/
def GTech.LineX (T : GTech) (w : Box) (objs : List BObj) (l x : Int) : Prop :=
  T.TrackX w l x ∨ ∃ o ∈ objs, o.LineX T l x
def GTech.LineY (T : GTech) (w : Box) (objs : List BObj) (l y : Int) : Prop :=
  T.TrackY w l y ∨ ∃ o ∈ objs, o.LineY T l y

/-- wires may follow the vertical line at `x` on layer `l`: it is a track, or an object needs it and
the layer is not restricted to its tracks -/
def GTech.RunX (T : GTech) (w : Box) (objs : List BObj) (l x : Int) : Prop :=
  T.TrackX w l x ∨ (T.onGrid l = false ∧ ∃ o ∈ objs, o.LineX T l x)
def GTech.RunY (T : GTech) (w : Box) (objs : List BObj) (l y : Int) : Prop :=
  T.TrackY w l y ∨ (T.onGrid l = false ∧ ∃ o ∈ objs, o.LineY T l y)

/-- the technology: routing layers in increasing order, numbered 2 and up, spacings positive -/
structure GTech.Ok (T : GTech) : Prop where
  inc : StrictInc T.layers
  low : ∀ l ∈ T.layers, 2 ≤ l ∧ l ≤ T.top
  gap : ∀ l, ∀ tp ∈ T.pats l, 0 < tp.2.spacing

/-- an object: on routing layers, wires along one axis from low to high, vias between neighbours -/
def BObj.Ok (T : GTech) : BObj → Prop
  | .wire l a b => l ∈ T.layers ∧ (a.x = b.x ∧ a.y ≤ b.y ∨ a.y = b.y ∧ a.x ≤ b.x)
  | .via l1 l2 _ => l1 ∈ T.layers ∧ l2 ∈ T.layers ∧ l2 = l1 + 2
  | .ap l _ => l ∈ T.layers

/-- the point and layer of a node -/
def Grid.At (g : Grid) (n : MIdx) (p : Point) (l : Int) : Prop :=
  0 ≤ n.x ∧ 0 ≤ n.y ∧ 0 ≤ n.z ∧
  g.xs[n.x.toNat]? = some p.x ∧ g.ys[n.y.toNat]? = some p.y ∧ g.zs[n.z.toNat]? = some l

/-- both points lie in the route box; in the initial iteration the edges along its right and top
boundary belong to the neighbouring region -/
def EdgeInBox (box : Box) (initDR : Bool) (p q : Point) : Prop :=
  box.Mem p ∧ box.Mem q ∧
    (initDR = true → ¬ (p.x = box.right ∧ q.x = box.right) ∧ ¬ (p.y = box.top ∧ q.y = box.top))

end TR
