import Verif.PA.Point.Model
import Verif.PA.Track.Spec
/-! # Access points: what the properties say -/
namespace TR

/-- a track of the layer, in its preferred direction, has coordinate `c` -/
def PaTech.Track (T : PaTech) (l : Int) (c : Int) : Prop := OnTrack T.pats l (T.vert l) c

/-- `c` lies midway between two neighbouring tracks of the layer -/
def PaTech.Half (T : PaTech) (l : Int) (c : Int) : Prop := HalfTrack T.grid (T.Track l) c

/-- at most one track between `lo` and `hi` -/
def PaTech.FewTracks (T : PaTech) (l lo hi : Int) : Prop :=
  ¬ ∃ c d, c ≠ d ∧ T.Track l c ∧ T.Track l d ∧ lo ≤ c ∧ c ≤ hi ∧ lo ≤ d ∧ d ≤ hi

/-- extent of a box across horizontal (`horz`) or vertical tracks -/
def Box.lo (b : Box) (horz : Bool) : Int := if horz then b.ll.y else b.ll.x
def Box.hi (b : Box) (horz : Bool) : Int := if horz then b.ur.y else b.ur.x

/-- one of the two best vias above the layer fits into the rectangle and is flush with one of its sides when its origin is at `c` -/
def PaTech.Flush (T : PaTech) (rect : Box) (l : Int) (horz : Bool) (c : Int) : Prop :=
  l + 1 ≤ T.top ∧ ∃ v ∈ (T.vias (l + 1)).take 2,
    v.l1.ur.x - v.l1.ll.x ≤ rect.ur.x - rect.ll.x ∧ v.l1.ur.y - v.l1.ll.y ≤ rect.ur.y - rect.ll.y ∧
    (c + v.l1.hi horz = rect.hi horz ∨ c + v.l1.lo horz = rect.lo horz)

/-- position types: 0 on a track, 1 midway between tracks, 2 the centre of the rectangle (if it has at most one track), 3 via flush with a side -/
def PaTech.Pos (T : PaTech) (rect : Box) (l tl : Int) (horz : Bool) : Nat → Int → Prop
  | 0, c => T.Track tl c
  | 1, c => T.Half tl c
  | 2, c => ¬ T.Track tl c ∧ ¬ T.Half tl c ∧ T.FewTracks tl (rect.lo horz) (rect.hi horz) ∧ HalfRounded T.grid (rect.lo horz + rect.hi horz) c
  | 3, c => ¬ T.Track tl c ∧ ¬ T.Half tl c ∧
      ¬ (T.FewTracks tl (rect.lo horz) (rect.hi horz) ∧ HalfRounded T.grid (rect.lo horz + rect.hi horz) c) ∧ T.Flush rect l horz c
  | _, _ => False

/-- a macro or top-level pin rectangle that runs along its layer's direction and is narrower than two wires -/
def PaTech.Narrow (T : PaTech) (rect : Box) (l : Int) (k : PinKind) : Prop :=
  (k = .macro ∨ k = .io) ∧
  (if T.vert l then rect.ur.x - rect.ll.x < rect.ur.y - rect.ll.y ∧ rect.ur.x - rect.ll.x < 2 * T.width l
   else rect.ur.x - rect.ll.x ≥ rect.ur.y - rect.ll.y ∧ rect.ur.y - rect.ll.y < 2 * T.width l)

/-- the coordinate of a point across the layer's own tracks -/
def PaTech.own (T : PaTech) (l : Int) (p : Point) : Int := if T.vert l then p.x else p.y
/-- the coordinate of a point along the layer's own tracks -/
def PaTech.other (T : PaTech) (l : Int) (p : Point) : Int := if T.vert l then p.y else p.x

def Box.Holds (b : Box) (p : Point) : Prop := b.ll.x ≤ p.x ∧ p.x ≤ b.ur.x ∧ b.ll.y ≤ p.y ∧ p.y ≤ b.ur.y

/-- planar access is considered for this pin on this layer -/
def PaTech.PlanarAllowed (T : PaTech) (k : PinKind) (l : Int) : Prop :=
  k = .std → ¬ (T.viaInPinLo ≤ l ∧ l ≤ T.viaInPinHi) ∧ T.viaLayer < l

/-- access directions and types of a new access point -/
structure PaTech.Fields (T : PaTech) (k : PinKind) (lowT ut : Nat) (a : AccPt) : Prop where
  /-- along the layer's direction -/
  along : ∀ b, (b = if T.vert a.layer then a.n else a.e) →
    (b = true ↔ T.PlanarAllowed k a.layer ∧ (T.onGridOnly a.layer = true → lowT = 0))
  across : ∀ b, (b = if T.vert a.layer then a.e else a.n) → (b = true ↔ T.PlanarAllowed k a.layer ∧ T.rectOnly a.layer = false)
  opposite : a.w = a.e ∧ a.s = a.n
  up : a.u = true ↔ (a.layer = T.viaLayer ∨ a.layer = T.viaLayer + 2) ∧ k ≠ .io
  low : a.lowT = lowT
  high : a.highT = ut
  vias : a.vias = []

/-- the routing layer above, or the one below for the topmost layer -/
def PaTech.nextLayer (T : PaTech) (l : Int) : Int := if T.top < l + 2 then l - 2 else l + 2

/-- `a` is a new access point of the pin for the position types `lt` across the layer's own tracks and `ut` along them -/
def PaTech.Candidate (T : PaTech) (k : PinKind) (n : Nat) (shapes : Int → List Box) (lt ut : Nat) (a : AccPt) : Prop :=
  0 ≤ a.layer ∧ a.layer < n ∧ T.routing a.layer = true ∧
  ¬ (k ≠ .macro ∧ k ≠ .io ∧ a.layer + 2 ≤ T.top ∧ T.onGridOnly (a.layer + 2) = true ∧ ut ≠ 0) ∧
  ∃ rect ∈ shapes a.layer, T.minWidth a.layer ≤ rect.ur.x - rect.ll.x ∧ T.minWidth a.layer ≤ rect.ur.y - rect.ll.y ∧ rect.Holds a.pt ∧
    T.Pos rect a.layer (T.nextLayer a.layer) (T.vert a.layer) ut (T.other a.layer a.pt) ∧
    ((T.Narrow rect a.layer k ∧ (T.vert a.layer = true → lt = 0) ∧
        HalfRounded T.grid (rect.lo (!T.vert a.layer) + rect.hi (!T.vert a.layer)) (T.own a.layer a.pt) ∧ T.Fields k 0 ut a) ∨
     (¬ T.Narrow rect a.layer k ∧ T.Pos rect a.layer a.layer (!T.vert a.layer) lt (T.own a.layer a.pt) ∧ T.Fields k lt ut a))

/-- the tracks used are on the manufacturing grid -/
def PaTech.Ok (T : PaTech) : Prop := 0 < T.grid ∧ ∀ l c, T.Track l c → T.grid ∣ c

/-- point and layer -/
def AccPt.place (a : AccPt) : Point × Int := (a.pt, a.layer)

/-- the end of the wire tried in direction `d` -/
def PaTech.WireEnd (T : PaTech) (a : AccPt) (d : PDir) (q : Point) : Prop :=
  match d with
  | .W => q.x = a.pt.x - 2 * T.width a.layer ∧ q.y = a.pt.y
  | .E => q.x = a.pt.x + 2 * T.width a.layer ∧ q.y = a.pt.y
  | .S => q.x = a.pt.x ∧ q.y = a.pt.y - 2 * T.width a.layer
  | .N => q.x = a.pt.x ∧ q.y = a.pt.y + 2 * T.width a.layer

/-- box `c` is inside box `b` -/
def Box.Covers (b c : Box) : Prop := b.ll.x ≤ c.ll.x ∧ c.ur.x ≤ b.ur.x ∧ b.ll.y ≤ c.ll.y ∧ c.ur.y ≤ b.ur.y

/-- the insides of two boxes meet -/
def Box.OverInside (r v : Box) : Prop := r.ll.x < v.ur.x ∧ v.ll.x < r.ur.x ∧ r.ll.y < v.ur.y ∧ v.ll.y < r.ur.y ∧ r.ll.x < r.ur.x ∧ r.ll.y < r.ur.y

/-- the parts of the pin under the via reach each of its four sides -/
def SidesReached (v : Box) (shapes : List Box) : Prop :=
  (∃ r ∈ shapes, r.OverInside v ∧ r.ll.x ≤ v.ll.x) ∧ (∃ r ∈ shapes, r.OverInside v ∧ v.ur.x ≤ r.ur.x) ∧
  (∃ r ∈ shapes, r.OverInside v ∧ r.ll.y ≤ v.ll.y) ∧ (∃ r ∈ shapes, r.OverInside v ∧ v.ur.y ≤ r.ur.y)

/-- the via must stay within the pin: on the configured layers, and where its position was chosen to make it flush with the pin -/
def PaTech.InPin (T : PaTech) (a : AccPt) : Prop := (T.viaInPinLo ≤ a.layer ∧ a.layer ≤ T.viaInPinHi) ∨ a.lowT = 3 ∨ a.highT = 3

/-- via definition `idx` can be dropped at the access point: one of the two best of the cut layer above, accepted by the checker, inside the cell on both
layers, and, where the via must stay within the pin, the part of the pin under it reaches all four sides of the via -/
def PaTech.Usable (T : PaTech) (E : PaEnv) (shapes : Int → List Box) (a : AccPt) (idx : Nat) : Prop :=
  idx < 2 ∧ ∃ v, (T.vias (a.layer + 1))[idx]? = some v ∧ E.via a.pt a.layer idx = true ∧
    (∀ b, E.bbox = some b → b.Covers (v.l1.shift a.pt) ∧ b.Covers (v.l2.shift a.pt)) ∧
    (T.InPin a → SidesReached (v.l1.shift a.pt) (shapes a.layer))

/-- `a` is the access point `c` after the checks -/
structure PaTech.Checked (T : PaTech) (E : PaEnv) (k : PinKind) (shapes : Int → List Box) (c a : AccPt) : Prop where
  same : a.pt = c.pt ∧ a.layer = c.layer ∧ a.lowT = c.lowT ∧ a.highT = c.highT
  planar : ∀ d, a.get d = true ↔ c.get d = true ∧ E.planar c.pt c.layer d = true ∧
    (k = .std → ∀ q, T.WireEnd c d q → ∀ r ∈ shapes c.layer, ¬ r.Holds q)
  up : a.u = true ↔ c.u = true ∧ ∃ idx, T.Usable E shapes c idx
  vias : ∀ idx, idx ∈ a.vias ↔ c.u = true ∧ T.Usable E shapes c idx
  nodup : a.vias.Nodup
  /-- best first -/
  order : a.vias.Pairwise (fun i j => ∀ v w, (T.vias (c.layer + 1))[i]? = some v → (T.vias (c.layer + 1))[j]? = some w →
    viaRank T E shapes c v ≤ viaRank T E shapes c w)

/-- the point is kept: on the via layer a standard-cell pin needs an upward via, otherwise some access is enough -/
def PaTech.Kept (T : PaTech) (k : PinKind) (a : AccPt) : Prop :=
  match k with
  | .std => if a.layer = T.viaLayer then a.u = true else (∃ d, a.get d = true) ∨ a.u = true
  | .macro => (∃ d, a.get d = true) ∨ a.u = true
  | .io => (∃ d, a.get d = true) ∨ a.u = true
  | .other => False

/-- number of access points with which the search stops -/
def Enough (nStd nMacro : Nat) (k : PinKind) (n : Nat) : Prop :=
  match k with
  | .std => nStd ≤ n
  | .macro => nMacro ≤ n
  | .io => 0 < n
  | .other => False

end TR
