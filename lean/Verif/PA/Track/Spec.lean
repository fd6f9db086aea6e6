import Verif.PA.Track.Model
/-! # Pin access tracks and unique instances: what the properties say -/
namespace TR

/-- `c` is the coordinate of a track of the layer that runs in the given direction -/
def OnTrack (pats : List PTrack) (layer : Int) (vert : Bool) (c : Int) : Prop :=
  ∃ t ∈ pats, t.layer = layer ∧ t.vert = vert ∧ ∃ i : Nat, i < t.num ∧ c = t.start + (i : Int) * (t.spc : Int)

/-- `p` and `q` are next to each other among the coordinates with property `P` -/
def Neighbours (P : Int → Prop) (p q : Int) : Prop := P p ∧ P q ∧ p < q ∧ ∀ c, P c → ¬ (p < c ∧ c < q)

/-- `c` is half of `s`, rounded towards zero to a multiple of `g` -/
def HalfRounded (g s c : Int) : Prop :=
  g ∣ c ∧ (0 ≤ s → 2 * c ≤ s ∧ s < 2 * c + 2 * g) ∧ (s < 0 → s ≤ 2 * c ∧ 2 * c - 2 * g < s)

/-- `c` lies strictly between two neighbouring tracks, at their midpoint rounded to the grid `g` -/
def HalfTrack (g : Int) (P : Int → Prop) (c : Int) : Prop :=
  ∃ p q, Neighbours P p q ∧ HalfRounded g (p + q) c ∧ p < c ∧ c < q

/-- coordinate of the point across the tracks of the pattern -/
def PTrack.across (t : PTrack) (p : Point) : Int := if t.vert then p.x else p.y

/-- the pattern, continued in both directions, has a track through the point -/
def PTrack.Line (t : PTrack) (p : Point) : Prop := ∃ k : Int, t.across p = t.start + k * (t.spc : Int)

/-- the pattern has a track through the point -/
def PTrack.Through (t : PTrack) (p : Point) : Prop := ∃ i : Nat, i < t.num ∧ t.across p = t.start + (i : Int) * (t.spc : Int)

/-- the pattern's tracks reach the box: the range of its tracks and the extent of the box have a common coordinate -/
def PTrack.Meets (t : PTrack) (b : Box) : Prop :=
  if t.vert then t.start ≤ b.right ∧ b.left ≤ t.start + (t.spc : Int) * ((t.num : Int) - 1)
  else t.start ≤ b.top ∧ b.bottom ≤ t.start + (t.spc : Int) * ((t.num : Int) - 1)

/-- the pattern is on a layer where the access points of the cell may lie -/
def PTrack.On (t : PTrack) (r : Int × Int) : Prop := r.1 ≤ t.layer ∧ t.layer ≤ r.2

end TR
