import Verif.PA.Track.Range
import Verif.PA.Track.Spec

/-!
# What the layers are to be
-/

namespace TR

/-- a shape of a signal pin of the cell lies on the layer -/
def PlrPin (ts : List PlrTerm) (l : Int) : Prop := ∃ t ∈ ts, t.signal = true ∧ l ∈ t.layers

/-- all shapes lie on layers of the technology -/
def PlrKnown (n : Nat) (ts : List PlrTerm) : Prop := ∀ t ∈ ts, ∀ l ∈ t.layers, 0 ≤ l ∧ l < n

/-- the tracks of the layer, in its preferred direction, are the same for both instances: a pattern reaches both or neither, and if it
does, a point is on one of its lines exactly if the point moved to the other instance is -/
def SameTracks (dirH : Int → Bool) (pats : List PTrack) (i j : PInst) (l : Int) : Prop :=
  ∀ t ∈ pats, t.layer = l → t.vert = !dirH l →
    (t.Meets i.bbox ↔ t.Meets j.bbox) ∧ (t.Meets i.bbox → ∀ p, t.Line p ↔ t.Line (movePoint i j p))

end TR
