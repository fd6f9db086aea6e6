import Verif.PA.Track.RangeSpec
import Verif.PA.Track.Props

/-!
# C205: which tracks instances of a cell are compared by
-/

namespace TR

theorem plrLayers_inv (ls : List Int) : ∀ (r : Int × Int), 0 ≤ r.1 → (∀ l ∈ ls, 0 ≤ l) →
    ∀ s, s = ls.foldl plrShape r → 0 ≤ s.1 ∧ (s.1 ≤ r.1 ∧ ∀ l ∈ ls, s.1 ≤ l) ∧ (r.2 ≤ s.2 ∧ ∀ l ∈ ls, l ≤ s.2) ∧
      (s.1 = r.1 ∨ s.1 ∈ ls) ∧ (s.2 = r.2 ∨ s.2 ∈ ls) := by
  induction ls with
  | nil => rintro r h0 _ s rfl; exact ⟨h0, ⟨Int.le_refl _, by simp⟩, ⟨Int.le_refl _, by simp⟩, .inl rfl, .inl rfl⟩
  | cons a ls ih =>
      rintro r h0 hl s rfl
      have ha := hl a (by simp)
      have e : plrShape r a = (min r.1 a, max r.2 a) := by unfold plrShape; rw [if_pos ha]
      obtain ⟨h1, ⟨h2, h3⟩, ⟨h4, h5⟩, h6, h7⟩ := ih (min r.1 a, max r.2 a) (by dsimp only; omega)
        (fun l h => hl l (List.mem_cons_of_mem _ h)) _ rfl
      rw [List.foldl_cons, e]
      generalize ls.foldl plrShape (min r.1 a, max r.2 a) = s at h1 h2 h3 h4 h5 h6 h7 ⊢
      dsimp only at h2 h4 h6 h7
      refine ⟨h1, ⟨by omega, ?_⟩, ⟨by omega, ?_⟩, ?_, ?_⟩
      · intro l h
        rcases List.mem_cons.1 h with rfl | h
        · omega
        · exact h3 l h
      · intro l h
        rcases List.mem_cons.1 h with rfl | h
        · omega
        · exact h5 l h
      · rcases h6 with h | h
        · rcases Int.le_total r.1 a with h' | h'
          · left; rw [h]; omega
          · right; rw [h, Int.min_eq_right h']; simp
        · exact .inr (List.mem_cons_of_mem _ h)
      · rcases h7 with h | h
        · rcases Int.le_total r.2 a with h' | h'
          · right; rw [h, Int.max_eq_right h']; simp
          · left; rw [h]; omega
        · exact .inr (List.mem_cons_of_mem _ h)

theorem plrShapes_flat (ts : List PlrTerm) (r : Int × Int) :
    ts.foldl (fun r t => if t.signal then t.layers.foldl plrShape r else r) r =
      ((ts.filter (·.signal)).flatMap (·.layers)).foldl plrShape r := by
  induction ts generalizing r with
  | nil => rfl
  | cons t ts ih =>
      rw [List.foldl_cons, ih, List.filter_cons]
      cases ht : t.signal <;> simp

theorem plrPin_iff (ts : List PlrTerm) (l : Int) : PlrPin ts l ↔ l ∈ (ts.filter (·.signal)).flatMap (·.layers) := by
  simp only [PlrPin, List.mem_flatMap, List.mem_filter]
  constructor
  · rintro ⟨t, h1, h2, h3⟩; exact ⟨t, ⟨h1, h2⟩, h3⟩
  · rintro ⟨t, ⟨h1, h2⟩, h3⟩; exact ⟨t, h1, h2, h3⟩

/-- **C205 (range).** Every cell has its range of layers, so the search for it never fails. If the cell has shapes of signal pins, the
range holds exactly the layers of the technology from the lowest of these shapes to two above the highest, where the next
routing layer is; otherwise it holds none. -/
theorem c205_range (n : Nat) (hn : (n : Int) < 2147483647) (cells : Nat → List PlrTerm) (b : Nat) (hk : PlrKnown n (cells b)) :
    ∃ r, plrFind n cells b = some r ∧ ∀ l : Int, 0 ≤ l → l < n →
      (r.1 ≤ l ∧ l ≤ r.2 ↔ (∃ p, PlrPin (cells b) p ∧ p ≤ l) ∧ ∃ p, PlrPin (cells b) p ∧ l ≤ p + 2) := by
  unfold plrFind plrRange plrShapes
  rw [plrShapes_flat]
  simp only [plrPin_iff]
  have hl : ∀ (l : Int), l ∈ ((cells b).filter (·.signal)).flatMap (·.layers) → 0 ≤ l ∧ l < n := by
    intro l h
    obtain ⟨t, h1, _, h2⟩ := (plrPin_iff _ _).2 h
    exact hk t h1 l h2
  generalize ((cells b).filter (·.signal)).flatMap (·.layers) = ls at hl ⊢
  obtain ⟨h1, ⟨h2, h3⟩, ⟨h4, h5⟩, h6, h7⟩ := plrLayers_inv ls (plrMax, plrMin) (by decide) (fun l h => (hl l h).1) _ rfl
  generalize ls.foldl plrShape (plrMax, plrMin) = s at h1 h2 h3 h4 h5 h6 h7
  dsimp only at h2 h4 h6 h7 ⊢
  have hs2 : s.2 ≤ (n : Int) - 1 := by
    rcases h7 with h | h
    · rw [h]; unfold plrMin; omega
    · have := (hl _ h).2; omega
  rw [if_neg (by omega)]
  refine ⟨_, rfl, fun l h0 hlt => ?_⟩
  dsimp only
  constructor
  · rintro ⟨ha, hb⟩
    refine ⟨⟨s.1, ?_, ha⟩, ⟨s.2, ?_, by omega⟩⟩
    · rcases h6 with h | h
      · exfalso; unfold plrMax at h; omega
      · exact h
    · rcases h7 with h | h
      · exfalso; unfold plrMin at h; omega
      · exact h
  · rintro ⟨⟨p, hp, hpl⟩, ⟨q, hq, hlq⟩⟩
    have := h3 p hp
    have := h5 q hq
    omega

/-- the range of every cell of the design, for `classKey` -/
def plrOf (n : Nat) (cells : Nat → List PlrTerm) (b : Nat) : Int × Int := (plrFind n cells b).getD (0, 0)

/-- **C205 (partial).** Instances of a cell that share their access points see the same tracks on both layers whose tracks give the
access points of a signal pin, if the pin has a routing layer above it. Missing: pins on the highest routing layer, for which it is
false (`c205_top_layer`); origins must not be negative (`c65_negative_origin`). -/
theorem c205_shared_partial (dirH : Int → Bool) (n : Nat) (hn : (n : Int) < 2147483647) (cells : Nat → List PlrTerm) (pats : List PTrack)
    (hs : ∀ t ∈ pats, 0 < t.spc) (i j : PInst) (hk : PlrKnown n (cells i.block))
    (hkey : classKey (plrOf n cells) (prefTracks dirH pats) i = classKey (plrOf n cells) (prefTracks dirH pats) j)
    (hi : 0 ≤ i.origin.x ∧ i.origin.x < 4294967296 ∧ 0 ≤ i.origin.y ∧ i.origin.y < 4294967296)
    (hj : 0 ≤ j.origin.x ∧ j.origin.x < 4294967296 ∧ 0 ≤ j.origin.y ∧ j.origin.y < 4294967296)
    (l : Int) (hl : PlrPin (cells i.block) l) (htop : l + 2 < n) :
    ∃ m, plrSecond n l = some m ∧ SameTracks dirH pats i j l ∧ SameTracks dirH pats i j m := by
  obtain ⟨t0, ht0, _, hl0⟩ := id hl
  have hl1 := hk t0 ht0 l hl0
  obtain ⟨r, hr, hr'⟩ := c205_range n hn cells i.block hk
  have hof : plrOf n cells i.block = r := by unfold plrOf; rw [hr]; rfl
  have same : ∀ m : Int, 0 ≤ m → m < n → l ≤ m → m ≤ l + 2 → SameTracks dirH pats i j m := by
    intro m h0 h1 h2 h3 t ht htl hdir
    have hon : t.On (plrOf n cells i.block) := by
      unfold PTrack.On
      rw [hof, htl]
      exact (hr' m h0 h1).2 ⟨⟨l, hl, h2⟩, ⟨l, hl, h3⟩⟩
    obtain ⟨h4, h5⟩ := c65_tracks_agree dirH (plrOf n cells) pats hs i j hkey hi hj t ht (by rw [htl]; exact hdir) hon
    exact ⟨h4, fun hm p => (h5 hm p).1⟩
  refine ⟨l + 2, ?_, same l hl1.1 hl1.2 (Int.le_refl _) (by omega), same (l + 2) (by omega) htop (by omega) (Int.le_refl _)⟩
  unfold plrSecond
  rw [if_pos (by omega)]

/-- **C205 (highest layer).** For a pin on the highest routing layer the tracks of the layer below give its access points, but the
instances are not compared by them: these two share their access points, and a point on a track of that layer is on none when it is
moved to the other instance. -/
theorem c205_top_layer : ∃ (dirH : Int → Bool) (n : Nat) (cells : Nat → List PlrTerm) (pats : List PTrack) (i j : PInst) (l m : Int),
    (∀ t ∈ pats, 0 < t.spc) ∧ PlrKnown n (cells i.block) ∧ PlrPin (cells i.block) l ∧ plrSecond n l = some m ∧
    classKey (plrOf n cells) (prefTracks dirH pats) i = classKey (plrOf n cells) (prefTracks dirH pats) j ∧
    0 ≤ i.origin.x ∧ 0 ≤ i.origin.y ∧ 0 ≤ j.origin.x ∧ 0 ≤ j.origin.y ∧ ¬ SameTracks dirH pats i j m := by
  refine ⟨fun l => decide (l = 4), 5, fun _ => [⟨true, [4]⟩, ⟨false, [0]⟩], [⟨false, 0, 100, 10, 4⟩, ⟨true, 0, 100, 10, 2⟩],
    ⟨1, 7, .R0, ⟨0, 0⟩, ⟨⟨0, 0⟩, ⟨50, 50⟩⟩⟩, ⟨2, 7, .R0, ⟨105, 0⟩, ⟨⟨105, 0⟩, ⟨155, 50⟩⟩⟩, 4, 2, ?_, ?_, ?_, rfl, rfl,
    by decide, by decide, by decide, by decide, ?_⟩
  · intro t ht
    simp only [List.mem_cons, List.not_mem_nil, or_false] at ht
    rcases ht with rfl | rfl <;> decide
  · intro t ht l hl
    simp only [List.mem_cons, List.not_mem_nil, or_false] at ht
    rcases ht with rfl | rfl <;> simp only [List.mem_singleton] at hl <;> omega
  · exact ⟨⟨true, [4]⟩, by simp, rfl, by simp⟩
  · intro h
    have h1 := h ⟨true, 0, 100, 10, 2⟩ (by simp) rfl (by decide)
    have h2 := (h1.2 ((hasTracks_iff _ _).1 (by decide)) ⟨20, 0⟩).1 ⟨2, by decide⟩
    obtain ⟨k, hk⟩ := h2
    simp only [movePoint, PTrack.across, if_true] at hk
    omega

/-- a cell with pins on layers 2 and 4 of nine: compared by the tracks of layers 2, 4 and 6; power pins do not count, and a cell
with only these is compared by none -/
example : plrFind 9 (fun _ => [⟨true, [2]⟩, ⟨true, [4, 2]⟩, ⟨false, [8]⟩]) 0 = some (2, 6) ∧
    plrFind 9 (fun _ => [⟨false, [2]⟩]) 0 = some (2147483647, -2147483646) ∧
    plrFind 5 (fun _ => [⟨true, [4]⟩]) 0 = some (4, 5) := by decide +kernel

/-- two instances 120 apart, tracks every 10 and 20: the hypotheses of the partial theorem hold -/
example : classKey (plrOf 9 fun _ => [⟨true, [2]⟩]) (prefTracks (fun l => decide (l = 2)) [⟨false, 0, 100, 10, 2⟩, ⟨true, 5, 100, 20, 4⟩])
      ⟨1, 7, .R0, ⟨0, 0⟩, ⟨⟨0, 0⟩, ⟨50, 50⟩⟩⟩ =
    classKey (plrOf 9 fun _ => [⟨true, [2]⟩]) (prefTracks (fun l => decide (l = 2)) [⟨false, 0, 100, 10, 2⟩, ⟨true, 5, 100, 20, 4⟩])
      ⟨2, 7, .R0, ⟨120, 30⟩, ⟨⟨120, 30⟩, ⟨170, 80⟩⟩⟩ ∧ plrSecond 9 2 = some 4 := by decide +kernel

end TR
