import Verif.Echo.GridSpec
import Verif.Echo.Lemmas
import Verif.Echo.NumLemmas

/-!
# C185: tracks, rows and the GCell grid are written with six digits; C186: the die area
-/

namespace TR

/-- C185: the printed number is the original one exactly when the original one has no digits other than zero after
the sixth: `u` is the power of ten that the sixth digit counts. -/
theorem c185_exact (n : Int) : ehG n = n ↔
    n.natAbs < 1000000 ∨ ∃ k, 100000 * 10 ^ k ≤ n.natAbs ∧ n.natAbs < 1000000 * 10 ^ k ∧ 10 ^ k ∣ n.natAbs := by
  rw [ehG_natAbs]
  constructor
  · intro h
    rw [ehGNat_eq_iff] at h
    obtain ⟨⟨k, hk⟩, hlt, hlow⟩ := ehUnit_spec n.natAbs
    rcases hlow with h1 | h1
    · left; omega
    · right; exact ⟨k, by omega, by omega, by rw [← hk]; exact h⟩
  · rintro (h | ⟨k, h1, h2, h3⟩)
    · exact ehGNat_small h
    · rw [ehGNat_eq_iff]
      obtain ⟨⟨j, hj⟩, hlt, hlow⟩ := ehUnit_spec n.natAbs
      rw [hj] at hlt hlow ⊢
      refine Nat.dvd_trans (Nat.pow_dvd_pow 10 ?_) h3
      apply Classical.byContradiction
      intro hc
      obtain ⟨d, rfl⟩ : ∃ d, j = k + 1 + d := ⟨j - (k + 1), by omega⟩
      have h5 : 10 ^ (k + 1) ≤ 10 ^ (k + 1 + d) := Nat.pow_le_pow_right (by omega) (by omega)
      rw [Nat.pow_succ 10 k] at h5
      rcases hlow with h | h
      · have : 0 < 10 ^ k := Nat.pow_pos (by omega)
        omega
      · omega

/-- C185: the printed number has the right size: it is off by at most half of the power of ten that the sixth digit
counts, so by at most five parts in a million. -/
theorem c185_near (n : Int) : 200000 * (ehG n - n).natAbs ≤ n.natAbs := by
  by_cases hs : n.natAbs < 1000000
  · rw [ehG_small hs]; simp
  · have h := ehGNat_near n.natAbs
    obtain ⟨⟨k, hk⟩, hlt, hlow⟩ := ehUnit_spec n.natAbs
    have h2 : 100000 * ehUnit n.natAbs ≤ n.natAbs := by
      rcases hlow with h1 | h1
      · omega
      · exact h1
    unfold ehG
    split <;> omega

theorem ehLayerList_map (ls : List String) : ehLayerList (ls.map .word ++ [.semi]) = if ls = [] then none else some ls := by
  induction ls with
  | nil => rfl
  | cons a ls ih =>
      cases ls with
      | nil => rfl
      | cons b ls =>
          simp only [List.map_cons, List.cons_append] at ih ⊢
          rw [if_neg (by simp)] at ih ⊢
          rw [ehLayerList]
          · rw [ih]; rfl
          · simp

/-- C185: a track statement is read back with its layers and masks and with its three numbers as they are printed; it
cannot be read back if it is for no layer. -/
theorem c185_track_partial (t : EhTrack) (hs : t.mask = 0 → t.same = false) : ehReadTrack (ehTrack t) =
    if t.layers = [] then none else some { t with x := ehG t.x, num := ehG t.num, step := ehG t.step } := by
  obtain ⟨isX, x, num, step, mask, same, layers⟩ := t
  have hl := ehLayerList_map layers
  simp only [ehTrack, List.cons_append, List.nil_append, List.append_assoc, ehReadTrack]
  have hx : ehReadXY (ehXY isX) = some isX := by cases isX <;> rfl
  simp only at hs
  rw [hx]
  simp only [Option.bind_some]
  by_cases hm : mask = 0
  · subst hm
    simp only [ne_eq, not_true, if_false, List.nil_append, ehTrackOpts, hl, hs rfl]
    split <;> rfl
  · simp only [ne_eq, hm, not_false_eq_true, if_true]
    cases same
    · simp only [Bool.false_eq_true, if_false, List.cons_append, List.nil_append, ehTrackOpts, hl]
      split <;> simp
    · simp only [if_true, List.cons_append, List.nil_append, ehTrackOpts, hl]
      split <;> simp

/-- C185: a track statement comes back unchanged exactly when it is for a layer and `%g` keeps its numbers. -/
theorem c185_track_exact (t : EhTrack) (hs : t.mask = 0 → t.same = false) : ehReadTrack (ehTrack t) = some t ↔
    t.layers ≠ [] ∧ ehG t.x = t.x ∧ ehG t.num = t.num ∧ ehG t.step = t.step := by
  rw [c185_track_partial t hs]
  obtain ⟨isX, x, num, step, mask, same, layers⟩ := t
  split
  · next h => simp_all
  · next h => simp_all

/-- C185 fails: tracks from 1000001 are written from 1000000, and no written track is a track of the design. -/
theorem c185_shifted : ∃ t t' : EhTrack, ehReadTrack (ehTrack t) = some t' ∧ ∀ c, ¬ (t.at c ∧ t'.at c) := by
  refine ⟨{ isX := true, x := 1000001, num := 500, step := 400, layers := ["M1"] },
    { isX := true, x := 1000000, num := 500, step := 400, layers := ["M1"] }, by decide +kernel, ?_⟩
  rintro c ⟨⟨i, _, _, h1⟩, ⟨j, _, _, h2⟩⟩
  simp only at h1 h2
  omega

/-- C185: a row comes back with its place and direction, its counts and steps as they are printed — unless it has
properties: then the text is no statement. -/
theorem c185_row_partial (ptype : String → Option EhPT) (r : EhRow) (ho : 0 ≤ r.orient ∧ r.orient < 8) :
    ehReadRow ptype (ehRow r) = if r.props = [] then
      some { r with do_ := r.do_.map fun d => (ehG d.1, ehG d.2.1, d.2.2.map fun s => (ehG s.1, ehG s.2)) } else none := by
  have hori := ehReadOri_ori r.orient
  rw [if_pos ho] at hori
  obtain ⟨name, site, x, y, orient, do_, props⟩ := r
  simp only at ho hori
  have hp : ∀ (h : List EhTok), (∀ t ∈ h, EhPlainTok t) → ∀ q, ehSplit (h ++ ([.semi] ++ q))
      = if q = [] then some (h, []) else none := by
    intro h hh q
    rw [ehSplit_head h _ hh]
    cases q with
    | nil => simp [ehSplit]
    | cons a q => simp [ehSplit]
  have hq : (if props.length > 0 then
        props.flatMap (fun p => [.plus, .kw .property, .word p.1, p.2.1.tok, .kw p.2.2.kw]) ++ [EhTok.semi]
      else []) = [] ↔ props = [] := by
    cases props <;> simp
  have hop := ehOri_plain orient
  unfold ehRow ehReadRow
  simp only
  rw [List.append_assoc, hp]
  · by_cases h0 : props = []
    · rw [if_pos (hq.2 h0), if_pos h0]
      subst h0
      rcases do_ with _ | ⟨nx, ny, _ | ⟨sx, sy⟩⟩ <;> simp [hori, ehRowOpts]
    · rw [if_neg (fun h => h0 (hq.1 h)), if_neg h0]; rfl
  · intro t ht
    rcases do_ with _ | ⟨nx, ny, _ | ⟨sx, sy⟩⟩ <;>
      simp only [List.mem_append, List.mem_cons, List.not_mem_nil, or_false] at ht
    · rcases ht with h | h | h | h | h | h <;> subst h <;> first | exact hop | simp [EhPlainTok]
    · rcases ht with (h | h | h | h | h | h) | (h | h | h | h) <;> subst h <;> first | exact hop | simp [EhPlainTok]
    · rcases ht with (h | h | h | h | h | h) | (h | h | h | h | h | h | h) <;> subst h <;>
        first | exact hop | simp [EhPlainTok]

/-- C185: a GCell grid comes back with its step as printed. -/
theorem c185_gcell (g : EhGcell) : ehReadGcell (ehGcell g) = some { g with step := ehG g.step } := by
  obtain ⟨isX, x, num, step⟩ := g
  cases isX <;> rfl

/-- C185: writing what was written changes nothing more. -/
theorem c185_again (t u : EhTrack) (hs : t.mask = 0 → t.same = false) (h : ehReadTrack (ehTrack t) = some u) :
    ehReadTrack (ehTrack u) = some u := by
  rw [c185_track_partial t hs] at h
  split at h
  · simp at h
  · next hl =>
    simp only [Option.some.injEq] at h
    subst h
    refine (c185_track_exact _ (by exact hs)).2 ⟨hl, ehG_idem _, ehG_idem _, ehG_idem _⟩

example : ehG 1000001 = 1000000 ∧ ehG 1234565 = 1234560 ∧ ehG 1234575 = 1234580 ∧ ehG (-9999996) = -10000000 ∧
    ehG 999999 = 999999 ∧ ehG 2000000 = 2000000 := by decide +kernel

example : ehReadTrack (ehTrack { isX := false, x := 190, num := 2000, step := 380, mask := 2, same := true,
                                 layers := ["metal1", "metal2"] })
    = some { isX := false, x := 190, num := 2000, step := 380, mask := 2, same := true,
             layers := ["metal1", "metal2"] } := by decide +kernel

/-- C186: what is written for the die area is a box between the first two points that were read, whatever points
follow. -/
theorem c186_die_partial (a b : Int × Int) (ps : List (Int × Int)) : ehReadDie (ehDie (a :: b :: ps)) = some [a, b] := by
  simp [ehDie, ehBox, ehPt, ehReadDie, ehPts]

/-- C186: a rectangular die comes back. -/
theorem c186_rectangle (a b : Int × Int) : ehReadDie (ehDie [a, b]) = some [a, b] := c186_die_partial a b []

/-- C186 fails for a polygon: of an L-shaped die only its first edge is left, a box without area that does not hold
the other corners. -/
theorem c186_polygon : ∃ ps a b, ehReadDie (ehDie ps) = some [a, b] ∧ a.1 = b.1 ∧ ∃ p ∈ ps, ¬ ehAround [a, b] p := by
  refine ⟨[(0, 0), (0, 100), (50, 100), (50, 50), (100, 50), (100, 0)], (0, 0), (0, 100), by decide +kernel, rfl,
    (100, 0), by simp, ?_⟩
  rintro ⟨_, ⟨p, hp, h⟩, _⟩
  simp only [List.mem_cons, List.not_mem_nil, or_false] at hp
  rcases hp with rfl | rfl <;> simp at h

end TR
