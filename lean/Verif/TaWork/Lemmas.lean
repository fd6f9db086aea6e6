import Verif.TaWork.Spec
import Verif.Cost.Nodes
import Verif.TA.Lemmas
import Verif.Track.Props
/-! Lemmas: roots, boxes seen along the tracks, tracks of a range. -/
namespace TR

theorem isqrtGo_spec : ∀ (f n : Nat), n ≤ f → isqrtGo f n * isqrtGo f n ≤ n ∧ n < (isqrtGo f n + 1) * (isqrtGo f n + 1) := by
  intro f
  induction f with
  | zero => intro n hn; have : n = 0 := by omega
            subst this; exact ⟨by simp [isqrtGo], by simp [isqrtGo]⟩
  | succ f ih =>
    intro n hn
    unfold isqrtGo
    by_cases h0 : n = 0
    · rw [if_pos h0]; subst h0; exact ⟨by simp, by simp⟩
    · rw [if_neg h0]
      obtain ⟨h1, h2⟩ := ih (n / 4) (by omega)
      generalize isqrtGo f (n / 4) = s at h1 h2
      have e1 : 2 * s * (2 * s) = 4 * (s * s) := by
        rw [Nat.mul_mul_mul_comm]
      have e2 : (2 * s + 1 + 1) * (2 * s + 1 + 1) = 4 * ((s + 1) * (s + 1)) := by
        rw [show 2 * s + 1 + 1 = 2 * (s + 1) by omega, Nat.mul_mul_mul_comm]
      dsimp only
      split
      · exact ⟨by assumption, by omega⟩
      · exact ⟨by omega, by omega⟩

theorem isqrt_spec (n : Nat) : isqrt n * isqrt n ≤ n ∧ n < (isqrt n + 1) * (isqrt n + 1) := isqrtGo_spec n n (Nat.le_refl n)

theorem sq_mono {a b : Int} (ha : 0 ≤ a) (h : a ≤ b) : a * a ≤ b * b := Int.mul_le_mul h h ha (by omega)

theorem sq_lt {a b : Int} (ha : 0 ≤ a) (h : a < b) : a * a < b * b := by
  have h1 := sq_mono ha (show a ≤ b by omega)
  have h2 : a * a + a < b * b + b := by omega
  have h3 : (a + 1) * (a + 1) ≤ b * b := sq_mono (by omega) (by omega)
  rw [Int.add_mul, Int.mul_add] at h3
  omega

theorem sq_lt_iff {a b : Int} (ha : 0 ≤ a) (hb : 0 ≤ b) : a * a < b * b ↔ a < b := by
  constructor
  · intro h
    by_cases hc : a < b
    · exact hc
    · have := sq_mono hb (show b ≤ a by omega); omega
  · exact sq_lt ha

/-- the integer root as an integer -/
theorem isqrt_int {n : Int} (hn : 0 ≤ n) : ((isqrt n.toNat : Nat) : Int) * ((isqrt n.toNat : Nat) : Int) ≤ n ∧
    n < (((isqrt n.toNat : Nat) : Int) + 1) * (((isqrt n.toNat : Nat) : Int) + 1) := by
  obtain ⟨h1, h2⟩ := isqrt_spec n.toNat
  have e : (n.toNat : Int) = n := Int.toNat_of_nonneg hn
  have h1' : ((isqrt n.toNat * isqrt n.toNat : Nat) : Int) ≤ (n.toNat : Int) := by exact_mod_cast h1
  have h2' : (n.toNat : Int) < (((isqrt n.toNat + 1) * (isqrt n.toNat + 1) : Nat) : Int) := by exact_mod_cast h2
  rw [e] at h1' h2'
  rw [Int.natCast_mul] at h1' h2'
  rw [Int.natCast_add] at h2'
  exact ⟨h1', h2'⟩

theorem reach_nonneg {nan q d e : Int} (hd : 0 ≤ d) (h : d < q) : 0 ≤ reachOf nan q d e := by
  have hs := sq_mono hd (show d ≤ q by omega)
  unfold reachOf
  rw [if_neg (show ¬ (q * q < d * d) by omega)]
  dsimp only
  split <;> omega

theorem reach_iff {nan q d x : Int} (hd : 0 ≤ d) (h : d < q) (hx : 0 ≤ x) : x ≤ reachOf nan q d d ↔ x * x + d * d < q * q := by
  have hs := sq_lt hd h
  unfold reachOf
  rw [if_neg (show ¬ (q * q < d * d) by omega)]
  dsimp only
  obtain ⟨h1, h2⟩ := isqrt_int (show 0 ≤ q * q - d * d by omega)
  have hm : (0 : Int) ≤ ((isqrt (q * q - d * d).toNat : Nat) : Int) := Int.natCast_nonneg _
  generalize ((isqrt (q * q - d * d).toNat : Nat) : Int) = m at h1 h2 hm
  have hm1 : 1 ≤ m := by
    by_cases hc : 1 ≤ m
    · exact hc
    · have : m = 0 := by omega
      subst this; omega
  split
  · rename_i he
    have hi : x * x < m * m ↔ x < m := sq_lt_iff hx hm
    rw [Int.max_eq_right (by omega)]
    constructor
    · intro hh; have := hi.2 (by omega); omega
    · intro hh; have := hi.1 (by omega); omega
  · rename_i he
    constructor
    · intro hh; have := sq_mono hx hh; omega
    · intro hh
      have hi : x * x < (m + 1) * (m + 1) ↔ x < m + 1 := sq_lt_iff hx (by omega)
      have := hi.1 (by omega); omega

/-- the reach for centres: all that are too near, and perhaps those at the very distance -/
theorem reach_centre {nan q d e x : Int} (hd : 0 ≤ d) (he : 0 ≤ e) (hle : e < d ∨ e = d ∨ (e = 0)) (h : d < q) (hx : 0 ≤ x) :
    (x * x + d * d < q * q → x ≤ reachOf nan q d e) ∧ (x ≤ reachOf nan q d e → x * x + d * d ≤ q * q) := by
  have hed : e ≤ d := by omega
  have hs := sq_lt hd h
  unfold reachOf
  rw [if_neg (show ¬ (q * q < d * d) by omega)]
  dsimp only
  obtain ⟨h1, h2⟩ := isqrt_int (show 0 ≤ q * q - d * d by omega)
  have hm : (0 : Int) ≤ ((isqrt (q * q - d * d).toNat : Nat) : Int) := Int.natCast_nonneg _
  generalize ((isqrt (q * q - d * d).toNat : Nat) : Int) = m at h1 h2 hm
  have hee := sq_mono he hed
  have hm1 : 1 ≤ m := by
    by_cases hc : 1 ≤ m
    · exact hc
    · have : m = 0 := by omega
      subst this; omega
  split
  · rename_i heq
    rw [Int.max_eq_right (by omega)]
    have hi : x * x < m * m ↔ x < m := sq_lt_iff hx hm
    constructor
    · intro hh; have := hi.1 (by omega); omega
    · intro hh; have := hi.2 (by omega); omega
  · constructor
    · intro hh
      have hi : x * x < (m + 1) * (m + 1) ↔ x < m + 1 := sq_lt_iff hx (by omega)
      have := hi.1 (by omega); omega
    · intro hh; have := sq_mono hx hh; omega

/-! ### exchange of the coordinates -/

theorem fr_fr (h : Bool) (b : Box) : (b.fr h).fr h = b := by cases h <;> rfl

theorem fr_proper (h : Bool) {b : Box} (hb : b.Proper) : (b.fr h).Proper := by
  cases h
  · exact ⟨hb.2, hb.1⟩
  · exact hb

theorem fr_width (h : Bool) (b : Box) : (b.fr h).width = b.width := by
  cases h
  · unfold Box.fr Box.width; simp only [Box.left, Box.right, Box.bottom, Box.top]; exact Int.min_comm _ _
  · rfl

theorem fr_length (h : Bool) (b : Box) : (b.fr h).length = b.length := by
  cases h
  · unfold Box.fr Box.length; simp only [Box.left, Box.right, Box.bottom, Box.top]; exact Int.max_comm _ _
  · rfl

theorem fr_has (h : Bool) (b : Box) (x t : Int) : b.Has (ptAC h x t) ↔ (b.fr h).Has ⟨x, t⟩ := by
  cases h
  · unfold Box.Has Box.fr ptAC
    simp only [Box.left, Box.right, Box.bottom, Box.top, Bool.false_eq_true, if_false]; omega
  · exact Iff.rfl

theorem fr_at (h : Bool) (b : Box) (x t : Int) : (b.at (ptAC h x t)).fr h = (b.fr h).at ⟨x, t⟩ := by
  cases h <;> rfl

theorem fr_closer (h : Bool) (a b : Box) (d : Int) : Closer (a.fr h) (b.fr h) d ↔ Closer a b d := by
  cases h
  · unfold Closer
    have key : ∀ a b : Box, (∃ p q : Point, a.Has p ∧ b.Has q ∧ (p.x - q.x) * (p.x - q.x) + (p.y - q.y) * (p.y - q.y) < d * d) →
        ∃ p q : Point, (a.fr false).Has p ∧ (b.fr false).Has q ∧ (p.x - q.x) * (p.x - q.x) + (p.y - q.y) * (p.y - q.y) < d * d := by
      rintro a b ⟨p, q, hp, hq, hlt⟩
      refine ⟨⟨p.y, p.x⟩, ⟨q.y, q.x⟩, ?_, ?_, ?_⟩
      · unfold Box.Has Box.fr at *; simp only [Box.left, Box.right, Box.bottom, Box.top, Bool.false_eq_true, if_false] at *; omega
      · unfold Box.Has Box.fr at *; simp only [Box.left, Box.right, Box.bottom, Box.top, Bool.false_eq_true, if_false] at *; omega
      · dsimp only; omega
    constructor
    · intro hh
      have := key _ _ hh
      rwa [fr_fr, fr_fr] at this
    · exact key a b
  · exact Iff.rfl

theorem lineBox_has {h : Bool} {a1 a2 t : Int} (hle : a1 ≤ a2) (x u : Int) :
    (lineBox h a1 a2 t).Has (ptAC h x u) ↔ a1 ≤ x ∧ x ≤ a2 ∧ u = t := by
  unfold lineBox
  rw [fr_has, fr_fr, mk4_has hle (Int.le_refl t)]
  dsimp only
  omega

theorem transform_at {v : Box} (hv : v.Proper) (x t : Int) : v.transform ⟨x, t, .R0⟩ = v.at ⟨x, t⟩ := by
  unfold Box.Proper at hv
  simp only [Box.left, Box.right, Box.bottom, Box.top] at hv
  unfold Box.transform Point.transform Box.mk4 Box.at
  dsimp only
  rw [if_neg (by omega), if_neg (by omega), if_neg (by omega), if_neg (by omega)]
  simp only [Box.left, Box.right, Box.bottom, Box.top, Int.add_comm]

/-! ### tracks -/

theorem mem_tracksIn {locs : List Int} (hs : StrictInc locs) (lo hi t : Int) : t ∈ tracksIn locs lo hi ↔ t ∈ locs ∧ lo ≤ t ∧ t ≤ hi := by
  unfold tracksIn
  simp only [List.mem_map, mem_upFrom]
  have hub : (upperBound locs hi : Int) - 1 < locs.length := by
    have := (upperBound_spec hs.le hi).1
    omega
  constructor
  · rintro ⟨i, ⟨h1, h2⟩, rfl⟩
    have h0 : 0 ≤ i := by
      have : (0 : Int) ≤ (taTrackIdx locs lo hi).1 := by unfold taTrackIdx; exact Int.natCast_nonneg _
      omega
    have hlt : i.toNat < locs.length := by unfold taTrackIdx at h2; simp only at h2; omega
    have hk : locs[i.toNat]? = some (locs.getD i.toNat 0) := by
      rw [getD_at hlt, List.getElem?_eq_getElem hlt]
    have := (c13_ta_track_range locs hs lo hi i.toNat _ hk).1 ⟨by omega, by omega⟩
    exact ⟨List.mem_of_getElem? hk, this⟩
  · rintro ⟨hm, h1, h2⟩
    obtain ⟨i, hi', he⟩ := List.getElem_of_mem hm
    have hk : locs[i]? = some t := by rw [List.getElem?_eq_getElem hi', he]
    have := (c13_ta_track_range locs hs lo hi i t hk).2 ⟨h1, h2⟩
    refine ⟨(i : Int), this, ?_⟩
    rw [Int.toNat_natCast, getD_at hi', he]

/-! ### one track -/

theorem gapY_at (b v : Box) (x x' t : Int) : cgapY b (v.at ⟨x, t⟩) = cgapY b (v.at ⟨x', t⟩) := rfl

/-- the blocked part of a track is where the metal `v` would be too near -/
theorem block_iff {b v : Box} (hb : b.Proper) (hv : v.Proper) {nan q t : Int} (x0 : Int) (hq : max (cgapY b (v.at ⟨x0, t⟩)) 0 < q) (x : Int) :
    (b.left - reachOf nan q (max (cgapY b (v.at ⟨x0, t⟩)) 0) (max (cgapY b (v.at ⟨x0, t⟩)) 0) - v.right ≤ x ∧
      x ≤ b.right + reachOf nan q (max (cgapY b (v.at ⟨x0, t⟩)) 0) (max (cgapY b (v.at ⟨x0, t⟩)) 0) - v.left) ↔
    Closer b (v.at ⟨x, t⟩) q := by
  rw [← cdist2_closer hb (at_proper hv _)]
  unfold cdist2
  rw [gapY_at b v x x0 t]
  generalize hd : max (cgapY b (v.at ⟨x0, t⟩)) 0 = d at hq ⊢
  have hd0 : 0 ≤ d := by omega
  rw [← reach_iff (nan := nan) hd0 hq (show 0 ≤ max (cgapX b (v.at ⟨x, t⟩)) 0 by omega)]
  have hr := reach_nonneg (nan := nan) (e := d) hd0 hq
  generalize reachOf nan q d d = X at hr ⊢
  unfold cgapX Box.at
  unfold Box.Proper at hb hv
  simp only [Box.left, Box.right, Box.bottom, Box.top] at *
  omega

end TR
