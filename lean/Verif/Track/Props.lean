import Verif.Track.Model
import Verif.Maze.GridSpec
/-! Property theorems C12 (track enumeration) and C13 (lookup). -/
namespace TR

/-! ## Specification -/

/-- `c` is a track of the pattern lying in the half-open window -/
def IsTrackIn (p : TrackPat) (lo hi c : Int) : Prop :=
  ∃ k : Int, 0 ≤ k ∧ k < p.num ∧ c = p.start + k * p.spacing ∧ lo ≤ c ∧ c < hi

/-- strictly increasing -/
def StrictInc (l : List Int) : Prop := l.Pairwise (· < ·)

/-! ## C12 -/

theorem mem_trackLoop (p : TrackPat) (hp : 0 < p.spacing) (hi : Int) : ∀ (f : Nat) (k c : Int),
    (p.num - k).toNat ≤ f →
    (c ∈ trackLoop p hi f k ↔ ∃ j : Int, k ≤ j ∧ j < p.num ∧ c = p.start + j * p.spacing ∧ c < hi) := by
  intro f
  induction f with
  | zero =>
    intro k c hf
    simp only [trackLoop, List.not_mem_nil, false_iff]
    rintro ⟨j, h1, h2, _⟩; omega
  | succ f ih =>
    intro k c hf
    simp only [trackLoop]
    split
    · rename_i h
      rw [List.mem_cons, ih (k + 1) c (by omega)]
      constructor
      · rintro (rfl | ⟨j, h1, h2, h3, h4⟩)
        · exact ⟨k, by omega, h.1, by omega, h.2⟩
        · exact ⟨j, by omega, h2, h3, h4⟩
      · rintro ⟨j, h1, h2, h3, h4⟩
        by_cases hj : j = k
        · subst hj; left; omega
        · right; exact ⟨j, by omega, h2, h3, h4⟩
    · rename_i h
      simp only [List.not_mem_nil, false_iff]
      rintro ⟨j, h1, h2, h3, h4⟩
      apply h
      have : k * p.spacing ≤ j * p.spacing := Int.mul_le_mul_of_nonneg_right h1 (by omega)
      exact ⟨by omega, by omega⟩

theorem trackFirst_spec (p : TrackPat) (hp : 0 < p.spacing) (lo : Int) :
    0 ≤ trackFirst p lo ∧ ∀ j : Int, 0 ≤ j → (trackFirst p lo ≤ j ↔ lo ≤ p.start + j * p.spacing) := by
  unfold trackFirst
  by_cases h : lo - p.start < 0
  · have hn : (lo - p.start).tdiv p.spacing ≤ 0 := by
      have : (lo - p.start) = -(p.start - lo) := by omega
      rw [this, Int.neg_tdiv]
      have := Int.tdiv_nonneg (a := p.start - lo) (b := p.spacing) (by omega) (by omega)
      omega
    have e : (if (lo - p.start).tdiv p.spacing < 0 then 0 else (lo - p.start).tdiv p.spacing) = 0 := by
      split <;> omega
    simp only [e]
    rw [if_neg (by omega)]
    refine ⟨by omega, fun j hj => ?_⟩
    have := Int.mul_nonneg hj (Int.le_of_lt hp)
    constructor <;> intro <;> omega
  · rw [Int.tdiv_eq_ediv_of_nonneg (by omega)]
    have h1 := Int.mul_ediv_add_emod (lo - p.start) p.spacing
    have h2 := Int.emod_nonneg (lo - p.start) (b := p.spacing) (by omega)
    have h3 := Int.emod_lt_of_pos (lo - p.start) hp
    have h4 := Int.ediv_nonneg (a := lo - p.start) (b := p.spacing) (by omega) (by omega)
    generalize (lo - p.start) / p.spacing = q at *
    generalize (lo - p.start) % p.spacing = r at *
    have e : (if q < 0 then 0 else q) = q := by split <;> omega
    simp only [e]
    rw [Int.mul_comm] at h1
    have mono : ∀ a b : Int, a ≤ b → a * p.spacing ≤ b * p.spacing :=
      fun a b hab => Int.mul_le_mul_of_nonneg_right hab (by omega)
    split
    · rename_i hlt
      refine ⟨by omega, fun j hj => ?_⟩
      constructor
      · intro hle; have := mono _ _ hle; rw [Int.add_mul] at this; omega
      · intro hle
        by_cases hq : j ≤ q
        · have := mono _ _ hq; omega
        · omega
    · rename_i hge
      refine ⟨by omega, fun j hj => ?_⟩
      constructor
      · intro hle; have := mono _ _ hle; omega
      · intro hle
        by_cases hq : j + 1 ≤ q
        · have := mono _ _ hq; rw [Int.add_mul] at this; omega
        · omega

/-- C12: the tracks generated from one pattern are exactly the pattern's tracks inside the
half-open window. -/
theorem c12_tracks_exact (p : TrackPat) (hp : 0 < p.spacing) (lo hi c : Int) :
    c ∈ trackCoords p lo hi ↔ IsTrackIn p lo hi c := by
  obtain ⟨h0, h1⟩ := trackFirst_spec p hp lo
  unfold trackCoords
  rw [mem_trackLoop p hp hi _ _ c (by omega)]
  constructor
  · rintro ⟨j, a, b, c1, d⟩
    exact ⟨j, by omega, b, c1, by rw [c1]; exact (h1 j (by omega)).1 a, d⟩
  · rintro ⟨j, a, b, c1, d, e⟩
    exact ⟨j, (h1 j a).2 (by rw [← c1]; exact d), b, c1, e⟩

example : trackCoords ⟨-100, 50, 30⟩ (-45) 70 = [-40, -10, 20, 50] := by decide

theorem mem_setInsert (v c : Int) (l : List Int) : c ∈ setInsert v l ↔ c = v ∨ c ∈ l := by
  induction l with
  | nil => simp [setInsert]
  | cons a l ih =>
    simp only [setInsert]
    split
    · simp
    · split
      · simp only [List.mem_cons, ih]; exact or_left_comm
      · have : a = v := by omega
        subst this; simp

theorem setInsert_inc (v : Int) (l : List Int) (h : StrictInc l) : StrictInc (setInsert v l) := by
  induction l with
  | nil => simp [setInsert, StrictInc]
  | cons a l ih =>
    have ha := List.pairwise_cons.1 h
    simp only [setInsert]
    split
    · rename_i hv
      refine List.pairwise_cons.2 ⟨fun b hb => ?_, h⟩
      rcases List.mem_cons.1 hb with rfl | hb
      · exact hv
      · have := ha.1 b hb; omega
    · split
      · refine List.pairwise_cons.2 ⟨fun b hb => ?_, ih ha.2⟩
        rcases (mem_setInsert v b l).1 hb with rfl | hb
        · assumption
        · exact ha.1 b hb
      · exact h

theorem fold_setInsert (L : List Int) : ∀ s, StrictInc s →
    StrictInc (L.foldl (fun s v => setInsert v s) s) ∧
    ∀ c, c ∈ L.foldl (fun s v => setInsert v s) s ↔ c ∈ L ∨ c ∈ s := by
  induction L with
  | nil => intro s hs; simpa using hs
  | cons v L ih =>
    intro s hs
    obtain ⟨h1, h2⟩ := ih (setInsert v s) (setInsert_inc v s hs)
    refine ⟨h1, fun c => ?_⟩
    rw [List.foldl_cons, h2, mem_setInsert, List.mem_cons]
    constructor
    · rintro (h | h | h) <;> simp [h]
    · rintro ((h | h) | h) <;> simp [h]

/-- C12: the coordinate vector of a region is strictly increasing and holds exactly the tracks of
its patterns inside the half-open window, each once. -/
theorem c12_coord_vector (ps : List TrackPat) (hp : ∀ p ∈ ps, 0 < p.spacing) (lo hi : Int) :
    StrictInc (coordVector ps lo hi) ∧
    ∀ c, c ∈ coordVector ps lo hi ↔ ∃ p ∈ ps, IsTrackIn p lo hi c := by
  obtain ⟨h1, h2⟩ := fold_setInsert (ps.flatMap (fun p => trackCoords p lo hi)) [] (by simp [StrictInc])
  refine ⟨h1, fun c => ?_⟩
  unfold coordVector
  rw [h2]
  simp only [List.mem_flatMap, List.not_mem_nil, or_false]
  constructor
  · rintro ⟨p, hm, hc⟩; exact ⟨p, hm, (c12_tracks_exact p (hp p hm) lo hi c).1 hc⟩
  · rintro ⟨p, hm, hc⟩; exact ⟨p, hm, (c12_tracks_exact p (hp p hm) lo hi c).2 hc⟩

example : coordVector [⟨0, 10, 20⟩, ⟨10, 3, 15⟩] 5 60 = [10, 20, 25, 40] := by decide

/-! ## C13 -/

theorem getD_at {l : List Int} {i : Nat} (h : i < l.length) : l.getD i 0 = l[i] := by
  rw [List.getD_eq_getElem?_getD, List.getElem?_eq_getElem h]; rfl

theorem getD_mono {l : List Int} (h : l.Pairwise (· ≤ ·)) {i j : Nat} (hij : i ≤ j) (hj : j < l.length) :
    l.getD i 0 ≤ l.getD j 0 := by
  rw [getD_at (l := l) (i := i) (by omega), getD_at hj]
  by_cases e : i = j
  · subst e; omega
  · exact List.pairwise_iff_getElem.1 h i j (by omega) hj (by omega)

theorem lowerGo_spec {l : List Int} (h : l.Pairwise (· ≤ ·)) (v : Int) : ∀ (f first len : Nat),
    len ≤ f → first + len ≤ l.length →
    (∀ j, j < first → l.getD j 0 < v) → (∀ j, first + len ≤ j → j < l.length → ¬ l.getD j 0 < v) →
    first ≤ lowerGo l v f first len ∧ lowerGo l v f first len ≤ l.length ∧
    ∀ j, j < l.length → (l.getD j 0 < v ↔ j < lowerGo l v f first len) := by
  intro f
  induction f with
  | zero =>
    intro first len hf hb h1 h2
    simp only [lowerGo]
    refine ⟨by omega, by omega, fun j hj => ⟨fun hl => ?_, fun hl => h1 j hl⟩⟩
    by_cases hc : j < first
    · exact hc
    · exact absurd hl (h2 j (by omega) hj)
  | succ f ih =>
    intro first len hf hb h1 h2
    simp only [lowerGo]
    by_cases hl : len = 0
    · simp only [hl, if_true]
      refine ⟨by omega, by omega, fun j hj => ⟨fun hl' => ?_, fun hl' => h1 j hl'⟩⟩
      by_cases hc : j < first
      · exact hc
      · exact absurd hl' (h2 j (by omega) hj)
    · simp only [hl, if_false]
      split
      · rename_i hlt
        have := ih (first + len / 2 + 1) (len - len / 2 - 1) (by omega) (by omega)
          (fun j hj => by
            have := getD_mono h (i := j) (j := first + len / 2) (by omega) (by omega); omega)
          (fun j hj hj' => h2 j (by omega) hj')
        exact ⟨by omega, this.2⟩
      · rename_i hlt
        exact ih first (len / 2) (by omega) (by omega) h1
          (fun j hj hj' => by
            have := getD_mono h (i := first + len / 2) (j := j) (by omega) hj'; omega)

theorem upperGo_spec {l : List Int} (h : l.Pairwise (· ≤ ·)) (v : Int) : ∀ (f first len : Nat),
    len ≤ f → first + len ≤ l.length →
    (∀ j, j < first → l.getD j 0 ≤ v) → (∀ j, first + len ≤ j → j < l.length → ¬ l.getD j 0 ≤ v) →
    first ≤ upperGo l v f first len ∧ upperGo l v f first len ≤ l.length ∧
    ∀ j, j < l.length → (l.getD j 0 ≤ v ↔ j < upperGo l v f first len) := by
  intro f
  induction f with
  | zero =>
    intro first len hf hb h1 h2
    simp only [upperGo]
    refine ⟨by omega, by omega, fun j hj => ⟨fun hl => ?_, fun hl => h1 j hl⟩⟩
    by_cases hc : j < first
    · exact hc
    · exact absurd hl (h2 j (by omega) hj)
  | succ f ih =>
    intro first len hf hb h1 h2
    simp only [upperGo]
    by_cases hl : len = 0
    · simp only [hl, if_true]
      refine ⟨by omega, by omega, fun j hj => ⟨fun hl' => ?_, fun hl' => h1 j hl'⟩⟩
      by_cases hc : j < first
      · exact hc
      · exact absurd hl' (h2 j (by omega) hj)
    · simp only [hl, if_false]
      split
      · rename_i hlt
        exact ih first (len / 2) (by omega) (by omega) h1
          (fun j hj hj' => by
            have := getD_mono h (i := first + len / 2) (j := j) (by omega) hj'; omega)
      · rename_i hlt
        have := ih (first + len / 2 + 1) (len - len / 2 - 1) (by omega) (by omega)
          (fun j hj => by
            have := getD_mono h (i := j) (j := first + len / 2) (by omega) (by omega); omega)
          (fun j hj hj' => h2 j (by omega) hj')
        exact ⟨by omega, this.2⟩

theorem lowerBound_spec {l : List Int} (h : l.Pairwise (· ≤ ·)) (v : Int) :
    lowerBound l v ≤ l.length ∧ ∀ j, j < l.length → (l.getD j 0 < v ↔ j < lowerBound l v) :=
  (lowerGo_spec h v l.length 0 l.length (by omega) (by omega) (by omega) (fun j h1 h2 => by omega)).2

theorem upperBound_spec {l : List Int} (h : l.Pairwise (· ≤ ·)) (v : Int) :
    upperBound l v ≤ l.length ∧ ∀ j, j < l.length → (l.getD j 0 ≤ v ↔ j < upperBound l v) :=
  (upperGo_spec h v l.length 0 l.length (by omega) (by omega) (by omega) (fun j h1 h2 => by omega)).2

theorem StrictInc.le {l : List Int} (h : StrictInc l) : l.Pairwise (· ≤ ·) :=
  List.Pairwise.imp (fun hab => Int.le_of_lt hab) h

theorem lowerBound_member {l : List Int} (h : StrictInc l) (i : Nat) (v : Int) (hi : l[i]? = some v) :
    lowerBound l v = i := by
  obtain ⟨hl, hv⟩ := List.getElem?_eq_some_iff.1 hi
  obtain ⟨h1, h2⟩ := lowerBound_spec h.le v
  have hgi : l.getD i 0 = v := by rw [getD_at hl]; exact hv
  have a := h2 i hl
  rw [hgi] at a
  have hge : lowerBound l v ≤ i := by omega
  by_cases e : lowerBound l v = i
  · exact e
  · have hlt : lowerBound l v < i := by omega
    have b := h2 (lowerBound l v) (by omega)
    have : l.getD (lowerBound l v) 0 < l.getD i 0 := by
      rw [getD_at (l := l) (i := lowerBound l v) (by omega), getD_at hl]
      exact List.pairwise_iff_getElem.1 h _ _ (by omega) hl hlt
    omega

theorem binarySearch_iff {l : List Int} (h : StrictInc l) (v : Int) : binarySearch l v = true ↔ v ∈ l := by
  obtain ⟨h1, h2⟩ := lowerBound_spec h.le v
  simp only [binarySearch, Bool.and_eq_true, decide_eq_true_eq, Bool.not_eq_true', decide_eq_false_iff_not]
  constructor
  · rintro ⟨a, b⟩
    have hl : lowerBound l v < l.length := by omega
    have c := h2 _ hl
    have : l.getD (lowerBound l v) 0 = v := by omega
    rw [getD_at hl] at this
    rw [← this]; exact List.getElem_mem hl
  · intro hm
    obtain ⟨i, hl, hv⟩ := List.mem_iff_getElem.1 hm
    have := lowerBound_member h i v (List.getElem?_eq_some_iff.2 ⟨hl, hv⟩)
    rw [this, getD_at hl, hv]
    omega

/-- coordinates of the grid are strictly increasing -/
def Grid.Sorted (g : Grid) : Prop := StrictInc g.xs ∧ StrictInc g.ys ∧ StrictInc g.zs

/-- C13: the maze index of the coordinates of a node is that node. -/
theorem c13_maze_index_of_member (g : Grid) (hs : g.Sorted) (i j k : Nat) (x y z : Int)
    (hx : g.xs[i]? = some x) (hy : g.ys[j]? = some y) (hz : g.zs[k]? = some z) :
    g.mazeIdx ⟨x, y⟩ z = ⟨i, j, k⟩ := by
  simp only [Grid.mazeIdx, Grid.mazeXIdx, Grid.mazeYIdx, Grid.mazeZIdx,
    lowerBound_member hs.1 i x hx, lowerBound_member hs.2.1 j y hy, lowerBound_member hs.2.2 k z hz]

/-- C13: `hasMazeIdx` answers whether all three coordinates exist. -/
theorem c13_has_maze_index (g : Grid) (hs : g.Sorted) (p : Point) (z : Int) :
    g.hasMazeIdx p z = true ↔ p.x ∈ g.xs ∧ p.y ∈ g.ys ∧ z ∈ g.zs := by
  simp only [Grid.hasMazeIdx, Bool.and_eq_true, binarySearch_iff hs.1, binarySearch_iff hs.2.1,
    binarySearch_iff hs.2.2, and_assoc]

/-- C13: the index box of a rectangle contains exactly the nodes whose coordinates lie in the
closed rectangle. -/
theorem c13_index_box (g : Grid) (hs : g.Sorted) (b : Box) (i j : Nat) (x y : Int)
    (hx : g.xs[i]? = some x) (hy : g.ys[j]? = some y) :
    ((g.idxBox b).1.1 ≤ i ∧ (i : Int) ≤ (g.idxBox b).2.1 ↔ b.left ≤ x ∧ x ≤ b.right) ∧
    ((g.idxBox b).1.2 ≤ j ∧ (j : Int) ≤ (g.idxBox b).2.2 ↔ b.bottom ≤ y ∧ y ≤ b.top) := by
  obtain ⟨hlx, hvx⟩ := List.getElem?_eq_some_iff.1 hx
  obtain ⟨hly, hvy⟩ := List.getElem?_eq_some_iff.1 hy
  have a1 := (lowerBound_spec hs.1.le b.left).2 i hlx
  have a2 := (upperBound_spec hs.1.le b.right).2 i hlx
  have b1 := (lowerBound_spec hs.2.1.le b.bottom).2 j hly
  have b2 := (upperBound_spec hs.2.1.le b.top).2 j hly
  rw [getD_at hlx, hvx] at a1 a2
  rw [getD_at hly, hvy] at b1 b2
  simp only [Grid.idxBox]
  generalize lowerBound g.xs b.left = A at *
  generalize upperBound g.xs b.right = B at *
  generalize lowerBound g.ys b.bottom = C at *
  generalize upperBound g.ys b.top = D at *
  generalize b.left = p1 at *
  generalize b.right = p2 at *
  generalize b.top = p3 at *
  generalize b.bottom = p4 at *
  omega

theorem idx_range_empty {l : List Int} (h : StrictInc l) (lo hi : Int) :
    let a : Int := lowerBound l lo
    let b : Int := (upperBound l hi : Int) - 1
    (0 ≤ a ∧ b < l.length) ∧ ((∀ v ∈ l, ¬ (lo ≤ v ∧ v ≤ hi)) ∧ lo ≤ hi + 1 → b < a) := by
  obtain ⟨a1, a2⟩ := lowerBound_spec h.le lo
  obtain ⟨b1, b2⟩ := upperBound_spec h.le hi
  refine ⟨⟨by omega, by omega⟩, ?_⟩
  rintro ⟨hv, hlo⟩
  show ((upperBound l hi : Int) - 1) < (lowerBound l lo : Int)
  by_cases hc : lowerBound l lo < upperBound l hi
  · have hl : lowerBound l lo < l.length := by omega
    have c1 := a2 _ hl
    have c2 := b2 _ hl
    exfalso
    apply hv (l.getD (lowerBound l lo) 0)
    · rw [getD_at hl]; exact List.getElem_mem hl
    · omega
  · omega

/-- C13: the index box never leaves the grid when non-empty, and is empty (begin > end) when no
track lies in the rectangle. -/
theorem c13_index_box_empty (g : Grid) (hs : g.Sorted) (b : Box) (hb : b.Valid) :
    (0 ≤ (g.idxBox b).1.1 ∧ (g.idxBox b).2.1 < g.xs.length) ∧
    (0 ≤ (g.idxBox b).1.2 ∧ (g.idxBox b).2.2 < g.ys.length) ∧
    ((∀ x ∈ g.xs, ¬ (b.left ≤ x ∧ x ≤ b.right)) → (g.idxBox b).2.1 < (g.idxBox b).1.1) ∧
    ((∀ y ∈ g.ys, ¬ (b.bottom ≤ y ∧ y ≤ b.top)) → (g.idxBox b).2.2 < (g.idxBox b).1.2) := by
  obtain ⟨h1, h2⟩ := idx_range_empty hs.1 b.left b.right
  obtain ⟨h3, h4⟩ := idx_range_empty hs.2.1 b.bottom b.top
  have : b.left ≤ b.right + 1 ∧ b.bottom ≤ b.top + 1 := by
    unfold Box.Valid at hb; simp only [Box.left, Box.right, Box.bottom, Box.top] at *; omega
  exact ⟨h1, h3, fun h => h2 ⟨h, this.1⟩, fun h => h4 ⟨h, this.2⟩⟩

/-- C13: the same for the track index range used by track assignment. -/
theorem c13_ta_track_range (locs : List Int) (hs : StrictInc locs) (lo hi : Int) (i : Nat) (c : Int)
    (hc : locs[i]? = some c) :
    ((taTrackIdx locs lo hi).1 ≤ i ∧ (i : Int) ≤ (taTrackIdx locs lo hi).2 ↔ lo ≤ c ∧ c ≤ hi) := by
  obtain ⟨hl, hv⟩ := List.getElem?_eq_some_iff.1 hc
  have a1 := (lowerBound_spec hs.le lo).2 i hl
  have a2 := (upperBound_spec hs.le hi).2 i hl
  rw [getD_at hl, hv] at a1 a2
  simp only [taTrackIdx]; omega

example : StrictInc [0, 10, 25, 30] ∧ ([0, 10, 25, 30] : List Int)[2]? = some 25 ∧
    taTrackIdx [0, 10, 25, 30] 5 25 = (1, 2) ∧ taTrackIdx [0, 10, 25, 30] 11 20 = (2, 1) := by
  refine ⟨?_, ?_, ?_, ?_⟩
  · simp [StrictInc]
  all_goals decide

end TR
