import Verif.PA.Track.Spec
/-! # Pin access tracks and unique instances: properties -/
namespace TR

/-! ## Track coordinates -/

theorem foldSet_sorted (v : Nat) (L : List Int) : ∀ m, CMap.Sorted m → CMap.Sorted (L.foldl (fun m c => cSet c v m) m) := by
  induction L with
  | nil => exact fun m h => h
  | cons a L ih => exact fun m h => ih _ (cSet_sorted _ _ _ h)

theorem foldSet_find (v : Nat) (L : List Int) : ∀ m, CMap.Sorted m → ∀ j,
    cFind (L.foldl (fun m c => cSet c v m) m) j = if j ∈ L then some v else cFind m j := by
  induction L with
  | nil => intro m h j; simp
  | cons a L ih =>
    intro m h j
    rw [List.foldl_cons, ih _ (cSet_sorted _ _ _ h), cFind_cSet _ _ _ h]
    by_cases h1 : j ∈ L
    · simp [h1]
    · by_cases h2 : j = a
      · simp [h2]
      · simp [h1, h2]

theorem nil_sorted : CMap.Sorted [] := List.Pairwise.nil

theorem mem_coords (t : PTrack) (c : Int) : c ∈ t.coords ↔ ∃ i : Nat, i < t.num ∧ c = t.start + (i : Int) * (t.spc : Int) := by
  simp only [PTrack.coords, List.mem_map, List.mem_range]
  constructor
  · rintro ⟨i, h, e⟩; exact ⟨i, h, e.symm⟩
  · rintro ⟨i, h, e⟩; exact ⟨i, h, e.symm⟩

theorem full_sorted (pats : List PTrack) (l : Int) (lv : Bool) : CMap.Sorted (fullCoords pats l lv) :=
  foldSet_sorted _ _ _ nil_sorted

theorem full_find (pats : List PTrack) (l : Int) (lv : Bool) (c : Int) (v : Nat) :
    cFind (fullCoords pats l lv) c = some v ↔ v = 0 ∧ OnTrack pats l lv c := by
  have hm : c ∈ (pats.filter (fun t => t.layer == l && t.vert == lv)).flatMap PTrack.coords ↔ OnTrack pats l lv c := by
    simp only [List.mem_flatMap, List.mem_filter, Bool.and_eq_true, beq_iff_eq, mem_coords, OnTrack]
    constructor
    · rintro ⟨t, ⟨h1, h2, h3⟩, h4⟩; exact ⟨t, h1, h2, h3, h4⟩
    · rintro ⟨t, h1, h2, h3, h4⟩; exact ⟨t, ⟨h1, h2, h3⟩, h4⟩
  unfold fullCoords
  rw [foldSet_find _ _ _ nil_sorted]
  by_cases h : c ∈ (pats.filter (fun t => t.layer == l && t.vert == lv)).flatMap PTrack.coords
  · rw [if_pos h]
    simp only [Option.some.injEq, hm.1 h, and_true]
    exact eq_comm
  · rw [if_neg h]
    have h' : ¬ OnTrack pats l lv c := fun h' => h (hm.2 h')
    simp [cFind, h']

/-- keys of a sorted map -/
def CMap.Key (m : CMap) (c : Int) : Prop := ∃ v, (c, v) ∈ m

theorem half_mem (g : Int) (m : CMap) (hs : CMap.Sorted m) : ∀ (pr : Option Int), (∀ p, pr = some p → ∀ e ∈ m, p < e.1) → ∀ c,
    c ∈ halfCoords g pr m ↔ ∃ p q, Neighbours (fun x => pr = some x ∨ CMap.Key m x) p q ∧ c = halfCoord g p q ∧ c ≠ p ∧ c ≠ q := by
  induction m with
  | nil =>
    intro pr _ c
    constructor
    · intro h; cases pr <;> simp [halfCoords] at h
    · rintro ⟨p, q, ⟨hp, hq, hlt, _⟩, _⟩
      simp only [CMap.Key, List.not_mem_nil, exists_false, or_false] at hp hq
      rw [hp] at hq
      injection hq with hq
      omega
  | cons a m ih =>
    obtain ⟨x, w⟩ := a
    have h' := List.pairwise_cons.1 hs
    have ih' := ih h'.2 (some x) (fun p hp e he => by injection hp with hp; subst hp; exact h'.1 e he)
    have hkey : ∀ y, CMap.Key ((x, w) :: m) y ↔ (some x = some y ∨ CMap.Key m y) := by
      intro y
      simp only [CMap.Key, List.mem_cons, Prod.mk.injEq, Option.some.injEq]
      constructor
      · rintro ⟨v, ⟨h, _⟩ | h⟩
        · exact Or.inl h.symm
        · exact Or.inr ⟨v, h⟩
      · rintro (h | ⟨v, h⟩)
        · exact ⟨w, Or.inl ⟨h.symm, rfl⟩⟩
        · exact ⟨v, Or.inr h⟩
    have hgt : ∀ y, CMap.Key m y → x < y := by
      rintro y ⟨v, hv⟩; exact h'.1 _ hv
    intro pr hpr c
    cases pr with
    | none =>
      simp only [halfCoords, ih']
      simp only [Neighbours, hkey, reduceCtorEq, false_or]
    | some p =>
      have hpx : p < x := hpr p rfl (x, w) (by simp)
      have hrest : (∃ p' q, Neighbours (fun y => some x = some y ∨ CMap.Key m y) p' q ∧ c = halfCoord g p' q ∧ c ≠ p' ∧ c ≠ q) ∨
            (c = halfCoord g p x ∧ c ≠ p ∧ c ≠ x) ↔
          ∃ p' q, Neighbours (fun y => some p = some y ∨ CMap.Key ((x, w) :: m) y) p' q ∧ c = halfCoord g p' q ∧ c ≠ p' ∧ c ≠ q := by
        constructor
        · rintro (⟨p', q, ⟨h1, h2, h3, h4⟩, h5⟩ | h)
          · refine ⟨p', q, ⟨Or.inr ((hkey _).2 h1), Or.inr ((hkey _).2 h2), h3, ?_⟩, h5⟩
            rintro y (hy | hy) hb
            · injection hy with hy
              subst hy
              rcases h1 with h1 | h1
              · injection h1 with h1; omega
              · have := hgt _ h1; omega
            · exact h4 y ((hkey y).1 hy) hb
          · refine ⟨p, x, ⟨Or.inl rfl, Or.inr ((hkey x).2 (Or.inl rfl)), hpx, ?_⟩, h⟩
            rintro y (hy | hy) hb
            · injection hy with hy; omega
            · rcases (hkey y).1 hy with hy | hy
              · injection hy with hy; omega
              · have := hgt _ hy; omega
        · rintro ⟨p', q, ⟨h1, h2, h3, h4⟩, h5⟩
          rcases h1 with h1 | h1
          · injection h1 with h1
            subst h1
            right
            have : q = x := by
              have hx : ¬ (p < x ∧ x < q) := h4 x (Or.inr ((hkey x).2 (Or.inl rfl)))
              rcases h2 with h2 | h2
              · injection h2 with h2; omega
              · rcases (hkey q).1 h2 with h2 | h2
                · injection h2 with h2; exact h2.symm
                · have := hgt _ h2; omega
            rw [this] at h5
            exact h5
          · left
            refine ⟨p', q, ⟨(hkey _).1 h1, ?_, h3, fun y hy => h4 y (Or.inr ((hkey y).2 hy))⟩, h5⟩
            rcases h2 with h2 | h2
            · injection h2 with h2
              subst h2
              rcases (hkey p').1 h1 with h1 | h1
              · injection h1 with h1; omega
              · have := hgt _ h1; omega
            · exact (hkey q).1 h2
      rw [← hrest, ← ih' c]
      simp only [halfCoords]
      split
      · rename_i hc
        rw [List.mem_cons]
        constructor
        · rintro (h | h)
          · right; subst h; exact ⟨rfl, hc.2.2, hc.2.1⟩
          · exact Or.inl h
        · rintro (h | h)
          · exact Or.inr h
          · exact Or.inl h.1
      · rename_i hc
        constructor
        · exact Or.inl
        · rintro (h | ⟨h1, h2, h3⟩)
          · exact h
          · exact absurd ⟨hpx, h1 ▸ h3, h1 ▸ h2⟩ hc

theorem tdiv2g (g s : Int) (hg : 0 < g) : (s.tdiv 2).tdiv g = s.tdiv (2 * g) := by
  have key : ∀ s : Int, 0 ≤ s → (s.tdiv 2).tdiv g = s.tdiv (2 * g) := by
    intro s hs
    rw [Int.tdiv_eq_ediv_of_nonneg hs, Int.tdiv_eq_ediv_of_nonneg (Int.ediv_nonneg hs (by omega)), Int.tdiv_eq_ediv_of_nonneg hs,
      Int.ediv_ediv_of_nonneg (by omega)]
  by_cases hs : 0 ≤ s
  · exact key s hs
  · have := key (-s) (by omega)
    rw [Int.neg_tdiv, Int.neg_tdiv, Int.neg_tdiv] at this
    omega

theorem half_rounded (g p q : Int) (hg : 0 < g) : HalfRounded g (p + q) (halfCoord g p q) := by
  unfold halfCoord
  rw [tdiv2g g _ hg]
  generalize p + q = s
  refine ⟨⟨_, Int.mul_comm _ _⟩, ?_, ?_⟩
  · intro hs
    rw [Int.tdiv_eq_ediv_of_nonneg hs]
    have h1 := Int.emod_add_mul_ediv s (2 * g)
    have h2 := Int.emod_nonneg s (show 2 * g ≠ 0 by omega)
    have h3 := Int.emod_lt_of_pos s (show 0 < 2 * g by omega)
    have h4 : 2 * (s / (2 * g) * g) = 2 * g * (s / (2 * g)) := by
      rw [Int.mul_comm (s / (2 * g)) g, Int.mul_assoc]
    omega
  · intro hs
    have hs' : 0 ≤ -s := by omega
    have e : s.tdiv (2 * g) = -((-s) / (2 * g)) := by
      rw [← Int.tdiv_eq_ediv_of_nonneg hs', Int.neg_tdiv, Int.neg_neg]
    rw [e]
    have h1 := Int.emod_add_mul_ediv (-s) (2 * g)
    have h2 := Int.emod_nonneg (-s) (show 2 * g ≠ 0 by omega)
    have h3 := Int.emod_lt_of_pos (-s) (show 0 < 2 * g by omega)
    have h4 : 2 * (-((-s) / (2 * g)) * g) = - (2 * g * ((-s) / (2 * g))) := by
      rw [Int.neg_mul, Int.mul_comm ((-s) / (2 * g)) g, Int.mul_neg, Int.mul_assoc]
    omega

/-- two multiples of `g` that differ by less than `g` are equal -/
theorem mult_close (g a b : Int) (ha : g ∣ a) (hb : g ∣ b) (h1 : a - b < g) (h2 : b - a < g) : a = b := by
  obtain ⟨k, hk⟩ := ha
  obtain ⟨l, hl⟩ := hb
  have hg : 0 < g := by omega
  have e : a - b = g * (k - l) := by rw [hk, hl, Int.mul_sub]
  have : k - l = 0 := by
    apply Classical.byContradiction
    intro hne
    rcases Int.lt_or_gt_of_ne hne with h | h
    · have := Int.mul_le_mul_of_nonneg_left (show k - l ≤ -1 by omega) (Int.le_of_lt hg)
      omega
    · have := Int.mul_le_mul_of_nonneg_left (show 1 ≤ k - l by omega) (Int.le_of_lt hg)
      omega
  rw [this] at e
  omega

theorem half_unique (g s a b : Int) (ha : HalfRounded g s a) (hb : HalfRounded g s b) : a = b := by
  apply mult_close g a b ha.1 hb.1
  · by_cases hs : 0 ≤ s
    · have := ha.2.1 hs; have := hb.2.1 hs; omega
    · have := ha.2.2 (by omega); have := hb.2.2 (by omega); omega
  · by_cases hs : 0 ≤ s
    · have := ha.2.1 hs; have := hb.2.1 hs; omega
    · have := ha.2.2 (by omega); have := hb.2.2 (by omega); omega

/-- a rounded midpoint of two grid points lies between them -/
theorem half_between (g p q c : Int) (hp : g ∣ p) (hq : g ∣ q) (hpq : p < q) (h : HalfRounded g (p + q) c) : p ≤ c ∧ c ≤ q := by
  constructor
  · apply Classical.byContradiction
    intro hc
    have : c = p := by
      apply mult_close g c p h.1 hp
      · by_cases hs : 0 ≤ p + q
        · have := h.2.1 hs; omega
        · have := h.2.2 (by omega); omega
      · by_cases hs : 0 ≤ p + q
        · have := h.2.1 hs; omega
        · have := h.2.2 (by omega); omega
    omega
  · apply Classical.byContradiction
    intro hc
    have : c = q := by
      apply mult_close g c q h.1 hq
      · by_cases hs : 0 ≤ p + q
        · have := h.2.1 hs; omega
        · have := h.2.2 (by omega); omega
      · by_cases hs : 0 ≤ p + q
        · have := h.2.1 hs; omega
        · have := h.2.2 (by omega); omega
    omega

/-- **C64** On a layer whose tracks lie on the manufacturing grid, the candidate coordinates of pin access are exactly the tracks, with type 0, and the
grid-rounded midpoints strictly between neighbouring tracks, with type 1; no coordinate is listed twice. -/
theorem c64_coords_iff (g : Int) (pats : List PTrack) (l : Int) (lv : Bool) (hg : 0 < g) (hgrid : ∀ c, OnTrack pats l lv c → g ∣ c) :
    CMap.Sorted (layerCoords g pats l lv) ∧
    ∀ c v, (c, v) ∈ layerCoords g pats l lv ↔ (v = 0 ∧ OnTrack pats l lv c) ∨ (v = 1 ∧ HalfTrack g (OnTrack pats l lv) c) := by
  have hfs := full_sorted pats l lv
  have hs : CMap.Sorted (layerCoords g pats l lv) := foldSet_sorted _ _ _ hfs
  refine ⟨hs, ?_⟩
  have hk : ∀ c, CMap.Key (fullCoords pats l lv) c ↔ OnTrack pats l lv c := by
    intro c
    simp only [CMap.Key, cMem_iff _ hfs, full_find]
    constructor
    · rintro ⟨v, _, h⟩; exact h
    · exact fun h => ⟨0, rfl, h⟩
  have hhalf : ∀ c, c ∈ halfCoords g none (fullCoords pats l lv) ↔ HalfTrack g (OnTrack pats l lv) c := by
    intro c
    rw [half_mem g _ hfs none (by simp)]
    simp only [Neighbours, reduceCtorEq, false_or, hk, HalfTrack]
    constructor
    · rintro ⟨p, q, hn, rfl, h1, h2⟩
      have := half_between g p q _ (hgrid _ hn.1) (hgrid _ hn.2.1) hn.2.2.1 (half_rounded g p q hg)
      exact ⟨p, q, hn, half_rounded g p q hg, by omega, by omega⟩
    · rintro ⟨p, q, hn, hr, h1, h2⟩
      exact ⟨p, q, hn, half_unique g _ _ _ hr (half_rounded g p q hg), by omega, by omega⟩
  intro c v
  rw [cMem_iff _ hs]
  unfold layerCoords
  rw [foldSet_find _ _ _ hfs]
  by_cases hc : c ∈ halfCoords g none (fullCoords pats l lv)
  · rw [if_pos hc]
    have hc' := (hhalf c).1 hc
    have hno : ¬ OnTrack pats l lv c := by
      obtain ⟨p, q, hn, _, h1, h2⟩ := hc'
      exact fun h => hn.2.2.2 c h ⟨h1, h2⟩
    simp only [Option.some.injEq, hno, and_false, false_or, hc', and_true]
    exact eq_comm
  · rw [if_neg hc, full_find]
    have hc' : ¬ HalfTrack g (OnTrack pats l lv) c := fun h => hc ((hhalf c).2 h)
    simp [hc']

/-- tracks at 0, 20 and 40 on a grid of 10: midpoints at 10 and 30 -/
example : layerCoords 10 [⟨false, 0, 3, 20, 2⟩] 2 false = [(0, 0), (10, 1), (20, 0), (30, 1), (40, 0)] ∧
    (∀ c, OnTrack [⟨false, 0, 3, 20, 2⟩] 2 false c → (10 : Int) ∣ c) := by
  refine ⟨by decide, ?_⟩
  rintro c ⟨t, ht, _, _, i, _, rfl⟩
  rw [List.mem_singleton.1 ht]
  simp only
  omega

/-- **C64** The grid condition is needed: with the tracks 10, 11 and 13 on a grid of 10, the track at 10 is listed as a half-track position, because the
midpoint of 11 and 13 is rounded to it. -/
theorem c64_track_lost : ∃ g pats l lv c, 0 < g ∧ OnTrack pats l lv c ∧ (c, 0) ∉ layerCoords g pats l lv ∧ (c, 1) ∈ layerCoords g pats l lv := by
  refine ⟨10, [⟨false, 10, 2, 1, 2⟩, ⟨false, 13, 1, 1, 2⟩], 2, false, 10, by omega, ?_, by decide, by decide⟩
  exact ⟨⟨false, 10, 2, 1, 2⟩, by simp, rfl, rfl, 0, by decide, by decide⟩

/-! ## Unique instances -/

theorem minInst_mem (l : List PInst) (u : PInst) (h : minInst l = some u) : u ∈ l ∧ ∀ j ∈ l, u.id ≤ j.id := by
  induction l generalizing u with
  | nil => simp [minInst] at h
  | cons i l ih =>
    simp only [minInst] at h
    cases hm : minInst l with
    | none =>
      rw [hm] at h
      simp only [Option.some.injEq] at h
      subst h
      have hnil : l = [] := by
        cases l with
        | nil => rfl
        | cons a l =>
          simp only [minInst] at hm
          split at hm
          · simp at hm
          · split at hm <;> simp at hm
      subst hnil
      simp
    | some j =>
      rw [hm] at h
      obtain ⟨h1, h2⟩ := ih j hm
      simp only at h
      split at h
      · rename_i hlt
        simp only [Option.some.injEq] at h
        subst h
        refine ⟨by simp, ?_⟩
        intro k hk
        rcases List.mem_cons.1 hk with hk | hk
        · rw [hk]; exact Nat.le_refl _
        · have := h2 k hk; omega
      · rename_i hlt
        simp only [Option.some.injEq] at h
        subst h
        refine ⟨List.mem_cons_of_mem _ h1, ?_⟩
        intro k hk
        rcases List.mem_cons.1 hk with hk | hk
        · rw [hk]; omega
        · exact h2 k hk

theorem minInst_some (l : List PInst) (h : l ≠ []) : ∃ u, minInst l = some u := by
  cases l with
  | nil => exact absurd rfl h
  | cons i l =>
    simp only [minInst]
    split
    · exact ⟨_, rfl⟩
    · split <;> exact ⟨_, rfl⟩

theorem keysOf_mem (key : PInst → Nat × Orient × List Int) (l : List PInst) (k : Nat × Orient × List Int) :
    k ∈ keysOf key l ↔ ∃ i ∈ l, key i = k := by
  induction l with
  | nil => simp [keysOf]
  | cons i l ih =>
    simp only [keysOf]
    split
    · rename_i hc
      rw [ih]
      have hc' := ih
      constructor
      · rintro ⟨j, hj, e⟩; exact ⟨j, List.mem_cons_of_mem _ hj, e⟩
      · rintro ⟨j, hj, e⟩
        rcases List.mem_cons.1 hj with hj | hj
        · subst hj
          rw [← ih, ← e]
          simpa using hc
        · exact ⟨j, hj, e⟩
    · rw [List.mem_cons, ih]
      constructor
      · rintro (h | ⟨j, hj, e⟩)
        · exact ⟨i, by simp, h.symm⟩
        · exact ⟨j, List.mem_cons_of_mem _ hj, e⟩
      · rintro ⟨j, hj, e⟩
        rcases List.mem_cons.1 hj with hj | hj
        · subst hj; exact Or.inl e.symm
        · exact Or.inr ⟨j, hj, e⟩

theorem keysOf_nodup (key : PInst → Nat × Orient × List Int) (l : List PInst) : (keysOf key l).Nodup := by
  induction l with
  | nil => simp [keysOf]
  | cons i l ih =>
    simp only [keysOf]
    split
    · exact ih
    · rename_i hc
      refine List.nodup_cons.2 ⟨?_, ih⟩
      simpa using hc

theorem repOf_spec (key : PInst → Nat × Orient × List Int) (insts : List PInst) (k : Nat × Orient × List Int) (u : PInst)
    (h : repOf key insts k = some u) : u ∈ insts ∧ key u = k := by
  have := (minInst_mem _ u h).1
  rw [List.mem_filter] at this
  exact ⟨this.1, by simpa using this.2⟩

theorem repOf_some (key : PInst → Nat × Orient × List Int) (insts : List PInst) (i : PInst) (hi : i ∈ insts) :
    ∃ u, repOf key insts (key i) = some u := by
  apply minInst_some
  intro h
  have : i ∈ insts.filter (fun j => key j == key i) := List.mem_filter.2 ⟨hi, by simp⟩
  rw [h] at this
  exact absurd this (by simp)

/-- keys of the unique instances are distinct -/
theorem unique_keys (key : PInst → Nat × Orient × List Int) (insts : List PInst) : ∀ (ks : List (Nat × Orient × List Int)), ks.Nodup →
    (ks.filterMap (repOf key insts)).Pairwise (fun a b => key a ≠ key b) := by
  intro ks hks
  induction ks with
  | nil => simp
  | cons k ks ih =>
    have hk := List.nodup_cons.1 hks
    rw [List.filterMap_cons]
    split
    · exact ih hk.2
    · rename_i u hu
      refine List.pairwise_cons.2 ⟨?_, ih hk.2⟩
      intro b hb e
      obtain ⟨k', hk', hb'⟩ := List.mem_filterMap.1 hb
      have h1 := (repOf_spec _ _ _ _ hu).2
      have h2 := (repOf_spec _ _ _ _ hb').2
      rw [← h1, e, h2] at hk
      exact hk.1 hk'

theorem paIndices_find (pins : Nat → Bool) (us : List PInst) : ∀ cnt, us.Pairwise (fun a b => a.id ≠ b.id) → ∀ u ∈ us,
    ∃ n, (paIndices pins cnt us).find? (fun e => e.1 == u.id) = some (u.id, n) ∧ cnt u.block ≤ n ∧
      (pins u.block = true → n < paCount pins cnt us u.block) := by
  induction us with
  | nil => intro cnt _ u hu; simp at hu
  | cons a us ih =>
    intro cnt hp u hu
    have hp' := List.pairwise_cons.1 hp
    have mono : ∀ (us : List PInst) cnt b, cnt b ≤ paCount pins cnt us b := by
      intro us
      induction us with
      | nil => intro cnt b; exact Nat.le_refl _
      | cons c us ih =>
        intro cnt b
        simp only [paCount]
        refine Nat.le_trans ?_ (ih _ b)
        split <;> omega
    rcases List.mem_cons.1 hu with hu | hu
    · subst hu
      refine ⟨cnt u.block, by simp [paIndices, List.find?], Nat.le_refl _, ?_⟩
      intro hpin
      simp only [paCount]
      have := mono us (fun b => if b = u.block ∧ pins b = true then cnt b + 1 else cnt b) u.block
      simp only [hpin, and_self, if_true] at this
      omega
    · obtain ⟨n, h1, h2, h3⟩ := ih (fun b => if b = a.block ∧ pins b = true then cnt b + 1 else cnt b) hp'.2 u hu
      refine ⟨n, ?_, ?_, ?_⟩
      · have : (a.id == u.id) = false := by simpa using hp'.1 u hu
        simp only [paIndices, List.find?, this]
        exact h1
      · split at h2 <;> omega
      · intro hpin
        simp only [paCount]
        exact h3 hpin

/-- indices of unique instances of one cell differ -/
theorem paIndices_inj (pins : Nat → Bool) (us : List PInst) : ∀ cnt, us.Pairwise (fun a b => a.id ≠ b.id) → ∀ u ∈ us, ∀ v ∈ us,
    u.block = v.block → pins u.block = true → ∀ n,
    (paIndices pins cnt us).find? (fun e => e.1 == u.id) = some (u.id, n) →
    (paIndices pins cnt us).find? (fun e => e.1 == v.id) = some (v.id, n) → u.id = v.id := by
  induction us with
  | nil => intro cnt _ u hu; simp at hu
  | cons a us ih =>
    intro cnt hp u hu v hv hb hpin n h1 h2
    have hp' := List.pairwise_cons.1 hp
    have first : ∀ w : PInst, w ∈ us → w.block = a.block → ∀ n,
        (paIndices pins cnt (a :: us)).find? (fun e => e.1 == a.id) = some (a.id, n) → pins a.block = true →
        (paIndices pins cnt (a :: us)).find? (fun e => e.1 == w.id) = some (w.id, n) → False := by
      intro w hw hwb n ha hpa hw2
      have hne : (a.id == w.id) = false := by simpa using hp'.1 w hw
      simp only [paIndices, List.find?, beq_self_eq_true, Option.some.injEq, Prod.mk.injEq, true_and] at ha
      simp only [paIndices, List.find?, hne] at hw2
      obtain ⟨n', h1, h2, _⟩ := paIndices_find pins us (fun b => if b = a.block ∧ pins b = true then cnt b + 1 else cnt b) hp'.2 w hw
      rw [hw2] at h1
      simp only [Option.some.injEq, Prod.mk.injEq, true_and] at h1
      subst h1
      rw [hwb] at h2
      simp only [hpa, and_self, if_true] at h2
      omega
    rcases List.mem_cons.1 hu with eu | mu
    · rcases List.mem_cons.1 hv with ev | mv
      · rw [eu, ev]
      · rw [eu] at hb h1 hpin
        exact absurd (first v mv hb.symm n h1 hpin h2) id
    · rcases List.mem_cons.1 hv with ev | mv
      · rw [ev] at hb h2
        exact absurd (first u mu hb n h2 (hb ▸ hpin) h1) id
      · have n1 : (a.id == u.id) = false := by simpa using hp'.1 u mu
        have n2 : (a.id == v.id) = false := by simpa using hp'.1 v mv
        simp only [paIndices, List.find?, n1] at h1
        simp only [paIndices, List.find?, n2] at h2
        exact ih _ hp'.2 u mu v mv hb hpin n h1 h2

theorem id_inj (insts : List PInst) (hid : insts.Pairwise (fun a b => a.id ≠ b.id)) (u v : PInst) (hu : u ∈ insts) (hv : v ∈ insts)
    (h : u.id = v.id) : u = v := by
  induction insts with
  | nil => simp at hu
  | cons a l ih =>
    have h' := List.pairwise_cons.1 hid
    rcases List.mem_cons.1 hu with eu | mu <;> rcases List.mem_cons.1 hv with ev | mv
    · rw [eu, ev]
    · rw [eu] at h; exact absurd h (h'.1 v mv)
    · rw [ev] at h; exact absurd h.symm (h'.1 u mu)
    · exact ih h'.2 mu mv

/-- **C65** Two instances of the same cell use the same set of access points exactly when they have the same orientation and the same offsets to the
track patterns; every instance has such a set, and it exists for all pins of the cell. -/
theorem c65_share_iff (pins : Nat → Bool) (range : Nat → Int × Int) (prefs : List PTrack)
    (ord : List (Nat × Orient × List Int) → List (Nat × Orient × List Int)) (hord : ∀ l, (ord l).Perm l)
    (insts : List PInst) (hid : insts.Pairwise (fun a b => a.id ≠ b.id)) (i j : PInst) (hi : i ∈ insts) (hj : j ∈ insts)
    (hb : i.block = j.block) (hpin : pins i.block = true) :
    (∃ n, paIdx pins (classKey range prefs) ord insts i = some n ∧
      n < paCount pins (fun _ => 0) (uniqueInsts (classKey range prefs) ord insts) i.block) ∧
    (paIdx pins (classKey range prefs) ord insts i = paIdx pins (classKey range prefs) ord insts j ↔
      i.orient = j.orient ∧ prefs.map (trackOffset (range i.block).1 (range i.block).2 i) = prefs.map (trackOffset (range j.block).1 (range j.block).2 j)) := by
  generalize hkey : classKey range prefs = key
  have hkeyi : ∀ i j : PInst, i.block = j.block → (key i = key j ↔ i.orient = j.orient ∧
      prefs.map (trackOffset (range i.block).1 (range i.block).2 i) = prefs.map (trackOffset (range j.block).1 (range j.block).2 j)) := by
    intro i j hb
    rw [← hkey]
    simp only [classKey, Prod.mk.injEq, hb, true_and]
  have hblock : ∀ u v, key u = key v → u.block = v.block := by
    intro u v h
    rw [← hkey] at h
    simp only [classKey, Prod.mk.injEq] at h
    exact h.1
  have hperm := hord (keysOf key insts)
  have hukeys : (uniqueInsts key ord insts).Pairwise (fun a b => key a ≠ key b) :=
    unique_keys key insts _ (hperm.symm.nodup (keysOf_nodup key insts))
  have huids : (uniqueInsts key ord insts).Pairwise (fun a b => a.id ≠ b.id) := by
    apply List.Pairwise.imp_of_mem _ hukeys
    intro a b ha hb' hne e
    have ha' : a ∈ insts := by
      obtain ⟨k, _, h⟩ := List.mem_filterMap.1 ha
      exact (repOf_spec _ _ _ _ h).1
    have hb'' : b ∈ insts := by
      obtain ⟨k, _, h⟩ := List.mem_filterMap.1 hb'
      exact (repOf_spec _ _ _ _ h).1
    exact hne (by rw [id_inj insts hid a b ha' hb'' e])
  have hidx : ∀ i ∈ insts, ∃ u n, u ∈ uniqueInsts key ord insts ∧ key u = key i ∧ repOf key insts (key i) = some u ∧
      (paIndices pins (fun _ => 0) (uniqueInsts key ord insts)).find? (fun e => e.1 == u.id) = some (u.id, n) ∧
      paIdx pins key ord insts i = some n ∧ (pins i.block = true → n < paCount pins (fun _ => 0) (uniqueInsts key ord insts) i.block) := by
    intro i hi
    obtain ⟨u, hu⟩ := repOf_some key insts i hi
    have hmem : u ∈ uniqueInsts key ord insts :=
      List.mem_filterMap.2 ⟨key i, hperm.mem_iff.2 ((keysOf_mem key insts _).2 ⟨i, hi, rfl⟩), hu⟩
    obtain ⟨n, h1, _, h3⟩ := paIndices_find pins (uniqueInsts key ord insts) (fun _ => 0) huids u hmem
    have hke := (repOf_spec _ _ _ _ hu).2
    refine ⟨u, n, hmem, hke, hu, h1, ?_, ?_⟩
    · simp only [paIdx, hu, Option.bind_some, h1, Option.map_some]
    · rw [← hblock u i hke]; exact h3
  obtain ⟨u, n, hu, hku, hru, hfu, hpu, hcu⟩ := hidx i hi
  obtain ⟨v, m, hv, hkv, hrv, hfv, hpv, hcv⟩ := hidx j hj
  refine ⟨⟨n, hpu, hcu hpin⟩, ?_⟩
  rw [← hkeyi i j hb, hpu, hpv, Option.some.injEq]
  constructor
  · intro e
    subst e
    have hub : u.block = v.block := by rw [hblock u i hku, hblock v j hkv, hb]
    have := paIndices_inj pins _ _ huids u hu v hv hub (by rw [hblock u i hku]; exact hpin) n hfu hfv
    have hue : u = v := by
      obtain ⟨k, _, h⟩ := List.mem_filterMap.1 hu
      obtain ⟨k', _, h'⟩ := List.mem_filterMap.1 hv
      exact id_inj insts hid u v (repOf_spec _ _ _ _ h).1 (repOf_spec _ _ _ _ h').1 this
    rw [← hku, ← hkv, hue]
  · intro e
    rw [e, hrv] at hru
    simp only [Option.some.injEq] at hru
    subst hru
    rw [hfv] at hfu
    simp only [Option.some.injEq, Prod.mk.injEq, true_and] at hfu
    exact hfu.symm

theorem hasTracks_iff (t : PTrack) (b : Box) : hasTracks t b = true ↔ t.Meets b := by
  unfold hasTracks PTrack.Meets PTrack.high
  split <;> simp <;> omega

theorem map_eq_at {α β : Type} (f g : α → β) (l : List α) (h : l.map f = l.map g) : ∀ a ∈ l, f a = g a := by
  induction l with
  | nil => simp
  | cons x l ih =>
    simp only [List.map_cons, List.cons.injEq] at h
    intro a ha
    rcases List.mem_cons.1 ha with ha | ha
    · rw [ha]; exact h.1
    · exact ih h.2 a ha

theorem uMod_lt (c : Int) (s : Nat) (h : 0 < s) : uMod c s < (s : Int) := Int.emod_lt_of_pos _ (by omega)

/-- Instances that share their access points see the same tracks: for every preferred-direction track pattern on the layers of the cell's pins,
the pattern reaches both or neither, and when it reaches them a point moved from one to the other is on a (continued) track exactly when it was;
provided that the origins are not negative. -/
theorem tracks_agree (range : Nat → Int × Int) (prefs : List PTrack) (hs : ∀ t ∈ prefs, 0 < t.spc) (i j : PInst) (hb : i.block = j.block)
    (hoff : prefs.map (trackOffset (range i.block).1 (range i.block).2 i) = prefs.map (trackOffset (range j.block).1 (range j.block).2 j))
    (hi : 0 ≤ i.origin.x ∧ i.origin.x < 4294967296 ∧ 0 ≤ i.origin.y ∧ i.origin.y < 4294967296)
    (hj : 0 ≤ j.origin.x ∧ j.origin.x < 4294967296 ∧ 0 ≤ j.origin.y ∧ j.origin.y < 4294967296) (t : PTrack) (ht : t ∈ prefs) (hon : t.On (range i.block)) :
    (t.Meets i.bbox ↔ t.Meets j.bbox) ∧ (t.Meets i.bbox → ∀ p, t.Line p ↔ t.Line (movePoint i j p)) := by
  have h := map_eq_at _ _ _ hoff t ht
  have hlr : t.layer ≥ (range i.block).1 ∧ t.layer ≤ (range i.block).2 := ⟨hon.1, hon.2⟩
  rw [← hb] at h
  simp only [trackOffset, hlr, and_self, if_true] at h
  have hspc := hs t ht
  have lt1 := uMod_lt i.origin.x t.spc hspc
  have lt2 := uMod_lt j.origin.x t.spc hspc
  have lt3 := uMod_lt i.origin.y t.spc hspc
  have lt4 := uMod_lt j.origin.y t.spc hspc
  rw [← hasTracks_iff, ← hasTracks_iff]
  have hreach : hasTracks t i.bbox = true ↔ hasTracks t j.bbox = true := by
    cases h1 : hasTracks t i.bbox <;> cases h2 : hasTracks t j.bbox
    · simp
    · rw [h1, h2] at h
      cases hv : t.vert <;> simp only [hv, if_true, Bool.false_eq_true, if_false] at h <;> omega
    · rw [h1, h2] at h
      cases hv : t.vert <;> simp only [hv, if_true, Bool.false_eq_true, if_false] at h <;> omega
    · simp
  refine ⟨hreach, ?_⟩
  intro hr p
  rw [hr, hreach.1 hr] at h
  simp only [if_true] at h
  have hmove : ∃ k : Int, t.across (movePoint i j p) = t.across p + k * (t.spc : Int) := by
    unfold PTrack.across movePoint
    cases hv : t.vert <;> rw [hv] at h <;> simp only [Bool.false_eq_true, if_false, if_true] at h ⊢
    · unfold uMod at h
      rw [Int.emod_eq_of_lt hi.2.2.1 hi.2.2.2, Int.emod_eq_of_lt hj.2.2.1 hj.2.2.2] at h
      obtain ⟨k, hk⟩ := Int.dvd_of_emod_eq_zero (Int.emod_eq_emod_iff_emod_sub_eq_zero.1 h.symm)
      refine ⟨k, ?_⟩
      rw [Int.mul_comm] at hk
      omega
    · unfold uMod at h
      rw [Int.emod_eq_of_lt hi.1 hi.2.1, Int.emod_eq_of_lt hj.1 hj.2.1] at h
      obtain ⟨k, hk⟩ := Int.dvd_of_emod_eq_zero (Int.emod_eq_emod_iff_emod_sub_eq_zero.1 h.symm)
      refine ⟨k, ?_⟩
      rw [Int.mul_comm] at hk
      omega
  obtain ⟨k, hk⟩ := hmove
  unfold PTrack.Line
  rw [hk]
  constructor
  · rintro ⟨l, hl⟩
    exact ⟨l + k, by rw [hl, Int.add_mul, Int.add_assoc]⟩
  · rintro ⟨l, hl⟩
    exact ⟨l - k, by rw [Int.sub_mul]; omega⟩

/-- A point on a track of the pattern, moved to an instance with the same offsets, is on a track of the pattern if it stays between the first and
the last track. -/
theorem point_on_track (range : Nat → Int × Int) (prefs : List PTrack) (hs : ∀ t ∈ prefs, 0 < t.spc) (i j : PInst) (hb : i.block = j.block)
    (hoff : prefs.map (trackOffset (range i.block).1 (range i.block).2 i) = prefs.map (trackOffset (range j.block).1 (range j.block).2 j))
    (hi : 0 ≤ i.origin.x ∧ i.origin.x < 4294967296 ∧ 0 ≤ i.origin.y ∧ i.origin.y < 4294967296)
    (hj : 0 ≤ j.origin.x ∧ j.origin.x < 4294967296 ∧ 0 ≤ j.origin.y ∧ j.origin.y < 4294967296) (t : PTrack) (ht : t ∈ prefs) (hon : t.On (range i.block))
    (hr : t.Meets i.bbox) (p : Point) (hp : t.Through p)
    (hin : t.start ≤ t.across (movePoint i j p) ∧ t.across (movePoint i j p) ≤ t.start + (t.spc : Int) * ((t.num : Int) - 1)) :
    t.Through (movePoint i j p) := by
  obtain ⟨n, _, hn⟩ := hp
  have hline := (tracks_agree range prefs hs i j hb hoff hi hj t ht hon).2 hr p
  obtain ⟨k, hk⟩ := hline.1 ⟨n, hn⟩
  have hspc : (0 : Int) < (t.spc : Int) := by have := hs t ht; omega
  have hk0 : 0 ≤ k := by
    apply Classical.byContradiction
    intro hneg
    have := Int.mul_le_mul_of_nonneg_right (show k ≤ -1 by omega) (Int.le_of_lt hspc)
    omega
  have hk1 : k < (t.num : Int) := by
    apply Classical.byContradiction
    intro hge
    have h1 := Int.mul_le_mul_of_nonneg_right (show (t.num : Int) ≤ k by omega) (Int.le_of_lt hspc)
    have h2 : (t.spc : Int) * ((t.num : Int) - 1) = (t.num : Int) * (t.spc : Int) - (t.spc : Int) := by
      rw [Int.mul_sub, Int.mul_one, Int.mul_comm]
    omega
  refine ⟨k.toNat, by omega, ?_⟩
  rw [hk, Int.toNat_of_nonneg hk0]

theorem mem_prefTracks (dirH : Int → Bool) (pats : List PTrack) (t : PTrack) : t ∈ prefTracks dirH pats ↔ t ∈ pats ∧ t.vert = !dirH t.layer := by
  unfold prefTracks
  rw [List.mem_filter]
  cases dirH t.layer <;> simp

/-- **C65** Instances that share their access points see the same tracks: for every track pattern in the preferred direction of its layer, on the layers
of the cell's pins, the pattern reaches both or neither; when it reaches them, a point moved from one to the other is on a track of the (continued)
pattern exactly when it was, and on a track of the pattern itself if it stays between the first and the last track. The origins must not be negative. -/
theorem c65_tracks_agree (dirH : Int → Bool) (range : Nat → Int × Int) (pats : List PTrack) (hs : ∀ t ∈ pats, 0 < t.spc) (i j : PInst)
    (hkey : classKey range (prefTracks dirH pats) i = classKey range (prefTracks dirH pats) j)
    (hi : 0 ≤ i.origin.x ∧ i.origin.x < 4294967296 ∧ 0 ≤ i.origin.y ∧ i.origin.y < 4294967296)
    (hj : 0 ≤ j.origin.x ∧ j.origin.x < 4294967296 ∧ 0 ≤ j.origin.y ∧ j.origin.y < 4294967296)
    (t : PTrack) (ht : t ∈ pats) (hdir : t.vert = !dirH t.layer) (hon : t.On (range i.block)) :
    (t.Meets i.bbox ↔ t.Meets j.bbox) ∧
    (t.Meets i.bbox → ∀ p, (t.Line p ↔ t.Line (movePoint i j p)) ∧
      (t.Through p → t.start ≤ t.across (movePoint i j p) → t.across (movePoint i j p) ≤ t.start + (t.spc : Int) * ((t.num : Int) - 1) →
        t.Through (movePoint i j p))) := by
  have hb : i.block = j.block := by simp only [classKey, Prod.mk.injEq] at hkey; exact hkey.1
  have hoff := hkey
  simp only [classKey, Prod.mk.injEq] at hoff
  have hmem := (mem_prefTracks dirH pats t).2 ⟨ht, hdir⟩
  have hs' : ∀ t ∈ prefTracks dirH pats, 0 < t.spc := fun t ht => hs t ((mem_prefTracks dirH pats t).1 ht).1
  have h := tracks_agree range _ hs' i j hb hoff.2.2 hi hj t hmem hon
  refine ⟨h.1, fun hm p => ⟨h.2 hm p, fun hp h1 h2 => ?_⟩⟩
  exact point_on_track range _ hs' i j hb hoff.2.2 hi hj t hmem hon hm p hp ⟨h1, h2⟩

/-- two instances of a cell one track apart share their access points; a third, half a track away, does not -/
example :
    let prefs := prefTracks (fun _ => false) [⟨true, 0, 100, 20, 2⟩]
    let range := fun _ => ((2 : Int), (4 : Int))
    let a : PInst := ⟨1, 7, .R0, ⟨40, 0⟩, ⟨⟨40, 0⟩, ⟨140, 100⟩⟩⟩
    let b : PInst := ⟨2, 7, .R0, ⟨200, 0⟩, ⟨⟨200, 0⟩, ⟨300, 100⟩⟩⟩
    let c : PInst := ⟨3, 7, .R0, ⟨310, 0⟩, ⟨⟨310, 0⟩, ⟨410, 100⟩⟩⟩
    paIdx (fun _ => true) (classKey range prefs) id [c, a, b] a = paIdx (fun _ => true) (classKey range prefs) id [c, a, b] b ∧
    paIdx (fun _ => true) (classKey range prefs) id [c, a, b] a ≠ paIdx (fun _ => true) (classKey range prefs) id [c, a, b] c ∧
    PTrack.Through ⟨true, 0, 100, 20, 2⟩ ⟨60, 5⟩ ∧ movePoint a b ⟨60, 5⟩ = ⟨220, 5⟩ := by
  refine ⟨by decide, by decide, ⟨3, by decide, by decide⟩, by decide⟩

/-- **C65** With a negative origin the property fails: the remainder is computed after conversion to unsigned, so that with tracks every 3 units an
instance at −1 and one at 0 share their access points although their tracks differ. -/
theorem c65_negative_origin : ∃ (range : Nat → Int × Int) (t : PTrack) (i j : PInst) (p : Point),
    0 < t.spc ∧ t.On (range i.block) ∧ i.block = j.block ∧ i.orient = j.orient ∧
    [t].map (trackOffset (range i.block).1 (range i.block).2 i) = [t].map (trackOffset (range j.block).1 (range j.block).2 j) ∧
    t.Meets i.bbox ∧ t.Meets j.bbox ∧ t.Line p ∧ ¬ t.Line (movePoint i j p) := by
  refine ⟨fun _ => (2, 4), ⟨true, -99, 100, 3, 2⟩, ⟨1, 7, .R0, ⟨0, 0⟩, ⟨⟨0, 0⟩, ⟨10, 10⟩⟩⟩, ⟨2, 7, .R0, ⟨-1, 0⟩, ⟨⟨-1, 0⟩, ⟨9, 10⟩⟩⟩, ⟨3, 0⟩,
    by decide, by simp [PTrack.On], rfl, rfl, by decide, (hasTracks_iff _ _).1 (by decide), (hasTracks_iff _ _).1 (by decide), ⟨34, by decide⟩, ?_⟩
  rintro ⟨k, hk⟩
  simp only [movePoint, PTrack.across, if_true] at hk
  omega

/-- **C65** An instance that the tracks only partly cover shares its access points with fully covered ones: a point on a track of one is on no track of
the other. -/
theorem c65_partly_covered : ∃ (range : Nat → Int × Int) (t : PTrack) (i j : PInst) (p : Point),
    0 < t.spc ∧ t.On (range i.block) ∧ i.block = j.block ∧ i.orient = j.orient ∧ 0 ≤ i.origin.x ∧ 0 ≤ j.origin.x ∧ 0 ≤ i.origin.y ∧ 0 ≤ j.origin.y ∧
    [t].map (trackOffset (range i.block).1 (range i.block).2 i) = [t].map (trackOffset (range j.block).1 (range j.block).2 j) ∧
    t.Meets i.bbox ∧ t.Meets j.bbox ∧ t.Through p ∧ ¬ t.Through (movePoint i j p) := by
  refine ⟨fun _ => (2, 4), ⟨true, 0, 10, 20, 2⟩, ⟨1, 7, .R0, ⟨0, 0⟩, ⟨⟨0, 0⟩, ⟨100, 10⟩⟩⟩, ⟨2, 7, .R0, ⟨160, 0⟩, ⟨⟨160, 0⟩, ⟨260, 10⟩⟩⟩, ⟨80, 0⟩,
    by decide, by simp [PTrack.On], rfl, rfl, by decide, by decide, by decide, by decide, by decide, (hasTracks_iff _ _).1 (by decide), (hasTracks_iff _ _).1 (by decide), ⟨4, by decide, by decide⟩, ?_⟩
  rintro ⟨k, hk, e⟩
  simp only [movePoint, PTrack.across, if_true] at hk e
  omega

end TR
