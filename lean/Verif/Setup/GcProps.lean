import Verif.Setup.GcSpec
import Verif.GCell.Spec
/-! C103, C104: the GCell grid derived from the guides. -/
namespace TR

/-! ### counting -/

/-- keys increase and the counts are those of `vals` -/
structure Counts (vals : List Int) (m : List (Int × Nat)) : Prop where
  inc : m.Pairwise (fun a b => a.1 < b.1)
  mem : ∀ k n, (k, n) ∈ m ↔ 0 < n ∧ n = times k vals

theorem times_append (x v : Int) (vals : List Int) : times x (vals ++ [v]) = times x vals + if v = x then 1 else 0 := by
  unfold times
  rw [List.filter_append, List.length_append]
  by_cases h : v = x <;> simp [h]

theorem countUp_mem (key : Int) : ∀ (m : List (Int × Nat)), m.Pairwise (fun a b => a.1 < b.1) → ∀ k n,
    (k, n) ∈ countUp key m ↔
      (k ≠ key ∧ (k, n) ∈ m) ∨ (k = key ∧ ((∃ n', (key, n') ∈ m ∧ n = n' + 1) ∨ ((∀ n', (key, n') ∉ m) ∧ n = 1)))
  | [], _, k, n => by simp [countUp]
  | (k0, n0) :: m, h, k, n => by
    rw [List.pairwise_cons] at h
    have ih := countUp_mem key m h.2 k n
    unfold countUp
    have hnot : ∀ n', (k0, n') ∉ m := fun n' hm => by have := h.1 _ hm; dsimp only at this; omega
    by_cases h1 : key < k0
    · rw [if_pos h1]
      have hk : ∀ n', (key, n') ∉ (k0, n0) :: m := by
        intro n' hm
        rcases List.mem_cons.1 hm with e | e
        · cases e; omega
        · have := h.1 _ e; dsimp only at this; omega
      rw [List.mem_cons]
      constructor
      · rintro (e | e)
        · cases e; exact .inr ⟨rfl, .inr ⟨hk, rfl⟩⟩
        · refine .inl ⟨?_, e⟩
          rintro rfl; exact hk _ e
      · rintro (⟨_, e⟩ | ⟨rfl, ⟨n', e, _⟩ | ⟨_, rfl⟩⟩)
        · exact .inr e
        · exact absurd e (hk _)
        · exact .inl rfl
    · rw [if_neg h1]
      by_cases h2 : key = k0
      · subst h2
        rw [if_pos rfl, List.mem_cons]
        constructor
        · rintro (e | e)
          · cases e; exact .inr ⟨rfl, .inl ⟨n0, by simp, rfl⟩⟩
          · refine .inl ⟨?_, by simp [e]⟩
            rintro rfl; exact hnot _ e
        · rintro (⟨hne, e⟩ | ⟨rfl, ⟨n', e, rfl⟩ | ⟨hno, _⟩⟩)
          · rcases List.mem_cons.1 e with e | e
            · cases e; exact absurd rfl hne
            · exact .inr e
          · rcases List.mem_cons.1 e with e | e
            · cases e; exact .inl rfl
            · exact absurd e (hnot _)
          · exact absurd (by simp) (hno n0)
      · rw [if_neg h2, List.mem_cons, ih]
        have hkm : ∀ n', (key, n') ∈ (k0, n0) :: m ↔ (key, n') ∈ m := by
          intro n'
          rw [List.mem_cons]
          exact ⟨fun h => h.resolve_left (fun e => by cases e; exact h2 rfl), .inr⟩
        simp only [hkm]
        constructor
        · rintro (e | ⟨hne, e⟩ | e)
          · cases e; exact .inl ⟨fun e => h2 e.symm, by simp⟩
          · exact .inl ⟨hne, by simp [e]⟩
          · exact .inr e
        · rintro (⟨hne, e⟩ | e)
          · rcases List.mem_cons.1 e with e | e
            · exact .inl e
            · exact .inr (.inl ⟨hne, e⟩)
          · exact .inr (.inr e)

theorem countUp_inc (key : Int) : ∀ (m : List (Int × Nat)), m.Pairwise (fun a b => a.1 < b.1) →
    (countUp key m).Pairwise (fun a b => a.1 < b.1)
  | [], _ => by simp [countUp]
  | (k0, n0) :: m, h => by
    have hm := countUp_mem key m (List.pairwise_cons.1 h).2
    have ih := countUp_inc key m (List.pairwise_cons.1 h).2
    unfold countUp
    split
    · rename_i h1
      refine List.pairwise_cons.2 ⟨?_, h⟩
      intro b hb
      rcases List.mem_cons.1 hb with rfl | hb
      · exact h1
      · have := (List.pairwise_cons.1 h).1 b hb; dsimp only at *; omega
    · split
      · refine List.pairwise_cons.2 ⟨?_, (List.pairwise_cons.1 h).2⟩
        intro b hb
        have := (List.pairwise_cons.1 h).1 b hb; exact this
      · rename_i h1 h2
        refine List.pairwise_cons.2 ⟨?_, ih⟩
        rintro ⟨k, n⟩ hb
        rcases (hm k n).1 hb with ⟨_, e⟩ | ⟨rfl, _⟩
        · exact (List.pairwise_cons.1 h).1 _ e
        · dsimp only; omega

theorem counts_all (vals : List Int) : Counts vals (vals.foldl (fun m v => countUp v m) []) := by
  suffices ∀ (rest pre : List Int) (m : List (Int × Nat)), Counts pre m → Counts (pre ++ rest) (rest.foldl (fun m v => countUp v m) m) by
    have := this vals [] [] ⟨by simp, by intro k n; simp [times]; omega⟩
    simpa using this
  intro rest
  induction rest with
  | nil => intro pre m h; simpa using h
  | cons v rest ih =>
    intro pre m h
    rw [List.foldl_cons]
    have : pre ++ v :: rest = (pre ++ [v]) ++ rest := by simp
    rw [this]
    refine ih _ _ ⟨countUp_inc _ _ h.inc, fun k n => ?_⟩
    rw [countUp_mem v m h.inc, times_append]
    simp only [h.mem]
    by_cases hk : k = v
    · subst hk
      simp only [ne_eq, not_true_eq_false, false_and, false_or, if_true, true_and]
      constructor
      · rintro (⟨n', ⟨_, h2⟩, rfl⟩ | ⟨hno, rfl⟩)
        · omega
        · have := hno (times k pre)
          omega
      · rintro ⟨_, rfl⟩
        by_cases h0 : times k pre = 0
        · exact .inr ⟨fun n' => by omega, by omega⟩
        · exact .inl ⟨_, ⟨by omega, rfl⟩, rfl⟩
    · have hk' : ¬ v = k := fun e => hk e.symm
      simp [hk, hk']

theorem scanMax_spec : ∀ (m : List (Int × Nat)) (a : Int × Int), m.Pairwise (fun a b => a.1 < b.1) →
    (scanMax m a = a ∧ ∀ p ∈ m, (p.2 : Int) ≤ a.2) ∨
    (∃ p ∈ m, scanMax m a = (p.1, (p.2 : Int)) ∧ a.2 < p.2 ∧ ∀ q ∈ m, q.2 < p.2 ∨ q.2 = p.2 ∧ p.1 ≤ q.1)
  | [], a, _ => .inl ⟨rfl, by simp⟩
  | (k, n) :: m, a, h => by
    rw [List.pairwise_cons] at h
    unfold scanMax
    by_cases hn : (n : Int) > a.2
    · rw [if_pos hn]
      rcases scanMax_spec m (k, n) h.2 with ⟨h1, h2⟩ | ⟨p, h1, h2, h3, h4⟩
      · refine .inr ⟨(k, n), by simp, h1, hn, ?_⟩
        rintro q hq
        rcases List.mem_cons.1 hq with rfl | hq
        · exact .inr ⟨rfl, Int.le_refl _⟩
        · have h5 := h2 q hq; have h6 := h.1 q hq
          dsimp only at *
          omega
      · refine .inr ⟨p, by simp [h1], h2, by dsimp only at h3; omega, ?_⟩
        rintro q hq
        rcases List.mem_cons.1 hq with rfl | hq
        · dsimp only at *; left; omega
        · exact h4 q hq
    · rw [if_neg hn]
      rcases scanMax_spec m a h.2 with ⟨h1, h2⟩ | ⟨p, h1, h2, h3, h4⟩
      · refine .inl ⟨h1, ?_⟩
        rintro q hq
        rcases List.mem_cons.1 hq with rfl | hq
        · dsimp only at *; omega
        · exact h2 q hq
      · refine .inr ⟨p, by simp [h1], h2, h3, ?_⟩
        rintro q hq
        rcases List.mem_cons.1 hq with rfl | hq
        · dsimp only at *; left; omega
        · exact h4 q hq

theorem times_pos {x : Int} {vals : List Int} : 0 < times x vals ↔ x ∈ vals := by
  unfold times
  rw [List.length_pos_iff_exists_mem]
  simp

theorem popular_spec {vals : List Int} (h : vals ≠ []) : MostFrequent vals (popular vals) := by
  have hc := counts_all vals
  unfold popular
  rcases scanMax_spec _ (-1, -1) hc.inc with ⟨h1, h2⟩ | ⟨⟨k, n⟩, h1, h2, h3, h4⟩
  · exfalso
    obtain ⟨v, vs, rfl⟩ := List.exists_cons_of_ne_nil h
    have : 0 < times v (v :: vs) := times_pos.2 (by simp)
    have := h2 _ ((hc.mem v _).2 ⟨this, rfl⟩)
    dsimp only at this
    omega
  · rw [h2]
    obtain ⟨m1, m2⟩ := (hc.mem k n).1 h1
    subst m2
    refine ⟨times_pos.1 m1, fun x hx => ?_⟩
    exact h4 _ ((hc.mem x _).2 ⟨times_pos.2 hx, rfl⟩)

theorem popular_nil : popular [] = -1 := rfl

theorem MostFrequent.unique {vals : List Int} {a b : Int} (ha : MostFrequent vals a) (hb : MostFrequent vals b) : a = b := by
  have h1 := ha.2 b hb.1; have h2 := hb.2 a ha.1
  omega

/-! ### one axis -/

theorem guideOffset_nonneg {g c : Int} (hg : 0 < g) (hc : 0 ≤ c) : guideOffset g c = c % g := by
  unfold guideOffset
  rw [Int.tmod_eq_emod_of_nonneg hc, if_neg (by have := Int.emod_nonneg c (show g ≠ 0 by omega); omega)]

theorem axisPattern_spec {dl dh g off : Int} {p : GCellPat} (hg : 0 < g) (hdl : 0 ≤ dl) (hoff : 0 ≤ off ∧ off < g)
    (h : axisPattern dl dh g off = .ok p) (hd : dl < dh) :
    p.spacing = g ∧ OnGLine p.start g off ∧ p.start ≤ dl ∧ dl < p.start + g ∧ 0 ≤ p.count ∧
    p.start + g * p.count ≤ dh ∧ dh < p.start + g * (p.count + 1) := by
  unfold axisPattern at h
  dsimp only at h
  split at h
  · cases h
  · cases h
    rw [Int.tdiv_eq_ediv_of_nonneg hdl]
    have e1 := Int.mul_ediv_add_emod dl g
    have e2 := Int.emod_nonneg dl (show g ≠ 0 by omega)
    have e3 := Int.emod_lt_of_pos dl hg
    have ec : dl / g * g = g * (dl / g) := Int.mul_comm _ _
    have hs : ∀ s, s ≤ dl → s = g * (dl / g) + off ∨ s = g * (dl / g) + off - g → dl < s + g →
        g = g ∧ OnGLine s g off ∧ s ≤ dl ∧ dl < s + g ∧ 0 ≤ (dh - s).tdiv g ∧
        s + g * (dh - s).tdiv g ≤ dh ∧ dh < s + g * ((dh - s).tdiv g + 1) := by
      intro s h1 h2 h3
      rw [Int.tdiv_eq_ediv_of_nonneg (show 0 ≤ dh - s by omega)]
      have f1 := Int.mul_ediv_add_emod (dh - s) g
      have f2 := Int.emod_nonneg (dh - s) (show g ≠ 0 by omega)
      have f3 := Int.emod_lt_of_pos (dh - s) hg
      have f4 : 0 ≤ (dh - s) / g := Int.ediv_nonneg (by omega) (by omega)
      refine ⟨rfl, ?_, h1, h3, f4, by omega, by rw [Int.mul_add]; omega⟩
      rcases h2 with h2 | h2
      · refine ⟨-(dl / g), ?_⟩
        rw [Int.mul_neg]; omega
      · refine ⟨-(dl / g) + 1, ?_⟩
        rw [Int.mul_add, Int.mul_neg]; omega
    dsimp only
    split <;> apply hs <;> omega

/-! ### C103, C104 -/

theorem buildPatterns_ok {dir : DirOf} {layers : Nat} {die : Box} {gs : List SGuide} {g : GGrid}
    (h : buildPatterns dir layers die gs = .ok g) :
    ∃ gx gy ox oy, gx = popular (widthsX dir gs) ∧ gy = popular (widthsY dir gs) ∧ gx ≠ -1 ∧ gy ≠ -1 ∧ gx ≠ 0 ∧ gy ≠ 0 ∧
      ox = popular (gs.map (fun g => guideOffset gx g.box.left)) ∧ oy = popular (gs.map (fun g => guideOffset gy g.box.bottom)) ∧
      axisPattern die.left die.right gx ox = .ok g.xp ∧ axisPattern die.bottom die.top gy oy = .ok g.yp ∧ g.die = die := by
  unfold buildPatterns at h
  dsimp only at h
  repeat' split at h
  all_goals try cases h
  rename_i h1 h2 h3 h4 h5 h6 _ _ xp yp hx hy _
  exact ⟨_, _, _, _, rfl, rfl, h1, h2, h3, h4, rfl, rfl, hx, hy, rfl⟩

/-- C103: the pitch of the GCells in x is the most frequent width of the guides on vertical layers, the
pitch in y that of the heights of the guides on horizontal layers, the smallest of equally frequent
ones; and the lines are shifted by the most frequent offset of all guides. -/
theorem c103_pitch_and_offset (dir : DirOf) (layers : Nat) (die : Box) (gs : List SGuide) (g : GGrid)
    (hgs : ∀ s ∈ gs, 0 ≤ s.box.left ∧ 0 ≤ s.box.bottom ∧ s.box.left < s.box.right ∧ s.box.bottom < s.box.top)
    (hdie : 0 ≤ die.left ∧ 0 ≤ die.bottom ∧ die.left < die.right ∧ die.bottom < die.top)
    (h : buildPatterns dir layers die gs = .ok g) :
    MostFrequent ((gs.filter (fun s => dir s.layer == some false)).map (fun s => s.box.right - s.box.left)) g.xp.spacing ∧
    MostFrequent ((gs.filter (fun s => dir s.layer == some true)).map (fun s => s.box.top - s.box.bottom)) g.yp.spacing ∧
    (∃ ox, MostFrequent (gs.map (fun s => s.box.left % g.xp.spacing)) ox ∧ OnGLine g.xp.start g.xp.spacing ox) ∧
    (∃ oy, MostFrequent (gs.map (fun s => s.box.bottom % g.yp.spacing)) oy ∧ OnGLine g.yp.start g.yp.spacing oy) ∧
    g.die = die ∧
    g.xp.start ≤ die.left ∧ die.left < g.xp.start + g.xp.spacing ∧
    g.xp.start + g.xp.spacing * g.xp.count ≤ die.right ∧ die.right < g.xp.start + g.xp.spacing * (g.xp.count + 1) ∧
    g.yp.start ≤ die.bottom ∧ die.bottom < g.yp.start + g.yp.spacing ∧
    g.yp.start + g.yp.spacing * g.yp.count ≤ die.top ∧ die.top < g.yp.start + g.yp.spacing * (g.yp.count + 1) := by
  obtain ⟨gx, gy, ox, oy, ex, ey, n1, n2, z1, z2, eox, eoy, ax, ay, ed⟩ := buildPatterns_ok h
  have hx : widthsX dir gs ≠ [] := by intro e; rw [e] at ex; exact n1 ex
  have hy : widthsY dir gs ≠ [] := by intro e; rw [e] at ey; exact n2 ey
  have mx := popular_spec hx
  have my := popular_spec hy
  rw [← ex] at mx
  rw [← ey] at my
  have px : 0 < gx := by
    obtain ⟨s, hs, e⟩ := List.mem_map.1 mx.1
    have := hgs s (List.mem_filter.1 hs).1
    omega
  have py : 0 < gy := by
    obtain ⟨s, hs, e⟩ := List.mem_map.1 my.1
    have := hgs s (List.mem_filter.1 hs).1
    omega
  have hne : gs ≠ [] := by rintro rfl; exact hx rfl
  have o1 : gs.map (fun g => guideOffset gx g.box.left) = gs.map (fun s => s.box.left % gx) :=
    List.map_congr_left (fun s hs => guideOffset_nonneg px (hgs s hs).1)
  have o2 : gs.map (fun g => guideOffset gy g.box.bottom) = gs.map (fun s => s.box.bottom % gy) :=
    List.map_congr_left (fun s hs => guideOffset_nonneg py (hgs s hs).2.1)
  rw [o1] at eox
  rw [o2] at eoy
  have q1 : MostFrequent (gs.map (fun s => s.box.left % gx)) ox := by rw [eox]; exact popular_spec (by simpa using hne)
  have q2 : MostFrequent (gs.map (fun s => s.box.bottom % gy)) oy := by rw [eoy]; exact popular_spec (by simpa using hne)
  have b1 : 0 ≤ ox ∧ ox < gx := by
    obtain ⟨s, _, e⟩ := List.mem_map.1 q1.1
    rw [← e]
    exact ⟨Int.emod_nonneg _ (by omega), Int.emod_lt_of_pos _ px⟩
  have b2 : 0 ≤ oy ∧ oy < gy := by
    obtain ⟨s, _, e⟩ := List.mem_map.1 q2.1
    rw [← e]
    exact ⟨Int.emod_nonneg _ (by omega), Int.emod_lt_of_pos _ py⟩
  obtain ⟨s1, s2, s3, s4, s5, s6, s7⟩ := axisPattern_spec px hdie.1 b1 ax hdie.2.2.1
  obtain ⟨t1, t2, t3, t4, t5, t6, t7⟩ := axisPattern_spec py hdie.2.1 b2 ay hdie.2.2.2
  rw [s1, t1]
  exact ⟨mx, my, ⟨ox, q1, s2⟩, ⟨oy, q2, t2⟩, ed, s3, s4, s6, s7, t3, t4, t6, t7⟩

/-- C103: without a guide on a vertical layer, or without one on a horizontal layer, the program stops. -/
theorem c103_needs_both_directions (dir : DirOf) (layers : Nat) (die : Box) (gs : List SGuide)
    (h : (∀ s ∈ gs, dir s.layer ≠ some false) ∨ (∀ s ∈ gs, dir s.layer ≠ some true)) :
    buildPatterns dir layers die gs = .stopped := by
  have key : ∀ b : Bool, (∀ s ∈ gs, dir s.layer ≠ some b) → gs.filter (fun s => dir s.layer == some b) = [] := by
    intro b hb
    rw [List.filter_eq_nil_iff]
    intro s hs
    simpa using hb s hs
  unfold buildPatterns
  dsimp only
  rcases h with h | h
  · have : popular (widthsX dir gs) = -1 := by unfold widthsX; rw [key _ h]; rfl
    rw [if_pos this]
  · have : popular (widthsY dir gs) = -1 := by unfold widthsY; rw [key _ h]; rfl
    rw [this]
    simp

/-- C104: the derived grid fits the die — the hypothesis of C21 to C24 — as soon as its first GCell ends
inside the die. -/
theorem c104_grid_fits (dir : DirOf) (layers : Nat) (die : Box) (gs : List SGuide) (g : GGrid)
    (hgs : ∀ s ∈ gs, 0 ≤ s.box.left ∧ 0 ≤ s.box.bottom ∧ s.box.left < s.box.right ∧ s.box.bottom < s.box.top)
    (hdie : 0 ≤ die.left ∧ 0 ≤ die.bottom ∧ die.left < die.right ∧ die.bottom < die.top)
    (h : buildPatterns dir layers die gs = .ok g)
    (hx : g.xp.start + g.xp.spacing ≤ die.right) (hy : g.yp.start + g.yp.spacing ≤ die.top) : g.Fits := by
  obtain ⟨_, _, _, _, hd, h1, h2, h3, h4, h5, h6, h7, h8⟩ := c103_pitch_and_offset dir layers die gs g hgs hdie h
  have px : 0 < g.xp.spacing := by omega
  have py : 0 < g.yp.spacing := by omega
  rw [Int.mul_add] at h4 h8
  have cx : 0 < g.xp.count := by
    apply Int.lt_of_not_ge
    intro hc
    have := Int.mul_le_mul_of_nonneg_left hc (Int.le_of_lt px)
    omega
  have cy : 0 < g.yp.count := by
    apply Int.lt_of_not_ge
    intro hc
    have := Int.mul_le_mul_of_nonneg_left hc (Int.le_of_lt py)
    omega
  unfold GGrid.Fits AxisFits
  rw [hd, Int.mul_sub, Int.mul_sub]
  omega

/-- C104: a guide with the most frequent offset and the common size has all its sides on GCell lines. -/
theorem c104_guides_on_lines (dir : DirOf) (layers : Nat) (die : Box) (gs : List SGuide) (g : GGrid)
    (hgs : ∀ s ∈ gs, 0 ≤ s.box.left ∧ 0 ≤ s.box.bottom ∧ s.box.left < s.box.right ∧ s.box.bottom < s.box.top)
    (hdie : 0 ≤ die.left ∧ 0 ≤ die.bottom ∧ die.left < die.right ∧ die.bottom < die.top)
    (h : buildPatterns dir layers die gs = .ok g) (s : SGuide)
    (hreg : ∀ t ∈ gs, (∃ k, t.box.left = s.box.left + g.xp.spacing * k) ∧ (∃ k, t.box.right = s.box.left + g.xp.spacing * k) ∧
      (∃ k, t.box.bottom = s.box.bottom + g.yp.spacing * k) ∧ (∃ k, t.box.top = s.box.bottom + g.yp.spacing * k)) :
    ∀ t ∈ gs, OnGLine g.xp.start g.xp.spacing t.box.left ∧ OnGLine g.xp.start g.xp.spacing t.box.right ∧
      OnGLine g.yp.start g.yp.spacing t.box.bottom ∧ OnGLine g.yp.start g.yp.spacing t.box.top := by
  obtain ⟨_, _, ⟨ox, mx, lx⟩, ⟨oy, my, ly⟩, _⟩ := c103_pitch_and_offset dir layers die gs g hgs hdie h
  obtain ⟨u, hu, eu⟩ := List.mem_map.1 mx.1
  obtain ⟨w, hw, ew⟩ := List.mem_map.1 my.1
  have key : ∀ (st sp o a base : Int), a % sp = o → OnGLine st sp o → (∃ k, a = base + sp * k) → ∀ c, (∃ k, c = base + sp * k) → OnGLine st sp c := by
    rintro st sp o a base e ⟨k1, e1⟩ ⟨k2, e2⟩ c ⟨k3, e3⟩
    have := Int.mul_ediv_add_emod a sp
    refine ⟨k1 + a / sp - k2 + k3, ?_⟩
    rw [Int.mul_add, Int.mul_sub, Int.mul_add]
    omega
  intro t ht
  obtain ⟨t1, t2, t3, t4⟩ := hreg t ht
  exact ⟨key _ _ _ _ _ eu lx (hreg u hu).1 _ t1, key _ _ _ _ _ eu lx (hreg u hu).1 _ t2,
    key _ _ _ _ _ ew ly (hreg w hw).2.2.1 _ t3, key _ _ _ _ _ ew ly (hreg w hw).2.2.1 _ t4⟩

/-! ### instances and witnesses -/

def exGDir : DirOf := fun l => some (l % 4 == 2)
def exGuides : List SGuide := [⟨2, ⟨⟨105, 10⟩, ⟨405, 110⟩⟩⟩, ⟨4, ⟨⟨105, 10⟩, ⟨205, 310⟩⟩⟩, ⟨4, ⟨⟨305, 110⟩, ⟨405, 310⟩⟩⟩]

example : buildPatterns exGDir 13 ⟨⟨0, 0⟩, ⟨1000, 800⟩⟩ exGuides = .ok ⟨⟨⟨0, 0⟩, ⟨1000, 800⟩⟩, ⟨-95, 100, 10⟩, ⟨-90, 100, 8⟩⟩ := rfl

/-- C104: with a cut layer on top the number of layers is even, and the program is stopped by an
exception. -/
theorem c104_even_layers_throw (dir : DirOf) (layers : Nat) (die : Box) (gs : List SGuide) (g : GGrid)
    (h : buildPatterns dir (2 * layers) die gs = .ok g) : ¬ (0 < g.xp.count ∧ 0 < g.yp.count) := by
  unfold buildPatterns at h
  dsimp only at h
  repeat' split at h
  all_goals try cases h
  rename_i hc
  have : 2 * layers % 2 = 0 := by omega
  simpa [this] using hc

/-- C104: a die with a negative left edge: the grid starts inside the die, and its first GCell is wider than
the pitch. -/
theorem c104_negative_die : ∃ (die : Box) (gs : List SGuide) (g : GGrid), buildPatterns exGDir 13 die gs = .ok g ∧
    die.left < g.xp.start ∧ g.xp.spacing < (g.box ⟨0, 0⟩).right - (g.box ⟨0, 0⟩).left := by
  exact ⟨⟨⟨-15, 0⟩, ⟨100, 100⟩⟩, [⟨2, ⟨⟨8, 8⟩, ⟨38, 18⟩⟩⟩, ⟨4, ⟨⟨8, 8⟩, ⟨18, 38⟩⟩⟩],
    ⟨⟨⟨-15, 0⟩, ⟨100, 100⟩⟩, ⟨-12, 10, 11⟩, ⟨-2, 10, 10⟩⟩, rfl, by decide +kernel, by decide +kernel⟩

/-- C104: a die narrower than a GCell is accepted with no GCell at all. -/
theorem c104_no_gcell : ∃ (die : Box) (gs : List SGuide) (g : GGrid), buildPatterns exGDir 13 die gs = .ok g ∧
    die.left < die.right ∧ g.xp.count = 0 := by
  exact ⟨⟨⟨95, 0⟩, ⟨99, 100⟩⟩, [⟨2, ⟨⟨0, 0⟩, ⟨30, 10⟩⟩⟩, ⟨4, ⟨⟨0, 0⟩, ⟨10, 30⟩⟩⟩], _, rfl, by decide +kernel, by decide +kernel⟩

/-- C104: guides left of the origin: their offset is mirrored, so they lie off the lines. -/
theorem c104_negative_guides : ∃ (die : Box) (gs : List SGuide) (g : GGrid), buildPatterns exGDir 13 die gs = .ok g ∧
    ∀ s ∈ gs, ¬ OnGLine g.xp.start g.xp.spacing s.box.left := by
  refine ⟨⟨⟨0, 0⟩, ⟨100, 100⟩⟩, [⟨2, ⟨⟨-7, 0⟩, ⟨23, 10⟩⟩⟩, ⟨4, ⟨⟨-7, 0⟩, ⟨3, 30⟩⟩⟩],
    ⟨⟨⟨0, 0⟩, ⟨100, 100⟩⟩, ⟨7, 10, 9⟩, ⟨0, 10, 10⟩⟩, rfl, ?_⟩
  intro s hs
  rintro ⟨k, hk⟩
  have e : s.box.left = -7 := by
    simp only [List.mem_cons, List.not_mem_nil, or_false] at hs
    rcases hs with rfl | rfl <;> rfl
  rw [e] at hk
  dsimp only at hk
  omega

end TR
