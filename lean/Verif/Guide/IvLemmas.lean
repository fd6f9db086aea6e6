import Verif.Guide.Spec
/-! Interval sets, track maps and merging. -/
namespace TR

theorem ivHas_iff (s : IvSet) (x : Int) : ivHas s x = true ↔ ∃ i ∈ s, i.1 ≤ x ∧ x ≤ i.2 := by
  unfold ivHas
  rw [List.any_eq_true]
  simp

theorem ivIns_lo (s : IvSet) : ∀ (a b : Int), ∀ i ∈ ivIns a b s, i.1 = a ∨ ∃ j ∈ s, i.1 = j.1 := by
  induction s with
  | nil => intro a b i h; simp [ivIns] at h; rw [h]; exact .inl rfl
  | cons x r ih =>
    intro a b i h
    obtain ⟨c, d⟩ := x
    rw [ivIns] at h
    split at h
    · rcases List.mem_cons.1 h with rfl | h
      · exact .inl rfl
      · exact .inr ⟨i, h, rfl⟩
    · split at h
      · rcases List.mem_cons.1 h with rfl | h
        · exact .inr ⟨_, by simp, rfl⟩
        · rcases ih a b i h with h | ⟨j, hj, h⟩
          · exact .inl h
          · exact .inr ⟨j, by simp [hj], h⟩
      · rcases ih _ _ i h with h | ⟨j, hj, h⟩
        · by_cases hac : a ≤ c
          · left; omega
          · right; refine ⟨(c, d), by simp, ?_⟩
            simp only; omega
        · exact .inr ⟨j, by simp [hj], h⟩

theorem ivIns_sep (s : IvSet) : ∀ (a b : Int), a ≤ b → Separated s → Separated (ivIns a b s) := by
  induction s with
  | nil => intro a b h _; exact ⟨by simp [ivIns], by intro i hi; simp [ivIns] at hi; rw [hi]; exact h⟩
  | cons x r ih =>
    intro a b hab hs
    obtain ⟨c, d⟩ := x
    obtain ⟨h1, h2⟩ := hs
    obtain ⟨h3, h4⟩ := List.pairwise_cons.1 h1
    have hcd := h2 (c, d) (by simp)
    have hr : Separated r := ⟨h4, fun i hi => h2 i (by simp [hi])⟩
    simp only at hcd h3
    rw [ivIns]
    split
    · refine ⟨List.pairwise_cons.2 ⟨?_, h1⟩, ?_⟩
      · intro i hi
        rcases List.mem_cons.1 hi with rfl | hi
        · assumption
        · have := h3 i hi; simp only; omega
      · intro i hi
        rcases List.mem_cons.1 hi with rfl | hi
        · exact hab
        · exact h2 i hi
    · split
      · obtain ⟨g1, g2⟩ := ih a b hab hr
        refine ⟨List.pairwise_cons.2 ⟨?_, g1⟩, ?_⟩
        · intro i hi
          rcases ivIns_lo r a b i hi with h | ⟨j, hj, h⟩
          · simp only; omega
          · have := h3 j hj; simp only; omega
        · intro i hi
          rcases List.mem_cons.1 hi with rfl | hi
          · exact hcd
          · exact g2 i hi
      · exact ih _ _ (by omega) hr

theorem ivIns_has (s : IvSet) : ∀ (a b : Int) (_ : Separated s) (x : Int), a ≤ b →
    ((∃ i ∈ ivIns a b s, i.1 ≤ x ∧ x ≤ i.2) ↔ (a ≤ x ∧ x ≤ b) ∨ ∃ i ∈ s, i.1 ≤ x ∧ x ≤ i.2) := by
  induction s with
  | nil => intro a b _ x _; simp [ivIns]
  | cons y r ih =>
    intro a b hs x hab
    obtain ⟨c, d⟩ := y
    obtain ⟨h1, h2⟩ := hs
    obtain ⟨h3, h4⟩ := List.pairwise_cons.1 h1
    have hcd := h2 (c, d) (by simp)
    have hr : Separated r := ⟨h4, fun i hi => h2 i (by simp [hi])⟩
    simp only at hcd
    rw [ivIns]
    split
    · simp
    · split
      · simp only [List.mem_cons, exists_eq_or_imp]
        rw [ih a b hr x hab]
        constructor
        · rintro (h | h | h)
          · exact .inr (.inl h)
          · exact .inl h
          · exact .inr (.inr h)
        · rintro (h | h | h)
          · exact .inr (.inl h)
          · exact .inl h
          · exact .inr (.inr h)
      · rw [ih _ _ hr x (by omega)]
        simp only [List.mem_cons, exists_eq_or_imp]
        constructor
        · rintro (h | h)
          · by_cases hx : c ≤ x ∧ x ≤ d
            · exact .inr (.inl hx)
            · left; omega
          · exact .inr (.inr h)
        · rintro (h | h | h)
          · left; omega
          · left; omega
          · exact .inr h

/-- a well-formed track map -/
def TMap.Ok (m : TMap) : Prop := m.Pairwise (fun a b => a.1 < b.1) ∧ ∀ k ∈ m, Separated k.2

/-- track `t` of the map covers position `x` -/
def TMap.Cov (m : TMap) (t x : Int) : Prop := ∃ k ∈ m, k.1 = t ∧ ∃ i ∈ k.2, i.1 ≤ x ∧ x ≤ i.2

theorem TMap.ins_keys (t a b : Int) : ∀ (m : TMap), ∀ k ∈ m.ins t a b, k.1 = t ∨ ∃ k' ∈ m, k'.1 = k.1
  | [], k, h => by simp [TMap.ins] at h; rw [h]; exact .inl rfl
  | (u, s) :: r, k, h => by
    rw [TMap.ins] at h
    split at h
    · rcases List.mem_cons.1 h with rfl | h
      · exact .inl rfl
      · exact .inr ⟨k, h, rfl⟩
    · split at h
      · rcases List.mem_cons.1 h with rfl | h
        · exact .inr ⟨(u, s), by simp, rfl⟩
        · exact .inr ⟨k, by simp [h], rfl⟩
      · rcases List.mem_cons.1 h with rfl | h
        · exact .inr ⟨(u, s), by simp, rfl⟩
        · rcases TMap.ins_keys t a b r k h with h | ⟨k', h1, h2⟩
          · exact .inl h
          · exact .inr ⟨k', by simp [h1], h2⟩

theorem sep_nil : Separated [] := ⟨List.Pairwise.nil, by simp⟩

theorem TMap.ins_ok (t a b : Int) : ∀ (m : TMap), m.Ok → (m.ins t a b).Ok
  | [], _ => by
    refine ⟨by simp [TMap.ins], ?_⟩
    intro k hk
    simp [TMap.ins] at hk
    rw [hk]; simp only
    split
    · exact ivIns_sep [] a b (by assumption) sep_nil
    · exact sep_nil
  | (u, s) :: r, h => by
    obtain ⟨h1, h2⟩ := h
    obtain ⟨h3, h4⟩ := List.pairwise_cons.1 h1
    rw [TMap.ins]
    split
    · refine ⟨List.pairwise_cons.2 ⟨?_, h1⟩, ?_⟩
      · intro k hk
        rcases List.mem_cons.1 hk with rfl | hk
        · assumption
        · have := h3 k hk; simp only at *; omega
      · intro k hk
        rcases List.mem_cons.1 hk with rfl | hk
        · simp only; split
          · exact ivIns_sep [] a b (by assumption) sep_nil
          · exact sep_nil
        · exact h2 k hk
    · split
      · refine ⟨List.pairwise_cons.2 ⟨h3, h4⟩, ?_⟩
        intro k hk
        rcases List.mem_cons.1 hk with rfl | hk
        · simp only; split
          · exact ivIns_sep s a b (by assumption) (h2 (u, s) (by simp))
          · exact h2 (u, s) (by simp)
        · exact h2 k (by simp [hk])
      · obtain ⟨g1, g2⟩ := TMap.ins_ok t a b r ⟨h4, fun k hk => h2 k (by simp [hk])⟩
        refine ⟨List.pairwise_cons.2 ⟨?_, g1⟩, ?_⟩
        · intro k hk
          rcases TMap.ins_keys t a b r k hk with h | ⟨k', h5, h6⟩
          · simp only; omega
          · have := h3 k' h5; simp only at *; omega
        · intro k hk
          rcases List.mem_cons.1 hk with rfl | hk
          · exact h2 _ (by simp)
          · exact g2 k hk

theorem TMap.cov_cons (k : Int × IvSet) (m : TMap) (u x : Int) :
    TMap.Cov (k :: m) u x ↔ (k.1 = u ∧ ∃ i ∈ k.2, i.1 ≤ x ∧ x ≤ i.2) ∨ TMap.Cov m u x := by
  unfold TMap.Cov
  simp only [List.mem_cons, exists_eq_or_imp]

theorem ivIns_has_if (s : IvSet) (a b : Int) (hs : Separated s) (x : Int) :
    (∃ i ∈ (if a ≤ b then ivIns a b s else s), i.1 ≤ x ∧ x ≤ i.2) ↔ (a ≤ x ∧ x ≤ b) ∨ ∃ i ∈ s, i.1 ≤ x ∧ x ≤ i.2 := by
  split
  · exact ivIns_has s a b hs x (by assumption)
  · constructor
    · exact .inr
    · rintro (h | h)
      · omega
      · exact h

theorem TMap.ins_cov (t a b : Int) : ∀ (m : TMap) (_ : m.Ok) (u x : Int),
    (m.ins t a b).Cov u x ↔ (u = t ∧ a ≤ x ∧ x ≤ b) ∨ m.Cov u x
  | [], _, u, x => by
    rw [TMap.ins, TMap.cov_cons]
    simp only
    rw [ivIns_has_if [] a b sep_nil]
    simp [TMap.Cov]
    intro _ _; exact eq_comm
  | (v, s) :: r, h, u, x => by
    obtain ⟨h1, h2⟩ := h
    obtain ⟨h3, h4⟩ := List.pairwise_cons.1 h1
    rw [TMap.ins]
    split
    · rw [TMap.cov_cons]
      simp only
      rw [ivIns_has_if [] a b sep_nil]
      simp only [List.not_mem_nil, false_and, exists_false, or_false]
      constructor
      · rintro (⟨h1, h2⟩ | h)
        · exact .inl ⟨h1.symm, h2⟩
        · exact .inr h
      · rintro (⟨h1, h2⟩ | h)
        · exact .inl ⟨h1.symm, h2⟩
        · exact .inr h
    · split
      · rename_i htv
        subst htv
        rw [TMap.cov_cons, TMap.cov_cons]
        simp only
        rw [ivIns_has_if s a b (h2 (t, s) (by simp))]
        constructor
        · rintro (⟨h1, h2 | h2⟩ | h)
          · exact .inl ⟨h1.symm, h2⟩
          · exact .inr (.inl ⟨h1, h2⟩)
          · exact .inr (.inr h)
        · rintro (⟨h1, h2⟩ | ⟨h1, h2⟩ | h)
          · exact .inl ⟨h1.symm, .inl h2⟩
          · exact .inl ⟨h1, .inr h2⟩
          · exact .inr h
      · rw [TMap.cov_cons, TMap.cov_cons, TMap.ins_cov t a b r ⟨h4, fun k hk => h2 k (by simp [hk])⟩]
        constructor
        · rintro (h | h | h)
          · exact .inr (.inl h)
          · exact .inl h
          · exact .inr (.inr h)
        · rintro (h | h | h)
          · exact .inr (.inl h)
          · exact .inl h
          · exact .inr (.inr h)

theorem TMap.get_has {m : TMap} (h : m.Ok) (t x : Int) : ivHas (m.get t) x = true ↔ m.Cov t x := by
  rw [ivHas_iff]
  induction m with
  | nil => simp [TMap.get, TMap.Cov]
  | cons k r ih =>
    obtain ⟨u, s⟩ := k
    obtain ⟨h1, h2⟩ := h
    obtain ⟨h3, h4⟩ := List.pairwise_cons.1 h1
    rw [TMap.get, TMap.cov_cons]
    split
    · rename_i he
      subst he
      constructor
      · intro h; exact .inl ⟨rfl, h⟩
      · rintro (⟨_, h⟩ | ⟨k, hk, he, _⟩)
        · exact h
        · have := h3 k hk; simp only at this; omega
    · rename_i hne
      rw [ih ⟨h4, fun k hk => h2 k (by simp [hk])⟩]
      constructor
      · exact .inr
      · rintro (⟨h, _⟩ | h)
        · exact absurd h.symm hne
        · exact h

/-- all layers well-formed -/
def Intvs.Ok (iv : Intvs) : Prop := ∀ l, (iv l).Ok

theorem covered_iff (T : GuideTech) (iv : Intvs) (n : Node) : Covered T iv n ↔ (iv n.layer).Cov (T.track n) (T.pos n) := Iff.rfl

theorem Intvs.ins_ok {iv : Intvs} (h : iv.Ok) (l t a b : Int) : (iv.ins l t a b).Ok := by
  intro l'
  unfold Intvs.ins
  split
  · exact TMap.ins_ok _ _ _ _ (h l)
  · exact h l'

theorem Intvs.ins_cov {iv : Intvs} (h : iv.Ok) (T : GuideTech) (l t a b : Int) (n : Node) :
    Covered T (iv.ins l t a b) n ↔ (n.layer = l ∧ T.track n = t ∧ a ≤ T.pos n ∧ T.pos n ≤ b) ∨ Covered T iv n := by
  rw [covered_iff, covered_iff]
  unfold Intvs.ins
  split
  · rename_i hl
    rw [TMap.ins_cov _ _ _ _ (h l), hl]
    simp
  · rename_i hl
    constructor
    · exact .inr
    · rintro (⟨h, _⟩ | h)
      · exact absurd h hl
      · exact h

theorem mem_intRange (a b x : Int) : x ∈ intRange a b ↔ a ≤ x ∧ x ≤ b := by
  unfold intRange
  rw [List.mem_map]
  constructor
  · rintro ⟨k, hk, rfl⟩
    rw [List.mem_range] at hk
    omega
  · rintro ⟨h1, h2⟩
    exact ⟨(x - a).toNat, by rw [List.mem_range]; omega, by omega⟩

theorem foldl_tracks (T : GuideTech) (l a b : Int) (R : List Int) : ∀ (iv : Intvs), iv.Ok →
    (R.foldl (fun iv i => iv.ins l i a b) iv).Ok ∧
    ∀ n, Covered T (R.foldl (fun iv i => iv.ins l i a b) iv) n ↔
      (n.layer = l ∧ T.track n ∈ R ∧ a ≤ T.pos n ∧ T.pos n ≤ b) ∨ Covered T iv n := by
  induction R with
  | nil => intro iv h; exact ⟨h, by intro n; simp⟩
  | cons t r ih =>
    intro iv h
    rw [List.foldl_cons]
    obtain ⟨h1, h2⟩ := ih _ (Intvs.ins_ok h l t a b)
    refine ⟨h1, ?_⟩
    intro n
    rw [h2, Intvs.ins_cov h T]
    simp only [List.mem_cons]
    constructor
    · rintro (⟨x, y, z⟩ | ⟨x, y, z⟩ | h)
      · exact .inl ⟨x, .inr y, z⟩
      · exact .inl ⟨x, .inl y, z⟩
      · exact .inr h
    · rintro (⟨x, y | y, z⟩ | h)
      · exact .inr (.inl ⟨x, y, z⟩)
      · exact .inl ⟨x, y, z⟩
      · exact .inr (.inr h)

theorem addRect_spec (T : GuideTech) (idxOf : Point → Point) (iv : Intvs) (h : iv.Ok) (r : GuideRect) :
    (addRect T idxOf iv r).Ok ∧ ∀ n, Covered T (addRect T idxOf iv r) n ↔ r.Covers idxOf n ∨ Covered T iv n := by
  unfold addRect GuideRect.Covers
  simp only
  split
  · rename_i hh
    obtain ⟨h1, h2⟩ := foldl_tracks T r.layer (idxOf r.box.ll).x (idxOf ⟨r.box.right - 1, r.box.top - 1⟩).x
      (intRange (idxOf r.box.ll).y (idxOf ⟨r.box.right - 1, r.box.top - 1⟩).y) iv h
    refine ⟨h1, fun n => ?_⟩
    rw [h2, mem_intRange]
    constructor
    · rintro (⟨a, b, c⟩ | h)
      · left
        rw [GuideTech.track, a, if_pos hh] at b; rw [GuideTech.pos, a, if_pos hh] at c
        exact ⟨a, c.1, c.2, b.1, b.2⟩
      · exact .inr h
    · rintro (⟨a, b⟩ | h)
      · left
        rw [GuideTech.track, GuideTech.pos, a, hh]
        exact ⟨rfl, ⟨b.2.2.1, b.2.2.2⟩, b.1, b.2.1⟩
      · exact .inr h
  · rename_i hh
    obtain ⟨h1, h2⟩ := foldl_tracks T r.layer (idxOf r.box.ll).y (idxOf ⟨r.box.right - 1, r.box.top - 1⟩).y
      (intRange (idxOf r.box.ll).x (idxOf ⟨r.box.right - 1, r.box.top - 1⟩).x) iv h
    refine ⟨h1, fun n => ?_⟩
    rw [h2, mem_intRange]
    constructor
    · rintro (⟨a, b, c⟩ | h)
      · left
        rw [GuideTech.track, a, if_neg hh] at b; rw [GuideTech.pos, a, if_neg hh] at c
        exact ⟨a, b.1, b.2, c.1, c.2⟩
      · exact .inr h
    · rintro (⟨a, b⟩ | h)
      · left
        rw [GuideTech.track, GuideTech.pos, a, if_neg hh, if_neg hh]
        exact ⟨rfl, ⟨b.1, b.2.1⟩, b.2.2.1, b.2.2.2⟩
      · exact .inr h

theorem base_spec (T : GuideTech) (idxOf : Point → Point) (rects : List GuideRect) :
    (baseIntvs T idxOf rects).Ok ∧
    ∀ n, Covered T (baseIntvs T idxOf rects) n ↔ ∃ r ∈ rects, r.Covers idxOf n := by
  unfold baseIntvs
  have : ∀ (R : List GuideRect) (iv : Intvs), iv.Ok → (R.foldl (addRect T idxOf) iv).Ok ∧
      ∀ n, Covered T (R.foldl (addRect T idxOf) iv) n ↔ (∃ r ∈ R, r.Covers idxOf n) ∨ Covered T iv n := by
    intro R
    induction R with
    | nil => intro iv h; exact ⟨h, by simp⟩
    | cons r R ih =>
      intro iv h
      obtain ⟨a1, a2⟩ := addRect_spec T idxOf iv h r
      obtain ⟨b1, b2⟩ := ih _ a1
      refine ⟨b1, fun n => ?_⟩
      rw [List.foldl_cons, b2, a2]
      simp only [List.mem_cons, exists_eq_or_imp]
      constructor
      · rintro (h | h | h)
        · exact .inl (.inr h)
        · exact .inl (.inl h)
        · exact .inr h
      · rintro ((h | h) | h)
        · exact .inr (.inl h)
        · exact .inl h
        · exact .inr (.inr h)
  obtain ⟨h1, h2⟩ := this rects (fun _ => []) (fun _ => ⟨List.Pairwise.nil, by simp⟩)
  refine ⟨h1, fun n => ?_⟩
  rw [h2]
  simp [Covered]

/-! ### touching guides -/

theorem mem_ivMeet (s u : IvSet) (i : Int × Int) : i ∈ ivMeet s u ↔
    ∃ a ∈ s, ∃ b ∈ u, max a.1 b.1 ≤ min a.2 b.2 ∧ i = (max a.1 b.1, min a.2 b.2) := by
  unfold ivMeet
  simp only [List.mem_flatMap, List.mem_filterMap]
  constructor
  · rintro ⟨a, ha, b, hb, h⟩
    split at h
    · simp at h; exact ⟨a, ha, b, hb, by assumption, h.symm⟩
    · simp at h
  · rintro ⟨a, ha, b, hb, h, rfl⟩
    exact ⟨a, ha, b, hb, by rw [if_pos h]⟩

theorem mem_touchWalk (T : GuideTech) (iv : Intvs) (l : Int) : ∀ (m : TMap) (p0 : Option (Int × IvSet)) (y : Option (Option Touch1)),
    y ∈ touchWalk T iv l p0 m → ∃ p x i, (p ∈ m ∨ p0 = some p) ∧ x ∈ m ∧ x.1 = p.1 + 1 ∧ i ∈ ivMeet x.2 p.2 ∧ y = touchOne T iv l p.1 x.1 i
  | [], p0, y, h => by cases p0 <;> simp [touchWalk] at h
  | x :: r, none, y, h => by
    rw [touchWalk] at h
    obtain ⟨p, x', i, h1, h2, h3⟩ := mem_touchWalk T iv l r (some x) y h
    refine ⟨p, x', i, ?_, by simp [h2], h3⟩
    rcases h1 with h1 | h1
    · exact .inl (by simp [h1])
    · simp at h1; exact .inl (by simp [h1])
  | x :: r, some p, y, h => by
    rw [touchWalk, List.mem_append] at h
    rcases h with h | h
    · split at h
      · obtain ⟨i, hi, rfl⟩ := List.mem_map.1 h
        exact ⟨p, x, i, .inr rfl, by simp, by assumption, hi, rfl⟩
      · simp at h
    · obtain ⟨p', x', i, h1, h2, h3⟩ := mem_touchWalk T iv l r (some x) y h
      refine ⟨p', x', i, ?_, by simp [h2], h3⟩
      rcases h1 with h1 | h1
      · exact .inl (by simp [h1])
      · simp at h1; exact .inl (by simp [h1])

theorem touchWalk_complete (T : GuideTech) (iv : Intvs) (l : Int) : ∀ (m : TMap) (p0 : Option (Int × IvSet)),
    m.Pairwise (fun a b => a.1 < b.1) → (∀ p, p0 = some p → ∀ k ∈ m, p.1 < k.1) →
    ∀ p x i, (p ∈ m ∨ p0 = some p) → x ∈ m → x.1 = p.1 + 1 → i ∈ ivMeet x.2 p.2 →
    touchOne T iv l p.1 x.1 i ∈ touchWalk T iv l p0 m
  | [], _, _, _, _, _, _, _, hx, _, _ => by simp at hx
  | y :: r, p0, hs, h0, p, x, i, hp, hx, he, hi => by
    obtain ⟨h3, h4⟩ := List.pairwise_cons.1 hs
    have hnext : ∀ q, some y = some q → ∀ k ∈ r, q.1 < k.1 := by
      rintro q h k hk; simp at h; subst h; exact h3 k hk
    rcases List.mem_cons.1 hx with hxy | hxr
    · -- the second track is the head: the first must be the remembered one
      subst hxy
      have hp' : p0 = some p := by
        rcases hp with hp | hp
        · rcases List.mem_cons.1 hp with rfl | hp
          · omega
          · have := h3 p hp; omega
        · exact hp
      rw [hp', touchWalk, List.mem_append]
      left
      rw [if_pos he]
      exact List.mem_map.2 ⟨i, hi, rfl⟩
    · have hp' : p ∈ r ∨ some y = some p := by
        rcases hp with hp | hp
        · rcases List.mem_cons.1 hp with rfl | hp
          · exact .inr rfl
          · exact .inl hp
        · have := h0 p hp y (by simp)
          have := h3 x hxr
          omega
      have := touchWalk_complete T iv l r (some y) h4 hnext p x i hp' hxr he hi
      cases p0 with
      | none => rw [touchWalk]; exact this
      | some q => rw [touchWalk, List.mem_append]; exact .inr this

theorem foldl_touch (T : GuideTech) (L : List Touch1) : ∀ (iv : Intvs), iv.Ok →
    (L.foldl (fun iv t => iv.ins t.l t.t t.b t.e) iv).Ok ∧
    ∀ n, Covered T (L.foldl (fun iv t => iv.ins t.l t.t t.b t.e) iv) n ↔
      (∃ t ∈ L, n.layer = t.l ∧ T.track n = t.t ∧ t.b ≤ T.pos n ∧ T.pos n ≤ t.e) ∨ Covered T iv n := by
  induction L with
  | nil => intro iv h; exact ⟨h, by simp⟩
  | cons t r ih =>
    intro iv h
    rw [List.foldl_cons]
    obtain ⟨h1, h2⟩ := ih _ (Intvs.ins_ok h t.l t.t t.b t.e)
    refine ⟨h1, fun n => ?_⟩
    rw [h2, Intvs.ins_cov h T]
    simp only [List.mem_cons, exists_eq_or_imp]
    constructor
    · rintro (h | h | h)
      · exact .inl (.inr h)
      · exact .inl (.inl h)
      · exact .inr h
    · rintro ((h | h) | h)
      · exact .inr (.inl h)
      · exact .inl h
      · exact .inr (.inr h)

theorem merge_spec {T : GuideTech} {idxOf : Point → Point} {rects : List GuideRect} {iv : Intvs}
    (h : mergeGuides T idxOf rects = some iv) :
    iv.Ok ∧ (∀ y ∈ allTouches T (baseIntvs T idxOf rects), y ≠ none) ∧
    ∀ n, Covered T iv n ↔ (∃ t, some (some t) ∈ allTouches T (baseIntvs T idxOf rects) ∧ n.layer = t.l ∧ T.track n = t.t ∧ t.b ≤ T.pos n ∧ T.pos n ≤ t.e) ∨
      ∃ r ∈ rects, r.Covers idxOf n := by
  unfold mergeGuides at h
  simp only at h
  split at h
  · simp at h
  · rename_i hn
    simp only [Option.some.injEq] at h
    obtain ⟨h1, h2⟩ := foldl_touch T (((allTouches T (baseIntvs T idxOf rects)).filterMap id).filterMap id) _ (base_spec T idxOf rects).1
    rw [h] at h1 h2
    refine ⟨h1, ?_, ?_⟩
    · rintro y hy rfl
      exact hn (List.any_eq_true.2 ⟨none, hy, rfl⟩)
    · intro n
      rw [h2, (base_spec T idxOf rects).2]
      have : ∀ t, t ∈ ((allTouches T (baseIntvs T idxOf rects)).filterMap id).filterMap id ↔
          some (some t) ∈ allTouches T (baseIntvs T idxOf rects) := by
        intro t; simp
      simp only [this]

end TR
