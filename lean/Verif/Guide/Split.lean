import Verif.Guide.Link
import Verif.Conn.NodeLemmas
/-! Splitting, and the guide graph. -/
namespace TR
variable {T : GuideTech}

theorem mem_lineIns (x y : Int) : ∀ (L : List Int), y ∈ lineIns x L ↔ y = x ∨ y ∈ L
  | [] => by simp [lineIns]
  | z :: r => by
    rw [lineIns]
    split
    · simp
    · split
      · rename_i h; subst h; simp
      · simp only [List.mem_cons]
        rw [mem_lineIns x y r]
        constructor
        · rintro (h | h | h) <;> simp [h]
        · rintro (h | h | h) <;> simp [h]

theorem lineIns_sorted (x : Int) : ∀ (L : List Int), L.Pairwise (· < ·) → (lineIns x L).Pairwise (· < ·)
  | [], _ => by simp [lineIns]
  | z :: r, h => by
    obtain ⟨h1, h2⟩ := List.pairwise_cons.1 h
    rw [lineIns]
    split
    · refine List.pairwise_cons.2 ⟨?_, h⟩
      intro y hy
      rcases List.mem_cons.1 hy with rfl | hy
      · assumption
      · have := h1 y hy; omega
    · split
      · exact h
      · refine List.pairwise_cons.2 ⟨?_, lineIns_sorted x r h2⟩
        intro y hy
        rcases (mem_lineIns x y r).1 hy with rfl | hy
        · omega
        · exact h1 y hy

theorem foldl_lineIns (E : List Int) : ∀ (L : List Int), L.Pairwise (· < ·) →
    (E.foldl (fun L x => lineIns x L) L).Pairwise (· < ·) ∧ ∀ y, y ∈ E.foldl (fun L x => lineIns x L) L ↔ y ∈ E ∨ y ∈ L := by
  induction E with
  | nil => intro L h; exact ⟨h, by simp⟩
  | cons x r ih =>
    intro L h
    obtain ⟨h1, h2⟩ := ih _ (lineIns_sorted x L h)
    refine ⟨h1, fun y => ?_⟩
    rw [List.foldl_cons, h2, mem_lineIns, List.mem_cons]
    constructor
    · rintro (h | h | h) <;> simp [h]
    · rintro ((h | h) | h) <;> simp [h]

theorem mem_crossings {m : TMap} (t b e x : Int) : x ∈ crossings m t b e ↔ b ≤ x ∧ x ≤ e ∧ m.Cov x t := by
  unfold crossings TMap.Cov
  rw [List.mem_map]
  constructor
  · rintro ⟨k, hk, rfl⟩
    obtain ⟨h1, h2⟩ := List.mem_filter.1 hk
    simp only [Bool.and_eq_true, decide_eq_true_eq, ivHas_iff] at h2
    exact ⟨h2.1.1, h2.1.2, k, h1, rfl, h2.2⟩
  · rintro ⟨h1, h2, k, hk, rfl, h3⟩
    refine ⟨k, List.mem_filter.2 ⟨hk, ?_⟩, rfl⟩
    simp only [Bool.and_eq_true, decide_eq_true_eq, ivHas_iff]
    exact ⟨⟨h1, h2⟩, h3⟩

theorem mem_lineIdx {iv : Intvs} {pinCells : List (List Node)} {l t b e x : Int} : x ∈ lineIdx T iv pinCells l t b e ↔
    b ≤ x ∧ x ≤ e ∧ ((0 ≤ l - 2 ∧ (iv (l - 2)).Cov x t) ∨ (l + 2 < T.nLayers ∧ (iv (l + 2)).Cov x t) ∨
      ∃ ns ∈ pinCells, T.cell l t x ∈ ns) := by
  unfold lineIdx
  simp only
  rw [(foldl_lineIns _ [] List.Pairwise.nil).2, List.mem_append, List.mem_append]
  have hp : x ∈ pinPos T pinCells l t b e ↔ b ≤ x ∧ x ≤ e ∧ ∃ ns ∈ pinCells, T.cell l t x ∈ ns := by
    unfold pinPos
    rw [List.mem_filterMap]
    constructor
    · rintro ⟨n, hn, h⟩
      split at h
      · rename_i hc
        obtain ⟨c1, c2, c3, c4⟩ := hc
        simp at h
        obtain ⟨ns, h1, h2⟩ := List.mem_flatten.1 hn
        refine ⟨by omega, by omega, ns, h1, ?_⟩
        rw [← c1, ← c2, ← h, cell_eta]; exact h2
      · simp at h
    · rintro ⟨h1, h2, ns, h3, h4⟩
      refine ⟨_, List.mem_flatten.2 ⟨ns, h3, h4⟩, ?_⟩
      rw [cell_layer, cell_track, cell_pos, if_pos ⟨rfl, rfl, h1, h2⟩]
  rw [hp]
  constructor
  · rintro (((h | h) | h) | h)
    · split at h
      · obtain ⟨a, b, c⟩ := (mem_crossings _ _ _ _).1 h; exact ⟨a, b, .inl ⟨by assumption, c⟩⟩
      · simp at h
    · split at h
      · obtain ⟨a, b, c⟩ := (mem_crossings _ _ _ _).1 h; exact ⟨a, b, .inr (.inl ⟨by assumption, c⟩)⟩
      · simp at h
    · exact ⟨h.1, h.2.1, .inr (.inr h.2.2)⟩
    · simp at h
  · rintro ⟨h1, h2, ⟨h3, h4⟩ | ⟨h3, h4⟩ | h⟩
    · exact .inl (.inl (.inl (by rw [if_pos h3]; exact (mem_crossings _ _ _ _).2 ⟨h1, h2, h4⟩)))
    · exact .inl (.inl (.inr (by rw [if_pos h3]; exact (mem_crossings _ _ _ _).2 ⟨h1, h2, h4⟩)))
    · exact .inl (.inr ⟨h1, h2, h⟩)

theorem lineIdx_sorted (iv : Intvs) (pinCells : List (List Node)) (l t b e : Int) :
    (lineIdx T iv pinCells l t b e).Pairwise (· < ·) := by
  unfold lineIdx
  exact (foldl_lineIns _ [] List.Pairwise.nil).1

/-- two split guides share an end -/
def SegLink (s s' : GSeg) : Prop := s.l = s'.l ∧ s.t = s'.t ∧ (s.e = s'.b ∨ s'.e = s.b)

theorem SegLink.symm (s s' : GSeg) (h : SegLink s s') : SegLink s' s := ⟨h.1.symm, h.2.1.symm, h.2.2.symm⟩

theorem pairSegs_spec (l t : Int) : ∀ (x y : Int) (r : List Int), (x :: y :: r).Pairwise (· < ·) →
    (∀ s ∈ pairSegs l t (x :: y :: r), s.l = l ∧ s.t = t ∧ s.b < s.e ∧ s.b ∈ x :: y :: r ∧ s.e ∈ x :: y :: r) ∧
    (∀ z ∈ x :: y :: r, ∃ s ∈ pairSegs l t (x :: y :: r), s.b = z ∨ s.e = z) ∧
    (∀ s ∈ pairSegs l t (x :: y :: r), Chain SegLink (· ∈ pairSegs l t (x :: y :: r)) ⟨l, t, x, y⟩ s)
  | x, y, [], h => by
    obtain ⟨h1, _⟩ := List.pairwise_cons.1 h
    have := h1 y (by simp)
    refine ⟨?_, ?_, ?_⟩
    · intro s hs; simp [pairSegs] at hs; subst hs; simp [this]
    · intro z hz
      simp at hz
      rcases hz with rfl | rfl
      · exact ⟨_, by simp [pairSegs]; rfl, .inl rfl⟩
      · exact ⟨_, by simp [pairSegs]; rfl, .inr rfl⟩
    · intro s hs; simp [pairSegs] at hs; subst hs
      exact .refl (by simp [pairSegs])
  | x, y, z :: r, h => by
    obtain ⟨h1, h2⟩ := List.pairwise_cons.1 h
    have hxy := h1 y (by simp)
    obtain ⟨a1, a2, a3⟩ := pairSegs_spec l t y z r h2
    have hp : pairSegs l t (x :: y :: z :: r) = ⟨l, t, x, y⟩ :: pairSegs l t (y :: z :: r) := rfl
    rw [hp]
    refine ⟨?_, ?_, ?_⟩
    · intro s hs
      rcases List.mem_cons.1 hs with rfl | hs
      · exact ⟨rfl, rfl, hxy, by simp, by simp⟩
      · obtain ⟨b1, b2, b3, b4, b5⟩ := a1 s hs
        exact ⟨b1, b2, b3, List.mem_cons_of_mem _ b4, List.mem_cons_of_mem _ b5⟩
    · intro w hw
      rcases List.mem_cons.1 hw with rfl | hw
      · exact ⟨_, List.mem_cons_self, .inl rfl⟩
      · obtain ⟨s, hs, h⟩ := a2 w hw
        exact ⟨s, List.mem_cons_of_mem _ hs, h⟩
    · intro s hs
      rcases List.mem_cons.1 hs with rfl | hs
      · exact .refl List.mem_cons_self
      · have c1 : Chain SegLink (· ∈ (⟨l, t, x, y⟩ : GSeg) :: pairSegs l t (y :: z :: r)) ⟨l, t, x, y⟩ ⟨l, t, y, z⟩ :=
          .step (.refl List.mem_cons_self) ⟨rfl, rfl, .inl rfl⟩ (List.mem_cons_of_mem _ (by simp [pairSegs]))
        exact c1.trans ((a3 s hs).widen (fun _ h => List.mem_cons_of_mem _ h))

theorem pairSegs_gap (l t : Int) : ∀ (L : List Int), L.Pairwise (· < ·) → ∀ s ∈ pairSegs l t L, ∀ x ∈ L, x ≤ s.b ∨ s.e ≤ x
  | [], _, s, hs => by simp [pairSegs] at hs
  | [_], _, s, hs => by simp [pairSegs] at hs
  | y :: z :: r, h, s, hs => by
    intro x hx
    obtain ⟨h1, h2⟩ := List.pairwise_cons.1 h
    obtain ⟨h3, h4⟩ := List.pairwise_cons.1 h2
    rw [pairSegs] at hs
    rcases List.mem_cons.1 hs with rfl | hs'
    · rcases List.mem_cons.1 hx with rfl | hx
      · left; exact Int.le_refl _
      · right
        rcases List.mem_cons.1 hx with rfl | hx
        · exact Int.le_refl _
        · have := h3 x hx; show z ≤ x; omega
    · rcases List.mem_cons.1 hx with rfl | hx
      · left
        cases r with
        | nil => simp [pairSegs] at hs'
        | cons w r =>
          have := h1 s.b ((pairSegs_spec l t z w r h2).1 s hs').2.2.2.1
          omega
      · exact pairSegs_gap l t (z :: r) h2 s hs' x hx

/-- what the split of one interval yields -/
structure SplitOK (T : GuideTech) (iv : Intvs) (pinCells : List (List Node)) (retry : Bool) (l t : Int) (i : Int × Int)
    (L : List GSeg) : Prop where
  inside : ∀ s ∈ L, s.l = l ∧ s.t = t ∧ i.1 ≤ s.b ∧ s.b ≤ s.e ∧ s.e ≤ i.2
  unit : retry = false → l ≤ T.viaAccess → ∀ s ∈ L, s.b = s.e
  ends : ∀ x ∈ lineIdx T iv pinCells l t i.1 i.2, ∃ s ∈ L, s.b = x ∨ s.e = x
  unitEnds : retry = false → l ≤ T.viaAccess → ∀ x, i.1 ≤ x → x ≤ i.2 → ∃ s ∈ L, s.b = x
  gap : ∀ s ∈ L, ∀ x ∈ lineIdx T iv pinCells l t i.1 i.2, x ≤ s.b ∨ s.e ≤ x
  linked : T.viaAccess < l → ∀ s ∈ L, ∀ s' ∈ L, Chain SegLink (· ∈ L) s s'

theorem splitOne_ok {iv : Intvs} {pinCells : List (List Node)} {retry : Bool} {l t : Int} {i : Int × Int} {L : List GSeg}
    (h : splitOne T iv pinCells retry l t i = some L) : SplitOK T iv pinCells retry l t i L := by
  unfold splitOne at h
  split at h
  · rename_i hm
    simp only [Bool.and_eq_true, Bool.not_eq_true', decide_eq_true_eq] at hm
    simp only [Option.some.injEq] at h
    subst h
    refine ⟨?_, ?_, ?_, ?_, ?_, ?_⟩
    · intro s hs
      obtain ⟨x, hx, rfl⟩ := List.mem_map.1 hs
      obtain ⟨h1, h2⟩ := (mem_intRange _ _ _).1 hx
      exact ⟨rfl, rfl, h1, Int.le_refl _, h2⟩
    · intro _ _ s hs
      obtain ⟨x, hx, rfl⟩ := List.mem_map.1 hs
      rfl
    · intro x hx
      obtain ⟨h1, h2, _⟩ := mem_lineIdx.1 hx
      exact ⟨_, List.mem_map.2 ⟨x, (mem_intRange _ _ _).2 ⟨h1, h2⟩, rfl⟩, .inl rfl⟩
    · intro _ _ x h1 h2
      exact ⟨_, List.mem_map.2 ⟨x, (mem_intRange _ _ _).2 ⟨h1, h2⟩, rfl⟩, rfl⟩
    · intro s hs x _
      obtain ⟨y, hy, rfl⟩ := List.mem_map.1 hs
      show x ≤ y ∨ y ≤ x
      omega
    · intro hl; omega
  · rename_i hm
    have hm' : ¬ (retry = false ∧ l ≤ T.viaAccess) := by
      intro hh; apply hm; simp [hh.1, hh.2]
    have hsorted := lineIdx_sorted (T := T) iv pinCells l t i.1 i.2
    have hmem : ∀ x ∈ lineIdx T iv pinCells l t i.1 i.2, i.1 ≤ x ∧ x ≤ i.2 := by
      intro x hx; obtain ⟨a, b, _⟩ := mem_lineIdx.1 hx; exact ⟨a, b⟩
    split at h
    · simp at h
    · rename_i x hx
      simp only [Option.some.injEq] at h
      subst h
      have := hmem x (by rw [hx]; simp)
      refine ⟨?_, fun a b => absurd ⟨a, b⟩ hm', ?_, fun a b => absurd ⟨a, b⟩ hm', ?_, ?_⟩
      · intro s hs; simp at hs; subst hs; exact ⟨rfl, rfl, this.1, Int.le_refl _, this.2⟩
      · intro y hy
        rw [hx] at hy
        simp at hy; subst hy
        exact ⟨_, List.mem_singleton.2 rfl, .inl rfl⟩
      · intro s hs y _
        rw [List.mem_singleton] at hs
        subst hs
        show y ≤ x ∨ x ≤ y
        omega
      · intro _ s hs s' hs'
        rw [List.mem_singleton] at hs hs'
        rw [hs, hs']
        exact .refl (List.mem_singleton.2 rfl)
    · rename_i hne1 hne2
      simp only [Option.some.injEq] at h
      subst h
      have hxy : ∃ x y r, lineIdx T iv pinCells l t i.1 i.2 = x :: y :: r := by
        cases hLL : lineIdx T iv pinCells l t i.1 i.2 with
        | nil => exact absurd hLL hne1
        | cons x r =>
          cases r with
          | nil => exact absurd hLL (hne2 x)
          | cons y r => exact ⟨x, y, r, rfl⟩
      obtain ⟨x, y, r, hLL⟩ := hxy
      rw [hLL] at hsorted hmem
      obtain ⟨a1, a2, a3⟩ := pairSegs_spec l t x y r hsorted
      rw [hLL]
      refine ⟨?_, fun a b => absurd ⟨a, b⟩ hm', by rw [hLL]; exact a2, fun a b => absurd ⟨a, b⟩ hm',
        by rw [hLL]; exact pairSegs_gap l t _ hsorted, ?_⟩
      · intro s hs
        obtain ⟨b1, b2, b3, b4, b5⟩ := a1 s hs
        exact ⟨b1, b2, (hmem _ b4).1, by omega, (hmem _ b5).2⟩
      · intro _ s hs s' hs'
        exact ((a3 s hs).symm SegLink.symm).trans (a3 s' hs')

theorem optConcat_some {α : Type} : ∀ {os : List (Option (List α))} {R : List α}, optConcat os = some R →
    (∀ o ∈ os, ∃ L, o = some L) ∧ ∀ x, x ∈ R ↔ ∃ L, some L ∈ os ∧ x ∈ L
  | [], R, h => by simp [optConcat] at h; subst h; simp
  | none :: _, R, h => by simp [optConcat] at h
  | some a :: r, R, h => by
    simp only [optConcat, Option.map_eq_some_iff] at h
    obtain ⟨R', h1, rfl⟩ := h
    obtain ⟨g1, g2⟩ := optConcat_some h1
    refine ⟨?_, ?_⟩
    · intro o ho
      rcases List.mem_cons.1 ho with rfl | ho
      · exact ⟨a, rfl⟩
      · exact g1 o ho
    · intro x
      rw [List.mem_append, g2]
      constructor
      · rintro (h | ⟨L, hL, h⟩)
        · exact ⟨a, by simp, h⟩
        · exact ⟨L, by simp [hL], h⟩
      · rintro ⟨L, hL, h⟩
        rcases List.mem_cons.1 hL with hL | hL
        · simp at hL; subst hL; exact .inl h
        · exact .inr ⟨L, hL, h⟩

theorem mem_allIntvs {iv : Intvs} {x : Int × Int × (Int × Int)} : x ∈ allIntvs T iv ↔
    ∃ l : Nat, l < T.nLayers ∧ x.1 = l ∧ ∃ k ∈ iv (l : Int), x.2.1 = k.1 ∧ x.2.2 ∈ k.2 := by
  unfold allIntvs
  simp only [List.mem_flatMap, List.mem_map, List.mem_range]
  constructor
  · rintro ⟨l, hl, k, hk, i, hi, rfl⟩
    exact ⟨l, hl, rfl, k, hk, rfl, hi⟩
  · rintro ⟨l, hl, h1, k, hk, h2, h3⟩
    refine ⟨l, hl, k, hk, x.2.2, h3, ?_⟩
    rw [← h1, ← h2]

/-- the split guides of the net, interval by interval -/
theorem split_spec {iv : Intvs} {pinCells : List (List Node)} {retry : Bool} {segs : List GSeg}
    (h : splitGuides T iv pinCells retry = some segs) :
    (∀ (l : Nat), l < T.nLayers → ∀ k ∈ iv (l : Int), ∀ i ∈ k.2, ∃ L, SplitOK T iv pinCells retry l k.1 i L ∧ ∀ s ∈ L, s ∈ segs) ∧
    (∀ s ∈ segs, ∃ (l : Nat), l < T.nLayers ∧ ∃ k ∈ iv (l : Int), ∃ i ∈ k.2, ∃ L, SplitOK T iv pinCells retry l k.1 i L ∧ s ∈ L) := by
  obtain ⟨h1, h2⟩ := optConcat_some h
  constructor
  · intro l hl k hk i hi
    have hm : ((l : Int), k.1, i) ∈ allIntvs T iv := mem_allIntvs.2 ⟨l, hl, rfl, k, hk, rfl, hi⟩
    have hm' := List.mem_map_of_mem (f := fun k => splitOne T iv pinCells retry k.1 k.2.1 k.2.2) hm
    obtain ⟨L, hL⟩ := h1 _ hm'
    refine ⟨L, splitOne_ok hL, ?_⟩
    intro s hs
    exact (h2 s).2 ⟨L, by rw [← hL]; exact hm', hs⟩
  · intro s hs
    obtain ⟨L, hL, hsL⟩ := (h2 s).1 hs
    obtain ⟨x, hx, he⟩ := List.mem_map.1 hL
    obtain ⟨l, hl, e1, k, hk, e2, e3⟩ := mem_allIntvs.1 hx
    refine ⟨l, hl, k, hk, x.2.2, e3, L, ?_, hsL⟩
    rw [e1, e2] at he
    exact splitOne_ok he

/-! ### graph -/

theorem guideMap_has (segs : List GSeg) (pins : List (List Node)) (n : Node) (i : Nat) :
    (guideMap T segs pins).Has n i ↔ (∃ s, segs[i]? = some s ∧ n ∈ s.ends T) ∨
      ∃ k ns, i = segs.length + k ∧ pins[k]? = some ns ∧ n ∈ ns := by
  unfold guideMap
  rw [(foldl_ins _ [] List.Pairwise.nil).2]
  unfold guideInserts
  rw [List.mem_append, List.mem_flatMap, List.mem_flatMap]
  constructor
  · rintro (h | (⟨⟨s, j⟩, h1, h2⟩ | ⟨⟨ns, k⟩, h1, h2⟩))
    · obtain ⟨S, h, _⟩ := h; simp at h
    · rw [List.mem_zipIdx_iff_getElem?] at h1
      obtain ⟨m, hm, he⟩ := List.mem_map.1 h2
      simp only [Prod.mk.injEq] at he
      obtain ⟨rfl, rfl⟩ := he
      exact .inl ⟨s, h1, hm⟩
    · rw [List.mem_zipIdx_iff_getElem?] at h1
      obtain ⟨m, hm, he⟩ := List.mem_map.1 h2
      simp only [Prod.mk.injEq] at he
      obtain ⟨rfl, rfl⟩ := he
      exact .inr ⟨k, ns, rfl, h1, hm⟩
  · rintro (⟨s, h1, h2⟩ | ⟨k, ns, rfl, h1, h2⟩)
    · exact .inr (.inl ⟨(s, i), List.mem_zipIdx_iff_getElem?.2 h1, List.mem_map_of_mem (f := fun n => (n, i)) h2⟩)
    · exact .inr (.inr ⟨(ns, k), List.mem_zipIdx_iff_getElem?.2 h1, List.mem_map_of_mem (f := fun n => (n, segs.length + k)) h2⟩)

theorem guideMap_sorted (segs : List GSeg) (pins : List (List Node)) : (guideMap T segs pins).Sorted :=
  (foldl_ins _ [] List.Pairwise.nil).1

theorem mem_at {m : NodeMap} (hs : m.Sorted) (n : Node) (j : Nat) : j ∈ m.at n ↔ m.Has n j := by
  unfold NodeMap.at NodeMap.Has
  constructor
  · intro h
    split at h
    · rename_i x hx
      have h1 := List.mem_of_find?_eq_some hx
      have h2 := List.find?_some hx
      simp at h2
      exact ⟨x.2, by rw [← h2]; exact h1, h⟩
    · simp at h
  · rintro ⟨S, hS, hj⟩
    split
    · rename_i x hx
      have h1 := List.mem_of_find?_eq_some hx
      have h2 := List.find?_some hx
      simp at h2
      have : (n, x.2) ∈ m := by rw [← h2]; exact h1
      rw [sorted_unique hs this hS]; exact hj
    · rename_i hx
      rw [List.find?_eq_none] at hx
      have := hx _ hS
      simp at this

theorem mem_guideAdj {m : NodeMap} (hs : m.Sorted) (g : Nat) (ft : Bool) (i j : Nat) : j ∈ guideAdj T g ft m i ↔
    (j ≠ i ∧ ∃ n, m.Has n i ∧ m.Has n j ∧ guideEdge T g ft n.layer i j = true) ∨
    (i < g ∧ j < g ∧ ∃ n n', m.Has n i ∧ m.Has n' j ∧ n.pt = n'.pt ∧ (n'.layer = n.layer + 2 ∨ n.layer = n'.layer + 2)) := by
  unfold guideAdj
  rw [List.mem_flatMap]
  constructor
  · rintro ⟨⟨n, S⟩, h1, h2⟩
    simp only at h2
    split at h2
    · rename_i hi
      rcases List.mem_append.1 h2 with h2 | h2
      · obtain ⟨h3, h4⟩ := List.mem_filter.1 h2
        simp only [Bool.and_eq_true, decide_eq_true_eq] at h4
        exact .inl ⟨h4.1, n, ⟨S, h1, hi⟩, ⟨S, h1, h3⟩, h4.2⟩
      · split at h2
        · rename_i hg
          rcases List.mem_append.1 h2 with h2 | h2
          · obtain ⟨h3, h4⟩ := List.mem_filter.1 h2
            simp only [decide_eq_true_eq] at h4
            exact .inr ⟨hg, h4, n, _, ⟨S, h1, hi⟩, (mem_at hs _ _).1 h3, rfl, .inl rfl⟩
          · obtain ⟨h3, h4⟩ := List.mem_filter.1 h2
            simp only [decide_eq_true_eq] at h4
            exact .inr ⟨hg, h4, n, _, ⟨S, h1, hi⟩, (mem_at hs _ _).1 h3, rfl, .inr (by simp only; omega)⟩
        · simp at h2
    · simp at h2
  · rintro (⟨hne, n, ⟨S, hS, hi⟩, ⟨U, hU, hj⟩, he⟩ | ⟨h1, h2, n, n', ⟨S, hS, hi⟩, hj, hpt, hl⟩)
    · have := sorted_unique hs hS hU
      subst this
      refine ⟨(n, S), hS, ?_⟩
      simp only
      rw [if_pos hi]
      exact List.mem_append_left _ (List.mem_filter.2 ⟨hj, by simp [hne, he]⟩)
    · refine ⟨(n, S), hS, ?_⟩
      simp only
      rw [if_pos hi, if_pos h1]
      refine List.mem_append_right _ ?_
      rcases hl with hl | hl
      · refine List.mem_append_left _ (List.mem_filter.2 ⟨(mem_at hs _ _).2 ?_, by simp [h2]⟩)
        have : (⟨n.pt, n.layer + 2⟩ : Node) = n' := by rw [hpt, ← hl]
        rw [this]; exact hj
      · refine List.mem_append_right _ (List.mem_filter.2 ⟨(mem_at hs _ _).2 ?_, by simp [h2]⟩)
        have : (⟨n.pt, n.layer - 2⟩ : Node) = n' := by rw [hpt, hl, show n'.layer + 2 - 2 = n'.layer by omega]
        rw [this]; exact hj

end TR
