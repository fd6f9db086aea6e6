import Verif.TaInit.Spec
import Verif.GCell.Lemmas
/-! # Lemmas about the wires that track assignment starts from -/
namespace TR

theorem mem_coordIns {x y : Int} : ∀ {l : List Int}, y ∈ coordIns x l ↔ y = x ∨ y ∈ l := by
  intro l
  induction l with
  | nil => simp [coordIns]
  | cons a l ih =>
    unfold coordIns
    split
    · simp
    · split
      · rename_i h; subst h; simp
      · rw [List.mem_cons, ih, List.mem_cons]
        constructor
        · rintro (h | h | h)
          · exact .inr (.inl h)
          · exact .inl h
          · exact .inr (.inr h)
        · rintro (h | h | h)
          · exact .inr (.inl h)
          · exact .inl h
          · exact .inr (.inr h)

theorem meets_point (b e p : Point) : (Box.mk4 b.x b.y e.x e.y).meets ⟨p, p⟩ = true ↔
    min b.x e.x ≤ p.x ∧ p.x ≤ max b.x e.x ∧ min b.y e.y ≤ p.y ∧ p.y ≤ max b.y e.y := by
  rw [Box.mk4_eq]
  simp only [Box.meets, Box.left, Box.right, Box.bottom, Box.top, Bool.and_eq_true, decide_eq_true_eq]
  constructor
  · rintro ⟨⟨⟨h1, h2⟩, h3⟩, h4⟩; exact ⟨h1, h2, h3, h4⟩
  · rintro ⟨h1, h2, h3, h4⟩; exact ⟨⟨⟨h1, h2⟩, h3⟩, h4⟩

theorem mem_guidesAt {gs : List TGuide} {p : Point} {l : Int} {n : TGuide} : n ∈ guidesAt gs p l ↔ n ∈ gs ∧ n.layer = l ∧ n.Passes p := by
  unfold guidesAt
  rw [List.mem_filter, Bool.and_eq_true, decide_eq_true_eq, meets_point]
  rfl

theorem mem_nbr {E : TaEnv} {gs : List TGuide} {g n : TGuide} {p : Point} : n ∈ nbrGuides E gs g p ↔ n ∈ gs ∧ TaNeighbour E g n p := by
  unfold nbrGuides TaNeighbour
  rw [List.mem_filter, List.mem_append, decide_eq_true_eq]
  constructor
  · rintro ⟨h | h, hn⟩
    · split at h
      · rename_i hl
        rw [mem_guidesAt] at h
        exact ⟨h.1, hn, h.2.2, .inl ⟨h.2.1, by omega⟩⟩
      · cases h
    · split at h
      · rename_i hl
        rw [mem_guidesAt] at h
        exact ⟨h.1, hn, h.2.2, .inr ⟨h.2.1, by omega⟩⟩
      · cases h
  · rintro ⟨hm, hn, hp, h | h⟩
    · refine ⟨.inl ?_, hn⟩
      rw [if_pos (by omega), mem_guidesAt]
      exact ⟨hm, h.1, hp⟩
    · refine ⟨.inr ?_, hn⟩
      rw [if_pos (by omega), mem_guidesAt]
      exact ⟨hm, h.1, hp⟩

/-! ### the ends of a wire whose neighbours have wires -/

/-- what the accumulator holds after neighbours with one segment each, at begin coordinate `x n` -/
structure EndAcc (horz : Bool) (l : Int) (x : TGuide → Int) (A B : List TGuide) (a : WireAcc) : Prop where
  loNone : a.lo = none ↔ A = []
  lo : ∀ v, a.lo = some v → (∀ n ∈ A, v ≤ x n) ∧ ∃ n ∈ A, v = x n
  hiNone : a.hi = none ↔ B = []
  hi : ∀ v, a.hi = some v → (∀ n ∈ B, x n ≤ v) ∧ ∃ n ∈ B, v = x n
  down : ∀ y, y ∈ a.down ↔ ∃ n, n ∈ A ++ B ∧ n.layer = l - 2 ∧ y = x n
  up : ∀ y, y ∈ a.up ↔ ∃ n, n ∈ A ++ B ∧ n.layer ≠ l - 2 ∧ y = x n

theorem nbrStep_seg {horz : Bool} {l : Int} {last : Bool} {cp : Point} {a : WireAcc} {n : TGuide} {p q : Point} (h : n.routes = [(n.layer, p, q)]) :
    nbrStep horz l last cp a n =
      let s := nbrSeg horz l last a (n.layer, p, q)
      { s with wlen := s.wlen - (if cp = n.e then 1 else 0) + (if cp = n.b then 1 else 0) } := by
  unfold nbrStep
  rw [h]
  rfl

theorem endAcc_first {horz : Bool} {l : Int} {cp : Point} {x : TGuide → Int} : ∀ {L A : List TGuide} {a : WireAcc},
    (∀ n ∈ L, ∃ p q, n.routes = [(n.layer, p, q)] ∧ p.a horz = x n) → EndAcc horz l x A [] a →
    EndAcc horz l x (A ++ L) [] (L.foldl (nbrStep horz l false cp) a) := by
  intro L
  induction L with
  | nil => intro A a _ h; simpa using h
  | cons n L ih =>
    intro A a hL h
    rw [List.foldl_cons, show A ++ n :: L = (A ++ [n]) ++ L by simp]
    refine ih (fun m hm => hL m (List.mem_cons_of_mem _ hm)) ?_
    obtain ⟨p, q, hr, hx⟩ := hL n List.mem_cons_self
    rw [nbrStep_seg hr]
    unfold nbrSeg
    dsimp only
    rw [hx]
    have hlo : ∀ v, (some (match a.lo with | none => x n | some h => min h (x n)) : Option Int) = some v → (∀ m ∈ A ++ [n], v ≤ x m) ∧ ∃ m ∈ A ++ [n], v = x m := by
      intro v hv
      cases hv
      cases hl : a.lo with
      | none =>
        have := h.loNone.1 hl
        subst this
        simp
      | some w =>
        obtain ⟨h1, m, hm, h2⟩ := h.lo w hl
        constructor
        · intro k hk
          rcases List.mem_append.1 hk with hk | hk
          · have := h1 k hk; dsimp only; omega
          · rw [List.mem_singleton] at hk; subst hk; dsimp only; omega
        · rcases Int.le_total w (x n) with hle | hle
          · exact ⟨m, List.mem_append_left _ hm, by dsimp only; omega⟩
          · exact ⟨n, by simp, by dsimp only; omega⟩
    simp only [Bool.false_eq_true, if_false]
    split
    · rename_i hl
      refine ⟨by simp, hlo, h.hiNone, h.hi, ?_, ?_⟩
      · intro y
        dsimp only
        rw [mem_coordIns, h.down]
        simp only [List.mem_append, List.mem_singleton, List.not_mem_nil, or_false]
        constructor
        · rintro (rfl | ⟨m, h1, h2, h3⟩)
          · exact ⟨n, .inr rfl, hl, rfl⟩
          · exact ⟨m, .inl h1, h2, h3⟩
        · rintro ⟨m, h1 | rfl, h2, h3⟩
          · exact .inr ⟨m, h1, h2, h3⟩
          · exact .inl h3
      · intro y
        dsimp only
        rw [h.up]
        simp only [List.mem_append, List.mem_singleton, List.not_mem_nil, or_false]
        constructor
        · rintro ⟨m, h1, h2, h3⟩
          exact ⟨m, .inl h1, h2, h3⟩
        · rintro ⟨m, h1 | rfl, h2, h3⟩
          · exact ⟨m, h1, h2, h3⟩
          · exact absurd hl h2
    · rename_i hl
      refine ⟨by simp, hlo, h.hiNone, h.hi, ?_, ?_⟩
      · intro y
        dsimp only
        rw [h.down]
        simp only [List.mem_append, List.mem_singleton, List.not_mem_nil, or_false]
        constructor
        · rintro ⟨m, h1, h2, h3⟩
          exact ⟨m, .inl h1, h2, h3⟩
        · rintro ⟨m, h1 | rfl, h2, h3⟩
          · exact ⟨m, h1, h2, h3⟩
          · exact absurd h2 hl
      · intro y
        dsimp only
        rw [mem_coordIns, h.up]
        simp only [List.mem_append, List.mem_singleton, List.not_mem_nil, or_false]
        constructor
        · rintro (rfl | ⟨m, h1, h2, h3⟩)
          · exact ⟨n, .inr rfl, hl, rfl⟩
          · exact ⟨m, .inl h1, h2, h3⟩
        · rintro ⟨m, h1 | rfl, h2, h3⟩
          · exact .inr ⟨m, h1, h2, h3⟩
          · exact .inl h3

theorem endAcc_last {horz : Bool} {l : Int} {cp : Point} {x : TGuide → Int} : ∀ {L A B : List TGuide} {a : WireAcc},
    (∀ n ∈ L, ∃ p q, n.routes = [(n.layer, p, q)] ∧ p.a horz = x n) → EndAcc horz l x A B a →
    EndAcc horz l x A (B ++ L) (L.foldl (nbrStep horz l true cp) a) := by
  intro L
  induction L with
  | nil => intro A B a _ h; simpa using h
  | cons n L ih =>
    intro A B a hL h
    rw [List.foldl_cons, show B ++ n :: L = (B ++ [n]) ++ L by simp]
    refine ih (fun m hm => hL m (List.mem_cons_of_mem _ hm)) ?_
    obtain ⟨p, q, hr, hx⟩ := hL n List.mem_cons_self
    rw [nbrStep_seg hr]
    unfold nbrSeg
    dsimp only
    rw [hx]
    have hhi : ∀ v, (some (match a.hi with | none => x n | some h => max h (x n)) : Option Int) = some v → (∀ m ∈ B ++ [n], x m ≤ v) ∧ ∃ m ∈ B ++ [n], v = x m := by
      intro v hv
      cases hv
      cases hl : a.hi with
      | none =>
        have := h.hiNone.1 hl
        subst this
        simp
      | some w =>
        obtain ⟨h1, m, hm, h2⟩ := h.hi w hl
        constructor
        · intro k hk
          rcases List.mem_append.1 hk with hk | hk
          · have := h1 k hk; dsimp only; omega
          · rw [List.mem_singleton] at hk; subst hk; dsimp only; omega
        · rcases Int.le_total w (x n) with hle | hle
          · exact ⟨n, by simp, by dsimp only; omega⟩
          · exact ⟨m, List.mem_append_left _ hm, by dsimp only; omega⟩
    simp only [if_true]
    have hmem : ∀ (Q : TGuide → Prop), (∃ m, m ∈ A ++ (B ++ [n]) ∧ Q m) ↔ Q n ∨ ∃ m, m ∈ A ++ B ∧ Q m := by
      intro Q
      constructor
      · rintro ⟨m, hm, hq⟩
        simp only [List.mem_append, List.mem_singleton] at hm
        rcases hm with hm | hm | rfl
        · exact .inr ⟨m, List.mem_append_left _ hm, hq⟩
        · exact .inr ⟨m, List.mem_append_right _ hm, hq⟩
        · exact .inl hq
      · rintro (hq | ⟨m, hm, hq⟩)
        · exact ⟨n, by simp, hq⟩
        · refine ⟨m, ?_, hq⟩
          rw [← List.append_assoc]; exact List.mem_append_left _ hm
    split
    · rename_i hl
      refine ⟨h.loNone, h.lo, by simp, hhi, ?_, ?_⟩
      · intro y
        dsimp only
        rw [mem_coordIns, h.down, hmem]
        constructor
        · rintro (rfl | h)
          · exact .inl ⟨hl, rfl⟩
          · exact .inr h
        · rintro (h | h)
          · exact .inl h.2
          · exact .inr h
      · intro y
        dsimp only
        rw [h.up, hmem]
        constructor
        · exact .inr
        · rintro (h | h)
          · exact absurd hl h.1
          · exact h
    · rename_i hl
      refine ⟨h.loNone, h.lo, by simp, hhi, ?_, ?_⟩
      · intro y
        dsimp only
        rw [h.down, hmem]
        constructor
        · exact .inr
        · rintro (h | h)
          · exact absurd h.1 hl
          · exact h
      · intro y
        dsimp only
        rw [mem_coordIns, h.up, hmem]
        constructor
        · rintro (rfl | h)
          · exact .inl ⟨hl, rfl⟩
          · exact .inr h
        · rintro (h | h)
          · exact .inl h.2
          · exact .inr h

end TR
