import Verif.Hist.Spec
import Verif.Cost.Nodes
/-! Which nodes of a shape are charged. -/
namespace TR

theorem bloat_sides {b : Box} (h : b.Proper) {w : Int} (hw : 0 ≤ w) :
    (b.bloat w).Proper ∧ (b.bloat w).left = b.left - w ∧ (b.bloat w).right = b.right + w ∧
    (b.bloat w).bottom = b.bottom - w ∧ (b.bloat w).top = b.top + w := by
  unfold Box.Proper at *
  rcases b with ⟨⟨a, b⟩, ⟨c, d⟩⟩
  simp only [Box.left, Box.right, Box.bottom, Box.top] at h
  simp only [Box.bloat, Box.mk4, Box.left, Box.right, Box.bottom, Box.top]
  refine ⟨⟨?_, ?_⟩, ?_, ?_, ?_, ?_⟩ <;> (repeat' split) <;> omega

/-- position `i` of a sorted list lies in the index range of `[lo, hi]` iff its value does -/
theorem idx_between {l : List Int} (h : StrictInc l) (lo hi i : Int) (h0 : 0 ≤ i) (h1 : i < l.length) :
    ((lowerBound l lo : Int) ≤ i ↔ lo ≤ coordAt l i) ∧ (i ≤ (upperBound l hi : Int) - 1 ↔ coordAt l i ≤ hi) := by
  obtain ⟨_, a⟩ := lowerBound_spec h.le lo
  obtain ⟨_, b⟩ := upperBound_spec h.le hi
  have a' := a i.toNat (by omega)
  have b' := b i.toNat (by omega)
  unfold coordAt
  omega

/-- the index along a wire -/
def along (horz : Bool) (m : MIdx) : Int := if horz then m.x else m.y

theorem range_along {g : Grid} (hs : g.Sorted) {horz : Bool} {m1 m2 : MIdx} (h1 : g.On m1) (h2 : g.On m2) (b : Box) (i : Int) :
    ((wireRange g horz m1 m2 b).1 ≤ i ∧ i ≤ (wireRange g horz m1 m2 b).2) ↔
      (along horz m1 ≤ i ∧ i ≤ along horz m2) ∧
      (if horz then b.left ≤ coordAt g.xs i ∧ coordAt g.xs i ≤ b.right else b.bottom ≤ coordAt g.ys i ∧ coordAt g.ys i ≤ b.top) := by
  unfold Grid.On at h1 h2
  unfold wireRange along Grid.idxBox
  cases horz
  · simp only [Bool.false_eq_true, if_false]
    constructor
    · rintro ⟨a, c⟩
      have := idx_between hs.2.1 b.bottom b.top i (by omega) (by omega)
      refine ⟨by omega, this.1.1 (by omega), this.2.1 (by omega)⟩
    · rintro ⟨⟨a, c⟩, e, f⟩
      have := idx_between hs.2.1 b.bottom b.top i (by omega) (by omega)
      have q1 := this.1.2 e
      have q2 := this.2.2 f
      omega
  · simp only [if_true]
    constructor
    · rintro ⟨a, c⟩
      have := idx_between hs.1 b.left b.right i (by omega) (by omega)
      refine ⟨by omega, this.1.1 (by omega), this.2.1 (by omega)⟩
    · rintro ⟨⟨a, c⟩, e, f⟩
      have := idx_between hs.1 b.left b.right i (by omega) (by omega)
      have q1 := this.1.2 e
      have q2 := this.2.2 f
      omega

/-- the box only grows, by whole widths; if it stopped early, it holds two nodes -/
theorem growBox_spec (g : Grid) (horz : Bool) (m1 m2 : MIdx) {w : Int} (hw : 0 ≤ w) (k : Nat) : ∀ b : Box, b.Proper →
    ∃ j : Nat, j ≤ k ∧ (growBox g horz m1 m2 w k b).Proper ∧
      (growBox g horz m1 m2 w k b).left = b.left - j * w ∧ (growBox g horz m1 m2 w k b).right = b.right + j * w ∧
      (growBox g horz m1 m2 w k b).bottom = b.bottom - j * w ∧ (growBox g horz m1 m2 w k b).top = b.top + j * w ∧
      (j = k ∨ (wireRange g horz m1 m2 (growBox g horz m1 m2 w k b)).1 < (wireRange g horz m1 m2 (growBox g horz m1 m2 w k b)).2) := by
  induction k with
  | zero => intro b hb; exact ⟨0, by omega, hb, by simp [growBox], by simp [growBox], by simp [growBox], by simp [growBox], Or.inl rfl⟩
  | succ k ih =>
    intro b hb
    unfold growBox
    by_cases h : (wireRange g horz m1 m2 b).1 ≥ (wireRange g horz m1 m2 b).2
    · simp only [if_pos h]
      obtain ⟨p, a1, a2, a3, a4⟩ := bloat_sides hb hw
      obtain ⟨j, j1, j2, j3, j4, j5, j6, j7⟩ := ih (b.bloat w) p
      have e : ((j + 1 : Nat) : Int) * w = j * w + w := by rw [Int.natCast_add, Int.add_mul]; omega
      refine ⟨j + 1, by omega, j2, ?_, ?_, ?_, ?_, ?_⟩
      · rw [j3, a1, e]; omega
      · rw [j4, a2, e]; omega
      · rw [j5, a3, e]; omega
      · rw [j6, a4, e]; omega
      · rcases j7 with rfl | j7
        · exact Or.inl rfl
        · exact Or.inr j7
    · simp only [if_neg h]
      exact ⟨0, by omega, hb, by simp, by simp, by simp, by simp, Or.inr (by omega)⟩

theorem mem_wireNodes {g : Grid} {mk : Box} {m1 m2 : MIdx} {w : Int} (m : MIdx) :
    m ∈ wireNodes g mk m1 m2 w ↔
      m.z = m1.z ∧ (if m1.y = m2.y then m.y = m1.y else m.x = m1.x) ∧
      (wireRange g (decide (m1.y = m2.y)) m1 m2 (growBox g (decide (m1.y = m2.y)) m1 m2 w 5 (mk.bloat w))).1 ≤ along (decide (m1.y = m2.y)) m ∧
      along (decide (m1.y = m2.y)) m ≤ (wireRange g (decide (m1.y = m2.y)) m1 m2 (growBox g (decide (m1.y = m2.y)) m1 m2 w 5 (mk.bloat w))).2 := by
  unfold wireNodes
  simp only [List.mem_map, mem_rangeIncl]
  by_cases h : m1.y = m2.y
  · simp only [h, decide_true, if_true, along]
    constructor
    · rintro ⟨i, hi, rfl⟩; exact ⟨rfl, rfl, hi⟩
    · rintro ⟨a, b, c⟩; exact ⟨m.x, c, by rw [← a, ← b]⟩
  · simp only [h, decide_false, Bool.false_eq_true, if_false, along]
    constructor
    · rintro ⟨i, hi, rfl⟩; exact ⟨rfl, rfl, hi⟩
    · rintro ⟨a, b, c⟩; exact ⟨m.y, c, by rw [← a, ← b]⟩

theorem wireNodes_nodup (g : Grid) (mk : Box) (m1 m2 : MIdx) (w : Int) : (wireNodes g mk m1 m2 w).Nodup := by
  unfold wireNodes
  dsimp only
  rw [List.Nodup, List.pairwise_map]
  refine (rangeIncl_nodup _ _).imp (fun {a b} h e => h ?_)
  by_cases q : m1.y = m2.y
  · simp only [q, decide_true, if_true, MIdx.mk.injEq] at e; exact e.1
  · simp only [q, decide_false, Bool.false_eq_true, if_false, MIdx.mk.injEq] at e; exact e.2.1

/-- C144: the nodes of a wire at most a width from the marker are charged; all that are charged belong to the wire and are
at most six widths from the marker; if the wire has two nodes that close, at least two are charged. -/
theorem c144_wire_nodes (g : Grid) (hs : g.Sorted) (mk : Box) (hmk : mk.Proper) (bp ep : Point) (m1 m2 : MIdx) (w : Int) (z : Int)
    (hp : (HFig.wire bp ep m1 m2 w).Placed g z) :
    (∀ m, OnWire m1 m2 m → NearAlong g mk m1 m2 m w → m ∈ (HFig.wire bp ep m1 m2 w).nodes g mk z) ∧
    (∀ m ∈ (HFig.wire bp ep m1 m2 w).nodes g mk z, g.On m ∧ OnWire m1 m2 m ∧ NearAlong g mk m1 m2 m (6 * w)) ∧
    (∀ a b, a ≠ b → OnWire m1 m2 a → OnWire m1 m2 b → NearAlong g mk m1 m2 a (6 * w) → NearAlong g mk m1 m2 b (6 * w) →
      ∃ a' ∈ (HFig.wire bp ep m1 m2 w).nodes g mk z, ∃ b' ∈ (HFig.wire bp ep m1 m2 w).nodes g mk z, a' ≠ b') := by
  obtain ⟨o1, o2, hz, hw, hd⟩ := hp
  show (∀ m, OnWire m1 m2 m → NearAlong g mk m1 m2 m w → m ∈ wireNodes g mk m1 m2 w) ∧
    (∀ m ∈ wireNodes g mk m1 m2 w, g.On m ∧ OnWire m1 m2 m ∧ NearAlong g mk m1 m2 m (6 * w)) ∧
    (∀ a b, a ≠ b → OnWire m1 m2 a → OnWire m1 m2 b → NearAlong g mk m1 m2 a (6 * w) → NearAlong g mk m1 m2 b (6 * w) →
      ∃ a' ∈ wireNodes g mk m1 m2 w, ∃ b' ∈ wireNodes g mk m1 m2 w, a' ≠ b')
  obtain ⟨p, b1, b2, b3, b4⟩ := bloat_sides hmk hw
  generalize hh : decide (m1.y = m2.y) = horz
  obtain ⟨j, j1, j2, j3, j4, j5, j6, j7⟩ := growBox_spec g horz m1 m2 hw 5 (mk.bloat w) p
  have hj : (0 : Int) ≤ j * w := Int.mul_nonneg (by omega) hw
  have hj5 : (j : Int) * w ≤ 5 * w := Int.mul_le_mul_of_nonneg_right (by omega) hw
  rw [b1] at j3; rw [b2] at j4; rw [b3] at j5; rw [b4] at j6
  -- membership, spelled out
  have mem : ∀ m : MIdx, m ∈ wireNodes g mk m1 m2 w ↔ m.z = m1.z ∧ (if m1.y = m2.y then m.y = m1.y else m.x = m1.x) ∧
      (along horz m1 ≤ along horz m ∧ along horz m ≤ along horz m2) ∧ NearAlong g mk m1 m2 m ((j + 1) * w) := by
    intro m
    rw [mem_wireNodes, hh, range_along hs o1 o2]
    rw [j3, j4, j5, j6]
    have e : ((j : Int) + 1) * w = j * w + w := by rw [Int.add_mul]; omega
    unfold NearAlong
    rw [e]
    by_cases h : m1.y = m2.y
    · simp only [h, decide_true] at hh
      subst hh
      simp only [h, if_true, along]
      omega
    · simp only [h, decide_false] at hh
      subst hh
      simp only [h, if_false, Bool.false_eq_true, along]
      omega
  have wide : ∀ m d d', d ≤ d' → NearAlong g mk m1 m2 m d → NearAlong g mk m1 m2 m d' := by
    intro m d d' h hn
    unfold NearAlong at *
    by_cases q : m1.y = m2.y
    · rw [if_pos q] at *; omega
    · rw [if_neg q] at *; omega
  have onw : ∀ m : MIdx, (m.z = m1.z ∧ (if m1.y = m2.y then m.y = m1.y else m.x = m1.x) ∧
      (along horz m1 ≤ along horz m ∧ along horz m ≤ along horz m2)) ↔ OnWire m1 m2 m := by
    intro m
    unfold OnWire
    by_cases h : m1.y = m2.y
    · simp only [h, decide_true] at hh
      subst hh
      simp only [h, if_true, along]
      omega
    · simp only [h, decide_false] at hh
      subst hh
      simp only [h, if_false, Bool.false_eq_true, along]
      omega
  have mem' : ∀ m : MIdx, m ∈ wireNodes g mk m1 m2 w ↔ OnWire m1 m2 m ∧ NearAlong g mk m1 m2 m ((j + 1) * w) := by
    intro m; rw [mem, ← onw]
    exact ⟨fun ⟨a, b, c, d⟩ => ⟨⟨a, b, c⟩, d⟩, fun ⟨⟨a, b, c⟩, d⟩ => ⟨a, b, c, d⟩⟩
  have e : ((j : Int) + 1) * w = j * w + w := by rw [Int.add_mul]; omega
  refine ⟨fun m h1 h2 => (mem' m).2 ⟨h1, wide m _ _ (by omega) h2⟩, fun m hm => ?_, fun a b hab a1 b1' a2 b2' => ?_⟩
  · obtain ⟨h1, h2⟩ := (mem' m).1 hm
    refine ⟨?_, h1, wide m _ _ (by omega) h2⟩
    unfold Grid.On OnWire at *
    omega
  · rcases j7 with rfl | j7
    · exact ⟨a, (mem' a).2 ⟨a1, wide a _ _ (by omega) a2⟩, b, (mem' b).2 ⟨b1', wide b _ _ (by omega) b2'⟩, hab⟩
    · refine ⟨if horz then ⟨(wireRange g horz m1 m2 (growBox g horz m1 m2 w 5 (mk.bloat w))).1, m1.y, m1.z⟩
          else ⟨m1.x, (wireRange g horz m1 m2 (growBox g horz m1 m2 w 5 (mk.bloat w))).1, m1.z⟩, ?_,
        if horz then ⟨(wireRange g horz m1 m2 (growBox g horz m1 m2 w 5 (mk.bloat w))).2, m1.y, m1.z⟩
          else ⟨m1.x, (wireRange g horz m1 m2 (growBox g horz m1 m2 w 5 (mk.bloat w))).2, m1.z⟩, ?_, ?_⟩
      · rw [mem_wireNodes, hh]
        by_cases h : m1.y = m2.y
        · simp only [h, decide_true] at hh
          subst hh
          simp only [h, if_true, along, true_and] at *
          omega
        · simp only [h, decide_false] at hh
          subst hh
          simp only [h, if_false, Bool.false_eq_true, along, true_and] at *
          omega
      · rw [mem_wireNodes, hh]
        by_cases h : m1.y = m2.y
        · simp only [h, decide_true] at hh
          subst hh
          simp only [h, if_true, along, true_and] at *
          omega
        · simp only [h, decide_false] at hh
          subst hh
          simp only [h, if_false, Bool.false_eq_true, along, true_and] at *
          omega
      · cases horz
        · simp only [Bool.false_eq_true, if_false, ne_eq, MIdx.mk.injEq, true_and, and_true]; omega
        · simp only [if_true, ne_eq, MIdx.mk.injEq, and_true]; omega

theorem patch_idx {l : List Int} (h : StrictInc l) (lo hi i : Int) (hl : ∃ v ∈ l, hi ≤ v) :
    ((lowerBound l lo : Int) ≤ i ∧ i ≤ (lowerBound l hi : Int)) ↔
      (0 ≤ i ∧ i < l.length ∧ lo ≤ coordAt l i ∧ (i = 0 ∨ coordAt l (i - 1) < hi)) := by
  obtain ⟨a0, a⟩ := lowerBound_spec h.le lo
  obtain ⟨b0, b⟩ := lowerBound_spec h.le hi
  have hlt : lowerBound l hi < l.length := by
    obtain ⟨v, hv, hle⟩ := hl
    obtain ⟨k, hk, rfl⟩ := List.mem_iff_getElem.1 hv
    have := b k hk
    rw [List.getD_eq_getElem?_getD, List.getElem?_eq_getElem hk] at this
    simp only [Option.getD_some] at this
    omega
  unfold coordAt
  constructor
  · rintro ⟨h1, h2⟩
    have := a i.toNat (by omega)
    refine ⟨by omega, by omega, by omega, ?_⟩
    by_cases e : i = 0
    · exact Or.inl e
    · have := b (i - 1).toNat (by omega)
      exact Or.inr (by omega)
  · rintro ⟨h1, h2, h3, h4⟩
    have := a i.toNat (by omega)
    refine ⟨by omega, ?_⟩
    rcases h4 with rfl | h4
    · omega
    · by_cases e : i = 0
      · omega
      · have := b (i - 1).toNat (by omega)
        omega

/-- C144: the nodes charged for a patch are those inside its box and those on the first line at or beyond its right and top side. -/
theorem c144_patch_nodes (g : Grid) (hs : g.Sorted) (mk : Box) (o : Point) (box : Box) (z : Int)
    (hp : (HFig.patch o box).Placed g z) (m : MIdx) :
    m ∈ (HFig.patch o box).nodes g mk z ↔ g.On m ∧ m.z = z ∧
      (box.left ≤ coordAt g.xs m.x ∧ (m.x = 0 ∨ coordAt g.xs (m.x - 1) < box.right)) ∧
      (box.bottom ≤ coordAt g.ys m.y ∧ (m.y = 0 ∨ coordAt g.ys (m.y - 1) < box.top)) := by
  obtain ⟨h1, h2, h3, h4⟩ := hp
  show m ∈ patchNodes g box z ↔ _
  unfold patchNodes Grid.mazeXIdx Grid.mazeYIdx
  simp only [List.mem_flatMap, List.mem_map, mem_rangeIncl]
  constructor
  · rintro ⟨x, hx, y, hy, rfl⟩
    rw [patch_idx hs.1 _ _ _ h1] at hx
    rw [patch_idx hs.2.1 _ _ _ h2] at hy
    exact ⟨⟨hx.1, hx.2.1, hy.1, hy.2.1, h3, h4⟩, rfl, hx.2.2, hy.2.2⟩
  · rintro ⟨⟨a1, a2, a3, a4, _, _⟩, rfl, hx, hy⟩
    exact ⟨m.x, (patch_idx hs.1 _ _ _ h1).2 ⟨a1, a2, hx⟩, m.y, (patch_idx hs.2.1 _ _ _ h2).2 ⟨a3, a4, hy⟩, rfl⟩

theorem patchNodes_nodup (g : Grid) (b : Box) (z : Int) : (patchNodes g b z).Nodup := by
  unfold patchNodes
  rw [List.Nodup, List.pairwise_flatMap]
  refine ⟨fun x _ => ?_, ?_⟩
  · rw [List.pairwise_map]
    exact (rangeIncl_nodup _ _).imp (fun {a b} h e => h (by simpa using e))
  · refine (rangeIncl_nodup _ _).imp (fun {a b} h u hu v hv e => ?_)
    rw [List.mem_map] at hu hv
    obtain ⟨y, _, rfl⟩ := hu
    obtain ⟨y', _, rfl⟩ := hv
    exact h (by simpa using congrArg MIdx.x e)

end TR
