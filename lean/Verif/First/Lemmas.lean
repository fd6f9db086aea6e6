import Verif.First.Spec
import Verif.Run.PinsEx
namespace TR

variable {g : GGrid} {clip : Int}

/-- column (row) of regions that owns a coordinate -/
def AxisAt (p : GCellPat) (dl dh clip : Int) (k : Nat) (c : Int) : Prop :=
  (k : Int) * clip < p.count ∧ (axisRoute p dl dh clip (k * clip)).1 ≤ c ∧
    (c < (axisRoute p dl dh clip (k * clip)).2 ∨ c = (axisRoute p dl dh clip (k * clip)).2 ∧ (axisRoute p dl dh clip (k * clip)).2 = dh)

theorem box_left (hf : g.Fits) {k : Int} (h0 : 0 ≤ k) (h1 : k < g.xp.count) : (g.box ⟨k, 0⟩).left = (gcellSpan g.xp g.die.left g.die.right k).1 := by
  rw [box_eq hf ⟨h0, h1, Int.le_refl 0, hf.2.2.1⟩]
theorem box_bottom (hf : g.Fits) {k : Int} (h0 : 0 ≤ k) (h1 : k < g.yp.count) : (g.box ⟨0, k⟩).bottom = (gcellSpan g.yp g.die.bottom g.die.top k).1 := by
  rw [box_eq hf ⟨Int.le_refl 0, hf.1.2.1, h0, h1⟩]

/-- the index of the first cell of a region's border: the left border of a region is the left border of a column of cells -/
theorem route_lo (p : GCellPat) (dl dh clip : Int) (k : Nat) (hc : 0 < clip) :
    (axisRoute p dl dh clip (k * clip)).1 = (gcellSpan p dl dh (k * clip)).1 := by
  have : (0 : Int) ≤ k * clip := Int.mul_nonneg (by omega) (by omega)
  unfold axisRoute
  rw [show max 0 ((k : Int) * clip) = k * clip by omega]

theorem axisAt_same {p : GCellPat} {dl dh : Int} (hf : AxisFits p dl dh) (hc : 0 < clip) {c c' : Int} (h1 : dl ≤ c) (h2 : c ≤ dh)
    (h1' : dl ≤ c') (h2' : c' ≤ dh) (hs : ∀ k, 0 ≤ k → k < p.count → ((gcellSpan p dl dh k).1 ≤ c ↔ (gcellSpan p dl dh k).1 ≤ c')) {k : Nat}
    (h : AxisAt p dl dh clip k c) : AxisAt p dl dh clip k c' := by
  have h0 : (0 : Int) ≤ k * clip := Int.mul_nonneg (by omega) (by omega)
  obtain ⟨i, ei, i0, i1, is⟩ := gcellIdx1_iff hf h1 h2
  obtain ⟨j, ej, j0, j1, js⟩ := gcellIdx1_iff hf h1' h2'
  have hij : i = j := by
    have a := (js i i0 i1).2 ((hs i i0 i1).1 ((is i i0 i1).1 (by omega)))
    have b := (is j j0 j1).2 ((hs j j0 j1).2 ((js j j0 j1).1 (by omega)))
    omega
  subst hij
  obtain ⟨x, ex, x1, x2⟩ := (axis_owns hf h1 h2 hc h0 h.1).2 h.2
  rw [ei] at ex; cases ex
  exact ⟨h.1, (axis_owns hf h1' h2' hc h0 h.1).1 ⟨_, ej, x1, x2⟩⟩

/-- two different columns of regions, and coordinates of the ends of a guide from at or before `c` in the first to at or after `c'` in the second:
a wire from the cell of its begin to the cell of its end crosses from the one to the other -/
theorem axis_cross {p : GCellPat} {dl dh : Int} (hf : AxisFits p dl dh) (hc : 0 < clip) {c c' b e wb we : Int} {k k' : Nat} (hk : k < k')
    (h : AxisAt p dl dh clip k c) (h' : AxisAt p dl dh clip k' c') (hb : b ≤ c) (he : c' ≤ e)
    (hsb : ∀ k, 0 ≤ k → k < p.count → ((gcellSpan p dl dh k).1 ≤ wb ↔ (gcellSpan p dl dh k).1 ≤ b))
    (hse : ∀ k, 0 ≤ k → k < p.count → ((gcellSpan p dl dh k).1 ≤ we ↔ (gcellSpan p dl dh k).1 ≤ e)) :
    wb < (axisRoute p dl dh clip (k * clip)).2 ∧ (axisRoute p dl dh clip (k * clip)).2 ≤ (axisRoute p dl dh clip (k' * clip)).1 ∧
      (axisRoute p dl dh clip (k' * clip)).1 ≤ we := by
  have h0 : (0 : Int) ≤ k * clip := Int.mul_nonneg (by omega) (by omega)
  have hm : ((k + 1 : Nat) : Int) * clip = k * clip + clip := by
    rw [show ((k + 1 : Nat) : Int) = (k : Int) + 1 by omega, Int.add_mul, Int.one_mul]
  have hle : ((k + 1 : Nat) : Int) * clip ≤ (k' : Int) * clip := Int.mul_le_mul_of_nonneg_right (by omega) (by omega)
  have hlt : (k : Int) * clip + clip < p.count := by have := h'.1; omega
  have hmid : (axisRoute p dl dh clip (k * clip)).2 = (gcellSpan p dl dh (k * clip + clip)).1 := by
    unfold axisRoute
    have e1 : min (p.count - 1) (↑k * clip + clip - 1) = ↑k * clip + clip - 1 := by omega
    dsimp only
    rw [e1, show (k : Int) * clip + clip = k * clip + clip - 1 + 1 by omega]
    have := span_next hf (i := k * clip + clip - 1) (by omega) (by omega)
    simpa using this
  have hdis := axisRoute_disjoint hf (clip := clip) (i := k * clip) (j := (k' : Int) * clip) (by omega) (by omega) h'.1
  have hlt' := axisRoute_lt hf hc (i := (k' : Int) * clip) (by omega) h'.1
  refine ⟨?_, hdis, ?_⟩
  · have hcb : b < (axisRoute p dl dh clip (k * clip)).2 := by
      rcases h.2.2 with h3 | ⟨h3, h4⟩
      · omega
      · have := span_in_die hf (i := min (p.count - 1) (k' * clip + clip - 1)) (by omega) (by omega)
        have e : (axisRoute p dl dh clip (k' * clip)).2 = (gcellSpan p dl dh (min (p.count - 1) (k' * clip + clip - 1))).2 := rfl
        omega
    rw [hmid] at hcb ⊢
    have := (hsb (k * clip + clip) (by omega) hlt)
    omega
  · have h3 := h'.2.1
    rw [route_lo _ _ _ _ _ hc] at h3 ⊢
    have := hse (k' * clip) (by omega) h'.1
    omega

/-- the region with given indices owns the coordinates -/
theorem region_own {k l : Nat} {p : Point} (hx : AxisAt g.xp g.die.left g.die.right clip k p.x)
    (hy : AxisAt g.yp g.die.bottom g.die.top clip l p.y) {W : Worker}
    (hW : W.routeBox = ⟨⟨(axisRoute g.xp g.die.left g.die.right clip (k * clip)).1, (axisRoute g.yp g.die.bottom g.die.top clip (l * clip)).1⟩,
        ⟨(axisRoute g.xp g.die.left g.die.right clip (k * clip)).2, (axisRoute g.yp g.die.bottom g.die.top clip (l * clip)).2⟩⟩) :
    W.routeBox.meets ⟨p, p⟩ = true := by
  obtain ⟨_, x1, x2⟩ := hx
  obtain ⟨_, y1, y2⟩ := hy
  rw [hW]
  generalize (axisRoute g.xp g.die.left g.die.right clip (k * clip)) = X at *
  generalize (axisRoute g.yp g.die.bottom g.die.top clip (l * clip)) = Y at *
  simp only [Box.meets, Box.left, Box.right, Box.bottom, Box.top, Bool.and_eq_true, decide_eq_true_eq]
  omega

end TR
