import Verif.Cost.Spec
import Verif.Track.Props
import Verif.GC.Layer
import Verif.Maze.LabelProps
/-! Counting the nodes of a window; distances and gaps. -/
namespace TR

theorem sum_single {α : Type} [DecidableEq α] (l : List α) (hl : l.Nodup) (f : α → Nat) (a : α) (h : ∀ k ∈ l, k ≠ a → f k = 0) :
    (l.map f).sum = if a ∈ l then f a else 0 := by
  induction l with
  | nil => rfl
  | cons x l ih =>
    have hx := List.nodup_cons.1 hl
    have ih := ih hx.2 (fun k hk => h k (List.mem_cons_of_mem _ hk))
    simp only [List.map_cons, List.sum_cons, ih, List.mem_cons]
    by_cases hxa : a = x
    · subst hxa
      rw [if_neg hx.1, if_pos (Or.inl rfl)]
      omega
    · rw [h x List.mem_cons_self (fun e => hxa e.symm)]
      simp [hxa]

theorem rangeIncl_nodup (a b : Int) : (Grid.rangeIncl a b).Nodup := by
  unfold Grid.rangeIncl
  rw [List.Nodup, List.pairwise_map]
  exact List.nodup_range.imp (fun h e => h (by omega))

/-- what a walk over a window does to the counters of one node -/
theorem nodesIn_count (g : Grid) (hs : g.Sorted) (bx : Box) (F : CNode → List CTgt)
    (hF : ∀ n, ∀ t ∈ F n, t.1.x = n.i ∧ t.1.y = n.j) (i j : Nat) (p : Point) (hp : NodeAt g i j p) (t : CTgt)
    (ht : t.1.x = i ∧ t.1.y = j) :
    ((nodesIn g bx).flatMap F).count t = if bx.Has p then (F ⟨i, j, p⟩).count t else 0 := by
  have hbx := c13_index_box g hs bx i j p.x p.y hp.1 hp.2
  have hnone : ∀ n, (n.i ≠ (i : Int) ∨ n.j ≠ (j : Int)) → (F n).count t = 0 := by
    intro n hn
    rw [List.count_eq_zero]
    intro hmem
    have := hF n t hmem
    rcases hn with hn | hn
    · exact hn (by rw [← this.1, ht.1])
    · exact hn (by rw [← this.2, ht.2])
  unfold nodesIn
  simp only [List.flatMap_assoc, List.flatMap_map]
  rw [List.count_flatMap, sum_single _ (rangeIncl_nodup _ _) _ (i : Int)]
  · simp only [mem_rangeIncl, Function.comp]
    rw [List.count_flatMap, sum_single _ (rangeIncl_nodup _ _) _ (j : Int)]
    · simp only [mem_rangeIncl, Function.comp]
      have hx : g.xs.getD (i : Int).toNat 0 = p.x := by simp [List.getD, hp.1]
      have hy : g.ys.getD (j : Int).toNat 0 = p.y := by simp [List.getD, hp.2]
      rw [hx, hy]
      simp only [hbx.1, hbx.2]
      by_cases h1 : bx.left ≤ p.x ∧ p.x ≤ bx.right <;> by_cases h2 : bx.bottom ≤ p.y ∧ p.y ≤ bx.top
      · rw [if_pos h1, if_pos h2, if_pos (show bx.Has p from ⟨h1.1, h1.2, h2.1, h2.2⟩)]
      · rw [if_pos h1, if_neg h2, if_neg (fun h : bx.Has p => h2 ⟨h.2.2.1, h.2.2.2⟩)]
      · rw [if_neg h1, if_neg (fun h : bx.Has p => h1 ⟨h.1, h.2.1⟩)]
      · rw [if_neg h1, if_neg (fun h : bx.Has p => h1 ⟨h.1, h.2.1⟩)]
    · intro k _ hk
      exact hnone _ (Or.inr hk)
  · intro k _ hk
    simp only [Function.comp]
    rw [List.count_eq_zero]
    intro hmem
    rw [List.mem_flatMap] at hmem
    obtain ⟨k', _, hmem⟩ := hmem
    have := hF _ t hmem
    exact hk (by rw [← ht.1, this.1])

/-- every node of a window is a node of the grid -/
theorem mem_nodesIn (g : Grid) (hs : g.Sorted) (bx : Box) {n : CNode} (hn : n ∈ nodesIn g bx) :
    ∃ i j : Nat, n.i = i ∧ n.j = j ∧ NodeAt g i j n.p := by
  unfold nodesIn at hn
  simp only [List.mem_flatMap, List.mem_map, mem_rangeIncl] at hn
  obtain ⟨i, hi, j, hj, rfl⟩ := hn
  have a1 := (idx_range_empty hs.1 bx.left bx.right).1
  have a2 := (idx_range_empty hs.2.1 bx.bottom bx.top).1
  simp only [Grid.idxBox] at hi hj
  refine ⟨i.toNat, j.toNat, ?_, ?_, ?_, ?_⟩
  · simp only; omega
  · simp only; omega
  · simp only
    have : i.toNat < g.xs.length := by omega
    rw [List.getD_eq_getElem?_getD, List.getElem?_eq_getElem this]; rfl
  · simp only
    have : j.toNat < g.ys.length := by omega
    rw [List.getD_eq_getElem?_getD, List.getElem?_eq_getElem this]; rfl

theorem mk4_has {a b c d : Int} (h1 : a ≤ c) (h2 : b ≤ d) (p : Point) :
    (Box.mk4 a b c d).Has p ↔ a ≤ p.x ∧ p.x ≤ c ∧ b ≤ p.y ∧ p.y ≤ d := by
  unfold Box.mk4 Box.Has
  simp only [Box.left, Box.right, Box.bottom, Box.top]
  rw [if_neg (by omega), if_neg (by omega), if_neg (by omega), if_neg (by omega)]

theorem cgapX_eq (a b : Box) : cgapX a b = -sharedX a b := by unfold cgapX sharedX; omega
theorem cgapY_eq (a b : Box) : cgapY a b = -sharedY a b := by unfold cgapY sharedY; omega

theorem cdist2_eq {a b : Box} (ha : a.Proper) (hb : b.Proper) : cdist2 a b = dist2 a b := by
  unfold cdist2 dist2 cgapX cgapY
  rw [ivDist_shared ha.1 hb.1, ivDist_shared ha.2 hb.2]
  rw [Int.max_comm _ 0, Int.max_comm _ 0]

theorem cdist2_closer {a b : Box} (ha : a.Proper) (hb : b.Proper) (d : Int) : cdist2 a b < d * d ↔ Closer a b d := by
  rw [cdist2_eq ha hb, closer_iff ha hb]

theorem closer_gaps {a b : Box} (ha : a.Proper) (hb : b.Proper) {d : Int} (hd : 0 ≤ d) (h : Closer a b d) :
    cgapX a b < d ∧ cgapY a b < d := by
  rw [← cdist2_closer ha hb] at h
  unfold cdist2 at h
  have n1 := sq_nonneg (max (cgapX a b) 0)
  have n2 := sq_nonneg (max (cgapY a b) 0)
  have g1 := sq_lt_of_lt hd (show max (cgapX a b) 0 * max (cgapX a b) 0 < d * d by omega)
  have g2 := sq_lt_of_lt hd (show max (cgapY a b) 0 * max (cgapY a b) 0 < d * d by omega)
  omega

theorem closer_mono {a b : Box} {d e : Int} (h0 : 0 ≤ d) (h : d ≤ e) (hc : Closer a b d) : Closer a b e := by
  obtain ⟨p, q, hp, hq, hlt⟩ := hc
  have := Int.mul_le_mul h h h0 (by omega)
  exact ⟨p, q, hp, hq, by omega⟩

theorem at_proper {b : Box} (h : b.Proper) (p : Point) : (b.at p).Proper := by
  unfold Box.Proper Box.at at *
  simp only [Box.left, Box.right, Box.bottom, Box.top] at *
  omega

theorem overlaps_invades (a b : Box) : a.overlaps b false = true ↔ Invades a b := by
  unfold Box.overlaps Invades
  simp only [Bool.false_eq_true, if_false, Bool.not_eq_true', Bool.or_eq_false_iff, decide_eq_false_iff_not]
  omega

end TR
