import Verif.Seek.Spec
import Verif.Seek.NearLoop
import Verif.Astar.Props
/-! The costs of the model against their specification: edges, estimate, history. -/
namespace TR

/-! ## Coordinates -/

theorem coordAt_mono {l : List Int} (h : l.Pairwise (· ≤ ·)) {i j : Int} (hij : i ≤ j) (hj : j < l.length) (h0 : 0 ≤ j) :
    coordAt l i ≤ coordAt l j := by
  unfold coordAt
  have h1 : i.toNat ≤ j.toNat := by omega
  have h2 : j.toNat < l.length := by omega
  have h3 : i.toNat < l.length := by omega
  rw [List.getD_eq_getElem?_getD, List.getD_eq_getElem?_getD, List.getElem?_eq_getElem h2, List.getElem?_eq_getElem h3]
  simp only [Option.getD_some]
  by_cases he : i.toNat = j.toNat
  · simp [he]
  · exact List.pairwise_iff_getElem.1 h _ _ h3 h2 (by omega)

structure Grid.Coords (g : Grid) (T : SeekTech) : Prop where
  xInc : g.xs.Pairwise (· ≤ ·)
  yInc : g.ys.Pairwise (· ≤ ·)
  hInc : T.heights.Pairwise (· ≤ ·)
  hLen : T.heights.length = g.zs.length

theorem Grid.SeekReady.coords {g : Grid} {T comps aps} (h : g.SeekReady T comps aps) : g.Coords T :=
  ⟨h.xInc, h.yInc, h.hInc, h.hLen⟩

theorem edgeLen_gap {g : Grid} {T : SeekTech} (hc : g.Coords T) (n : MIdx) (d : Dir) (h1 : g.On n)
    (h2 : g.On (n.nbr d)) : g.edgeLen T n d = g.gap T n (n.nbr d) := by
  have hl := hc.hLen
  unfold Grid.On at h1 h2
  rcases n with ⟨x, y, z⟩
  cases d <;> simp only [Grid.edgeLen, correct, MIdx.nbr, Dir.delta, Grid.gap, Int.add_zero, Int.sub_self, Int.natAbs_zero] at h1 h2 ⊢
  · have := coordAt_mono hc.hInc (i := z + -1) (j := z) (by omega) (by omega) (by omega)
    rw [show z - 1 + 1 = z by omega, show z - 1 = z + -1 by omega]
    omega
  · have := coordAt_mono hc.yInc (i := y + -1) (j := y) (by omega) (by omega) (by omega)
    rw [show y - 1 + 1 = y by omega, show y - 1 = y + -1 by omega]
    omega
  · have := coordAt_mono hc.xInc (i := x + -1) (j := x) (by omega) (by omega) (by omega)
    rw [show x - 1 + 1 = x by omega, show x - 1 = x + -1 by omega]
    omega
  · have := coordAt_mono hc.xInc (i := x) (j := x + 1) (by omega) (by omega) (by omega)
    omega
  · have := coordAt_mono hc.yInc (i := y) (j := y + 1) (by omega) (by omega) (by omega)
    omega
  · have := coordAt_mono hc.hInc (i := z) (j := z + 1) (by omega) (by omega) (by omega)
    omega

theorem edgeCost_weight {g : Grid} {T : SeekTech} (hc : g.Coords T) (n : MIdx) (d : Dir) (h1 : g.On n)
    (h2 : g.On (n.nbr d)) : g.edgeCost T n d = g.weight T n d := by
  simp only [Grid.edgeCost, Grid.weight, edgeLen_gap hc n d h1 h2]
  generalize g.gap T n (n.nbr d) = L
  have e : ∀ (c : Bool) (k : Nat), (if c = true then k * L else 0) = L * (if c = true then k else 0) := by
    intro c k; cases c <;> simp [Nat.mul_comm]
  have e' : (if (!g.hasGuide n d) = true then 1 * L else 0) = L * (if g.hasGuide n d = true then 0 else 1) := by
    cases g.hasGuide n d <;> simp
  have e2 : (if g.isBlocked n d = true then 32 * T.width n.z * 20 else 0) =
      (if g.isBlocked n d = true then 640 * T.width n.z else 0) := by
    split
    · omega
    · rfl
  rw [e, e, e, e, e', e2]
  simp only [Nat.mul_add, Nat.mul_one]
  omega

/-! ## The estimate -/

theorem outside_lip (lo hi u v : Int) : outside lo hi u ≤ outside lo hi v + (u - v).natAbs := by
  unfold outside; omega

theorem outside_zero (lo hi v : Int) (h1 : lo ≤ v) (h2 : v ≤ hi) : outside lo hi v = 0 := by
  unfold outside; omega

/-- the estimate never drops by more than a step costs -/
theorem est_step {g : Grid} {T : SeekTech} (a b n : MIdx) (l d : Dir) (hd : d ≠ .UNKNOWN) :
    g.estCost T a b n l ≤ g.gap T n (n.nbr d) + (if l ≠ d ∧ l ≠ .UNKNOWN then 1 else 0) + g.estCost T a b (n.nbr d) d := by
  rcases n with ⟨x, y, z⟩
  have hx := outside_lip (coordAt g.xs a.x) (coordAt g.xs b.x) (coordAt g.xs x)
  have hy := outside_lip (coordAt g.ys a.y) (coordAt g.ys b.y) (coordAt g.ys y)
  have hz := outside_lip (coordAt T.heights a.z) (coordAt T.heights b.z) (coordAt T.heights z)
  simp only [Grid.estCost, Grid.gap, MIdx.nbr]
  have hx := hx (coordAt g.xs (x + d.delta.1))
  have hy := hy (coordAt g.ys (y + d.delta.2.1))
  have hz := hz (coordAt T.heights (z + d.delta.2.2))
  cases d <;> simp only [Dir.delta, Int.add_zero] at hx hy hz ⊢
  · exact absurd rfl hd
  all_goals
    cases l <;> simp only [ne_eq, reduceCtorEq, not_true_eq_false, not_false_eq_true, and_true, and_false, true_and,
      false_and, if_false, if_true, Nat.add_zero, Int.sub_self, Int.natAbs_zero] at hx hy hz ⊢ <;>
      (repeat' split) <;> omega

theorem est_dirs {g : Grid} {T : SeekTech} (a b n : MIdx) (l l' : Dir) (hl : l' ≠ .UNKNOWN) :
    g.estCost T a b n l ≤ g.estCost T a b n l' + 1 := by
  simp only [Grid.estCost]
  generalize outside _ _ (coordAt g.xs _) = mx
  generalize outside _ _ (coordAt g.ys _) = my
  generalize outside _ _ (coordAt T.heights _) = mz
  cases l' <;> (try exact absurd rfl hl) <;> cases l <;>
    simp only [ne_eq, reduceCtorEq, not_true_eq_false, not_false_eq_true, and_true, and_false, true_and,
      false_and, if_false, if_true, Nat.add_zero] <;>
      (repeat' split) <;> omega

theorem pinBox_fold (ms : List MIdx) : ∀ (s : MIdx × MIdx),
    let r := ms.foldl (fun s m => ((⟨min s.1.x m.x, min s.1.y m.y, min s.1.z m.z⟩ : MIdx),
      (⟨max s.2.x m.x, max s.2.y m.y, max s.2.z m.z⟩ : MIdx))) s
    (r.1.x ≤ s.1.x ∧ r.1.y ≤ s.1.y ∧ r.1.z ≤ s.1.z ∧ s.2.x ≤ r.2.x ∧ s.2.y ≤ r.2.y ∧ s.2.z ≤ r.2.z) ∧
    (∀ m ∈ ms, r.1.x ≤ m.x ∧ r.1.y ≤ m.y ∧ r.1.z ≤ m.z ∧ m.x ≤ r.2.x ∧ m.y ≤ r.2.y ∧ m.z ≤ r.2.z) ∧
    (∀ B : MIdx, s.2.x ≤ B.x → s.2.y ≤ B.y → s.2.z ≤ B.z → (∀ m ∈ ms, m.x ≤ B.x ∧ m.y ≤ B.y ∧ m.z ≤ B.z) →
      r.2.x ≤ B.x ∧ r.2.y ≤ B.y ∧ r.2.z ≤ B.z) := by
  induction ms with
  | nil =>
    intro s
    exact ⟨⟨by simp, by simp, by simp, by simp, by simp, by simp⟩, by simp, fun B h1 h2 h3 _ => ⟨h1, h2, h3⟩⟩
  | cons m ms ih =>
    intro s
    have := ih (⟨min s.1.x m.x, min s.1.y m.y, min s.1.z m.z⟩, ⟨max s.2.x m.x, max s.2.y m.y, max s.2.z m.z⟩)
    obtain ⟨h1, h2, h3⟩ := this
    simp only [List.foldl_cons] at h1 h2 h3 ⊢
    refine ⟨by omega, ?_, ?_⟩
    · intro m' hm
      rcases List.mem_cons.1 hm with rfl | hm
      · omega
      · exact h2 m' hm
    · intro B b1 b2 b3 hB
      have := hB m (by simp)
      exact h3 B (by show max _ _ ≤ _; omega) (by show max _ _ ≤ _; omega) (by show max _ _ ≤ _; omega) (fun m' hm => hB m' (by simp [hm]))

/-- the estimate vanishes at every access point -/
theorem est_ap {g : Grid} {T : SeekTech} (hc : g.Coords T) (aps : List MIdx) (hon : ∀ m ∈ aps, g.On m)
    (m : MIdx) (hm : m ∈ aps) (l : Dir) : g.estCost T (g.pinBox aps).1 (g.pinBox aps).2 m l = 0 := by
  obtain ⟨_, h2, h3⟩ := pinBox_fold aps (⟨g.X - 1, g.Y - 1, g.Z - 1⟩, ⟨0, 0, 0⟩)
  have hl := hc.hLen
  have hm1 := hon m hm
  unfold Grid.On at hm1
  have h2 := h2 m hm
  have h3 := h3 ⟨g.X - 1, g.Y - 1, g.Z - 1⟩
    (by simp only [Grid.X]; omega) (by simp only [Grid.Y]; omega) (by simp only [Grid.Z]; omega)
    (by
      intro m' hm'
      have := hon m' hm'
      unfold Grid.On at this
      simp only [Grid.X, Grid.Y, Grid.Z]; omega)
  simp only [Grid.X, Grid.Y, Grid.Z] at h3
  have hP : g.pinBox aps = aps.foldl (fun s m => ((⟨min s.1.x m.x, min s.1.y m.y, min s.1.z m.z⟩ : MIdx),
      (⟨max s.2.x m.x, max s.2.y m.y, max s.2.z m.z⟩ : MIdx))) (⟨g.X - 1, g.Y - 1, g.Z - 1⟩, ⟨0, 0, 0⟩) := rfl
  simp only [Grid.X, Grid.Y, Grid.Z] at hP h2
  rw [← hP] at h2 h3
  simp only [Grid.estCost]
  rw [outside_zero _ _ _ (coordAt_mono hc.xInc (by omega) (by omega) (by omega)) (coordAt_mono hc.xInc (by omega) (by omega) (by omega)),
    outside_zero _ _ _ (coordAt_mono hc.yInc (by omega) (by omega) (by omega)) (coordAt_mono hc.yInc (by omega) (by omega) (by omega)),
    outside_zero _ _ _ (coordAt_mono hc.hInc (by omega) (by omega) (by omega)) (coordAt_mono hc.hInc (by omega) (by omega) (by omega))]
  simp

end TR
