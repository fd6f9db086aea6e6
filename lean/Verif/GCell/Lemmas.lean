import Verif.GCell.Spec
import Verif.Geom.Lemmas
/-! Helper lemmas for the GCell grid and worker generation. -/
namespace TR

theorem tdiv2_bounds (a : Int) : 2 * a.tdiv 2 ≤ a + 1 ∧ a - 1 ≤ 2 * a.tdiv 2 := by
  have h := Int.mul_tdiv_add_tmod a 2
  have h1 := Int.tmod_lt_of_pos a (b := 2) (by omega)
  have h2 := Int.lt_tmod_of_pos a (b := 2) (by omega)
  omega

/-! ### one axis -/


theorem mul_succ_le {sp i j : Int} (hsp : 0 < sp) (h : i < j) : sp * (i + 1) ≤ sp * j :=
  Int.mul_le_mul_of_nonneg_left (by omega) (by omega)

theorem gcellSpan_clamp (p : GCellPat) (dl dh i : Int) (hn : 0 < p.count) :
    gcellSpan p dl dh i = gcellSpan p dl dh (max 0 (min i (p.count - 1))) := by
  have key : (if (if i ≤ 0 then 0 else i) ≥ p.count - 1 then p.count - 1 else (if i ≤ 0 then 0 else i))
      = (if (if max 0 (min i (p.count - 1)) ≤ 0 then 0 else max 0 (min i (p.count - 1))) ≥ p.count - 1
          then p.count - 1 else (if max 0 (min i (p.count - 1)) ≤ 0 then 0 else max 0 (min i (p.count - 1)))) := by
    repeat' split
    all_goals omega
  simp only [gcellSpan, key]

theorem gcellSpan_in (p : GCellPat) (dl dh i : Int) (h0 : 0 ≤ i) (h1 : i < p.count) :
    gcellSpan p dl dh i =
      (if i = 0 then dl else p.spacing * i + p.start,
       if i = p.count - 1 then dh else p.spacing * (i + 1) + p.start) := by
  have e1 : (if i ≤ 0 then 0 else i) = i := by split <;> omega
  have e2 : (if i ≥ p.count - 1 then p.count - 1 else i) = i := by split <;> omega
  simp only [gcellSpan, e1, e2]
  have e3 : (i ≤ 0) = (i = 0) := by simp; omega
  have e4 : (i ≥ p.count - 1) = (i = p.count - 1) := by simp; omega
  simp only [e3, e4]

/-- spans of in-range GCells: nonempty, ordered, inside the die span -/
theorem span_lt {p : GCellPat} {dl dh : Int} (hf : AxisFits p dl dh) {i j : Int}
    (h0 : 0 ≤ i) (hij : i ≤ j) (h1 : j < p.count) :
    (gcellSpan p dl dh i).1 < (gcellSpan p dl dh j).2 := by
  obtain ⟨hs, hn, hd, hl, hr⟩ := hf
  rw [gcellSpan_in p dl dh i h0 (by omega), gcellSpan_in p dl dh j (by omega) h1]
  simp only
  have m1 : p.spacing * i ≤ p.spacing * j := Int.mul_le_mul_of_nonneg_left hij (by omega)
  have m2 : p.spacing * 1 ≤ p.spacing * (j + 1) :=
    Int.mul_le_mul_of_nonneg_left (by omega) (by omega)
  have m3 : p.spacing * (j + 1) = p.spacing * j + p.spacing := by
    rw [Int.mul_add, Int.mul_one]
  have m4 : p.spacing * i ≤ p.spacing * (p.count - 1) :=
    Int.mul_le_mul_of_nonneg_left (by omega) (by omega)
  split <;> split <;> omega

theorem span_sep {p : GCellPat} {dl dh : Int} (hf : AxisFits p dl dh) {i j : Int}
    (h0 : 0 ≤ i) (hij : i < j) (h1 : j < p.count) :
    (gcellSpan p dl dh i).2 = p.spacing * (i + 1) + p.start ∧
    (gcellSpan p dl dh j).1 = p.spacing * j + p.start ∧
    (gcellSpan p dl dh i).2 ≤ (gcellSpan p dl dh j).1 := by
  obtain ⟨hs, hn, hd, hl, hr⟩ := hf
  rw [gcellSpan_in p dl dh i h0 (by omega), gcellSpan_in p dl dh j (by omega) h1]
  have m1 := mul_succ_le hs hij
  have e1 : i ≠ p.count - 1 := by omega
  have e2 : j ≠ 0 := by omega
  simp only [e1, e2, if_false]
  exact ⟨trivial, trivial, by omega⟩

theorem span_lo_mono {p : GCellPat} {dl dh : Int} (hf : AxisFits p dl dh) {i j : Int}
    (h0 : 0 ≤ i) (hij : i ≤ j) (h1 : j < p.count) :
    (gcellSpan p dl dh i).1 ≤ (gcellSpan p dl dh j).1 := by
  rcases Int.lt_or_eq_of_le hij with h | h
  · have := span_lt hf h0 (Int.le_refl i) (by omega)
    have := (span_sep hf h0 h h1).2.2
    omega
  · subst h; exact Int.le_refl _

theorem span_hi_mono {p : GCellPat} {dl dh : Int} (hf : AxisFits p dl dh) {i j : Int}
    (h0 : 0 ≤ i) (hij : i ≤ j) (h1 : j < p.count) :
    (gcellSpan p dl dh i).2 ≤ (gcellSpan p dl dh j).2 := by
  rcases Int.lt_or_eq_of_le hij with h | h
  · have := span_lt hf (i := j) (by omega) (Int.le_refl j) h1
    have := (span_sep hf h0 h h1).2.2
    omega
  · subst h; exact Int.le_refl _

theorem span_in_die {p : GCellPat} {dl dh : Int} (hf : AxisFits p dl dh) {i : Int}
    (h0 : 0 ≤ i) (h1 : i < p.count) :
    dl ≤ (gcellSpan p dl dh i).1 ∧ (gcellSpan p dl dh i).2 ≤ dh := by
  have hn := hf.2.1
  have a := span_lo_mono hf (Int.le_refl 0) h0 h1
  have b := span_hi_mono hf h0 (j := p.count - 1) (by omega) (by omega)
  rw [gcellSpan_in p dl dh 0 (by omega) hn] at a
  rw [gcellSpan_in p dl dh (p.count - 1) (by omega) (by omega)] at b
  simp only [if_true] at a b
  exact ⟨a, b⟩

theorem gcellIdx1_spec {p : GCellPat} {dl dh : Int} (hf : AxisFits p dl dh) (c : Int) :
    ∃ i, gcellIdx1 p c = some i ∧ 0 ≤ i ∧ i < p.count ∧
      (dl ≤ c → c ≤ dh → (gcellSpan p dl dh i).1 ≤ c ∧ c ≤ (gcellSpan p dl dh i).2) := by
  obtain ⟨hs, hn, hd, hl, hr⟩ := hf
  have hne : p.spacing ≠ 0 := by omega
  simp only [gcellIdx1, hne, if_false]
  refine ⟨_, rfl, ?_, ?_, ?_⟩
  · repeat' split
    all_goals omega
  · repeat' split
    all_goals omega
  · intro hc1 hc2
    by_cases hpos : 0 ≤ c - p.start
    · rw [Int.tdiv_eq_ediv_of_nonneg hpos]
      have q0 : 0 ≤ (c - p.start) / p.spacing := Int.ediv_nonneg hpos (by omega)
      have q1 : p.spacing * ((c - p.start) / p.spacing) ≤ c - p.start :=
        Int.mul_ediv_self_le hne
      have q2 : c - p.start < p.spacing * ((c - p.start) / p.spacing) + p.spacing :=
        Int.lt_mul_ediv_self_add hs
      generalize hq : (c - p.start) / p.spacing = q at *
      have e1 : (if q < 0 then 0 else q) = q := by split <;> omega
      rw [e1]
      by_cases hbig : q ≥ p.count
      · simp only [hbig, if_true]
        rw [gcellSpan_in p dl dh (p.count - 1) (by omega) (by omega)]
        have m : p.spacing * (p.count - 1) ≤ p.spacing * q :=
          Int.mul_le_mul_of_nonneg_left (by omega) (by omega)
        simp only [if_true]
        split <;> omega
      · simp only [hbig, if_false]
        rw [gcellSpan_in p dl dh q q0 (by omega)]
        have m3 : p.spacing * (q + 1) = p.spacing * q + p.spacing := by
          rw [Int.mul_add, Int.mul_one]
        simp only
        split <;> split <;> omega
    · have q0 : (c - p.start).tdiv p.spacing ≤ 0 := by
        have e : (c - p.start).tdiv p.spacing = -((p.start - c).tdiv p.spacing) := by
          rw [← Int.neg_tdiv]; congr 1; omega
        have := Int.tdiv_nonneg (a := p.start - c) (b := p.spacing) (by omega) (by omega)
        omega
      generalize (c - p.start).tdiv p.spacing = q at *
      have e1 : (if q < 0 then 0 else q) = 0 := by split <;> omega
      have hbig : ¬ (0 : Int) ≥ p.count := by omega
      simp only [e1, hbig, if_false]
      rw [gcellSpan_in p dl dh 0 (by omega) (by omega)]
      simp only [if_true]
      split <;> omega

/-! ### boxes -/

theorem box_eq {g : GGrid} (hf : g.Fits) {c : Point} (hc : g.InRange c) :
    g.box c = ⟨⟨(gcellSpan g.xp g.die.left g.die.right c.x).1,
                (gcellSpan g.yp g.die.bottom g.die.top c.y).1⟩,
               ⟨(gcellSpan g.xp g.die.left g.die.right c.x).2,
                (gcellSpan g.yp g.die.bottom g.die.top c.y).2⟩⟩ := by
  have hx := span_lt hf.1 hc.1 (Int.le_refl _) hc.2.1
  have hy := span_lt hf.2 hc.2.2.1 (Int.le_refl _) hc.2.2.2
  simp only [GGrid.box, Box.mk4_eq, Box.mk.injEq, Point.mk.injEq]
  omega

theorem box_clamp {g : GGrid} (hf : g.Fits) (c : Point) :
    g.box c = g.box ⟨max 0 (min c.x (g.xp.count - 1)), max 0 (min c.y (g.yp.count - 1))⟩ := by
  simp only [GGrid.box]
  rw [gcellSpan_clamp g.xp _ _ c.x hf.1.2.1, gcellSpan_clamp g.yp _ _ c.y hf.2.2.1]

theorem noInterior_of {a b : Box}
    (h : a.right ≤ b.left ∨ b.right ≤ a.left ∨ a.top ≤ b.bottom ∨ b.top ≤ a.bottom) :
    NoInterior a b := by
  rintro ⟨x1, y1, x2, y2, hx, hy, hp⟩
  have h1 := hp ⟨x1, y1⟩ (by simp only [InRect]; omega)
  have h2 := hp ⟨x2, y2⟩ (by simp only [InRect]; omega)
  simp only [Box.Mem, InRect] at h1 h2
  omega

/-! ### the loop -/

theorem loopGo_getElem? (n c : Int) (hc : 0 < c) (f : Nat) : ∀ (o : Int) (k : Nat),
    (n - o).toNat ≤ f →
    (loopGo n c f o)[k]? = if o + k * c < n then some (o + k * c) else none := by
  induction f with
  | zero =>
    intro o k hf
    have hk : 0 ≤ (k : Int) * c := Int.mul_nonneg (by omega) (by omega)
    have : ¬ (o + k * c < n) := by omega
    simp [loopGo, this]
  | succ f ih =>
    intro o k hf
    rw [loopGo]
    by_cases h : o < n
    · cases k with
      | zero => simp [h, hc]
      | succ k =>
        have e : o + ((k + 1 : Nat) : Int) * c = (o + c) + k * c := by
          have : ((k + 1 : Nat) : Int) = (k : Int) + 1 := by omega
          rw [this, Int.add_mul]; omega
        have := ih (o + c) k (by omega)
        rw [e]
        simp [h, hc, this]
    · have hk : 0 ≤ (k : Int) * c := Int.mul_nonneg (by omega) (by omega)
      have : ¬ (o + k * c < n) := by omega
      simp [h, this]

theorem loopFrom_getElem? (n c : Int) (hc : 0 < c) (k : Nat) (o : Int) :
    (loopFrom n c o)[k]? = if o + k * c < n then some (o + k * c) else none :=
  loopGo_getElem? n c hc _ o k (Nat.le_refl _)

theorem mem_loopFrom (n c o i : Int) (hc : 0 < c) :
    i ∈ loopFrom n c o ↔ ∃ k : Nat, i = o + k * c ∧ i < n := by
  rw [List.mem_iff_getElem?]
  constructor
  · rintro ⟨k, hk⟩
    rw [loopFrom_getElem? n c hc] at hk
    refine ⟨k, ?_⟩
    split at hk <;> simp at hk
    omega
  · rintro ⟨k, rfl, h⟩
    exact ⟨k, by rw [loopFrom_getElem? n c hc]; simp [h]⟩

theorem loopFrom_pairwise (n c o : Int) (hc : 0 < c) :
    (loopFrom n c o).Pairwise (fun a b => a + c ≤ b) := by
  rw [List.pairwise_iff_getElem]
  intro i j hi hj hij
  have h1 := loopFrom_getElem? n c hc i o
  have h2 := loopFrom_getElem? n c hc j o
  rw [List.getElem?_eq_getElem hi] at h1
  rw [List.getElem?_eq_getElem hj] at h2
  have m : ((i + 1 : Nat) : Int) * c ≤ (j : Int) * c :=
    Int.mul_le_mul_of_nonneg_right (by omega) (by omega)
  have e : ((i + 1 : Nat) : Int) * c = i * c + c := by
    have : ((i + 1 : Nat) : Int) = (i : Int) + 1 := by omega
    rw [this, Int.add_mul]; omega
  split at h1 <;> split at h2 <;> simp at h1 h2
  omega

theorem mem_zip_loop (n c o : Int) (hc : 0 < c) (i : Int) (k : Nat) :
    (i, k) ∈ (loopFrom n c o).zipIdx ↔ i = o + k * c ∧ i < n := by
  rw [List.mk_mem_zipIdx_iff_getElem?, loopFrom_getElem? n c hc]
  split <;> simp <;> omega

theorem mem_genWorkers (g : GGrid) (clip o : Int) (hc : 0 < clip) (w : Worker) :
    w ∈ genWorkers g clip o ↔ ∃ k l : Nat,
      o + k * clip < g.xp.count ∧ o + l * clip < g.yp.count ∧
      w = mkWorker g clip (o + k * clip) (o + l * clip) k l := by
  simp only [genWorkers, List.mem_flatMap, List.mem_map, Prod.exists]
  constructor
  · rintro ⟨i, k, hi, j, l, hj, rfl⟩
    rw [mem_zip_loop _ _ _ hc] at hi hj
    refine ⟨k, l, by omega, by omega, ?_⟩
    rw [← hi.1, ← hj.1]
  · rintro ⟨k, l, hk, hl, rfl⟩
    exact ⟨_, k, (mem_zip_loop _ _ _ hc _ _).2 ⟨rfl, hk⟩, _, l,
      (mem_zip_loop _ _ _ hc _ _).2 ⟨rfl, hl⟩, rfl⟩

theorem pairwise_zipIdx_snd {α : Type} (l : List α) (n : Nat) :
    (l.zipIdx n).Pairwise (fun a b => a.2 < b.2) := by
  induction l generalizing n with
  | nil => simp
  | cons a l ih =>
    rw [List.zipIdx_cons, List.pairwise_cons]
    refine ⟨?_, ih _⟩
    rintro ⟨x, k⟩ hx
    have := List.le_snd_of_mem_zipIdx hx
    simp only at *; omega

/-- workers are generated in strictly increasing (xIdx, yIdx) order -/
theorem genWorkers_order (g : GGrid) (clip o : Int) :
    (genWorkers g clip o).Pairwise
      (fun a b => a.xIdx < b.xIdx ∨ (a.xIdx = b.xIdx ∧ a.yIdx < b.yIdx)) := by
  simp only [genWorkers]
  rw [List.pairwise_flatMap]
  constructor
  · rintro ⟨i, xi⟩ _
    rw [List.pairwise_map]
    apply (pairwise_zipIdx_snd _ 0).imp
    rintro ⟨j, yj⟩ ⟨j', yj'⟩ h
    simp only at h
    simp [mkWorker, h]
  · apply (pairwise_zipIdx_snd _ 0).imp
    rintro ⟨i, xi⟩ ⟨i', xi'⟩ h w hw w' hw'
    simp only [List.mem_map, Prod.exists] at hw hw'
    obtain ⟨_, _, _, rfl⟩ := hw
    obtain ⟨_, _, _, rfl⟩ := hw'
    left; simpa [mkWorker] using h

/-! ### route boxes -/

/-- axis span covered by the worker starting at `i` -/
def axisRoute (p : GCellPat) (dl dh clip i : Int) : Int × Int :=
  ((gcellSpan p dl dh (max 0 i)).1, (gcellSpan p dl dh (min (p.count - 1) (i + clip - 1))).2)

theorem routeBox_eq {g : GGrid} (hf : g.Fits) {clip i j : Int} (hc : 0 < clip)
    (hi : -clip < i) (hi' : i < g.xp.count) (hj : -clip < j) (hj' : j < g.yp.count) (k l : Nat) :
    (mkWorker g clip i j k l).routeBox =
      ⟨⟨(axisRoute g.xp g.die.left g.die.right clip i).1,
        (axisRoute g.yp g.die.bottom g.die.top clip j).1⟩,
       ⟨(axisRoute g.xp g.die.left g.die.right clip i).2,
        (axisRoute g.yp g.die.bottom g.die.top clip j).2⟩⟩ := by
  have hnx := hf.1.2.1
  have hny := hf.2.2.1
  have r1 : g.InRange ⟨max 0 (min i (g.xp.count - 1)), max 0 (min j (g.yp.count - 1))⟩ := by
    simp only [GGrid.InRange]; omega
  have r2 : g.InRange ⟨max 0 (min (min (g.xp.count - 1) (i + clip - 1)) (g.xp.count - 1)),
      max 0 (min (min g.yp.count (j + clip - 1)) (g.yp.count - 1))⟩ := by
    simp only [GGrid.InRange]; omega
  have e1 : max 0 (min i (g.xp.count - 1)) = max 0 i := by omega
  have e2 : max 0 (min j (g.yp.count - 1)) = max 0 j := by omega
  have e3 : max 0 (min (min (g.xp.count - 1) (i + clip - 1)) (g.xp.count - 1)) =
    min (g.xp.count - 1) (i + clip - 1) := by omega
  have e4 : max 0 (min (min g.yp.count (j + clip - 1)) (g.yp.count - 1)) =
    min (g.yp.count - 1) (j + clip - 1) := by omega
  have hx := span_lt hf.1 (i := max 0 i) (j := min (g.xp.count - 1) (i + clip - 1))
    (by omega) (by omega) (by omega)
  have hy := span_lt hf.2 (i := max 0 j) (j := min (g.yp.count - 1) (j + clip - 1))
    (by omega) (by omega) (by omega)
  simp only [mkWorker]
  rw [box_clamp hf ⟨i, j⟩, box_clamp hf ⟨min (g.xp.count - 1) _, _⟩, box_eq hf r1, box_eq hf r2]
  simp only [e1, e2, e3, e4, axisRoute, Box.left, Box.right, Box.bottom, Box.top, Box.mk4_eq, Box.mk.injEq,
    Point.mk.injEq] at hx hy ⊢
  omega

theorem axisRoute_disjoint {p : GCellPat} {dl dh : Int} (hf : AxisFits p dl dh) {clip i j : Int}
    (hi : -clip < i) (hij : i + clip ≤ j) (hj : j < p.count) :
    (axisRoute p dl dh clip i).2 ≤ (axisRoute p dl dh clip j).1 := by
  simp only [axisRoute]
  exact (span_sep hf (by omega) (by omega) (by omega)).2.2

theorem axisRoute_gap {p : GCellPat} {dl dh : Int} (hf : AxisFits p dl dh) {clip i j : Int}
    (hc : 0 < clip) (hi : -clip < i) (hij : i + 2 * clip ≤ j) (hj : j < p.count) :
    (axisRoute p dl dh clip i).2 + p.spacing * clip ≤ (axisRoute p dl dh clip j).1 := by
  have hs := hf.1
  simp only [axisRoute]
  obtain ⟨e1, e2, _⟩ := span_sep hf (i := min (p.count - 1) (i + clip - 1)) (j := max 0 j)
    (by omega) (by omega) (by omega)
  rw [e1, e2]
  have m1 : p.spacing * (min (p.count - 1) (i + clip - 1) + 1) ≤ p.spacing * (i + clip) :=
    Int.mul_le_mul_of_nonneg_left (by omega) (by omega)
  have m2 : p.spacing * (i + 2 * clip) ≤ p.spacing * (max 0 j) :=
    Int.mul_le_mul_of_nonneg_left (by omega) (by omega)
  have m3 : p.spacing * (i + 2 * clip) = p.spacing * (i + clip) + p.spacing * clip := by
    rw [← Int.mul_add]; congr 1; omega
  omega

theorem mul_clip_lt {clip : Int} (hc : 0 < clip) {k k' : Nat} (d : Nat) (h : k + d ≤ k') (o : Int) :
    o + k * clip + d * clip ≤ o + k' * clip := by
  have : ((k + d : Nat) : Int) * clip ≤ (k' : Int) * clip :=
    Int.mul_le_mul_of_nonneg_right (by omega) (by omega)
  have e : ((k + d : Nat) : Int) * clip = k * clip + d * clip := by
    rw [← Int.add_mul]; congr 1
  omega

/-- the loop index that owns GCell `a` -/
theorem loop_owner {clip offset n : Int} (hc : 0 < clip) {a : Int} (ha : offset ≤ a) (han : a < n) :
    ∃ i ∈ loopFrom n clip offset, offset ≤ i ∧ i ≤ a ∧ a < i + clip := by
  have q0 : 0 ≤ (a - offset) / clip := Int.ediv_nonneg (by omega) (by omega)
  have e : (((a - offset) / clip).toNat : Int) = (a - offset) / clip := by omega
  have q1 := Int.ediv_mul_le (a - offset) (b := clip) (by omega)
  have q2 := Int.lt_ediv_add_one_mul_self (a - offset) hc
  rw [Int.add_mul] at q2
  have q3 : 0 ≤ (a - offset) / clip * clip := Int.mul_nonneg q0 (by omega)
  refine ⟨offset + ((a - offset) / clip).toNat * clip, (mem_loopFrom _ _ _ _ hc).2 ⟨_, rfl, ?_⟩, ?_⟩ <;>
    rw [e] <;> omega

/-! ### batches -/

theorem pushBatch_flatten {α : Type} (n : Nat) (bs : List (List α)) (w : α) :
    (pushBatch n bs w).flatten = bs.flatten ++ [w] := by
  fun_induction pushBatch n bs w <;> simp_all

theorem pushBatch_size {α : Type} (n : Nat) (hn : 1 ≤ n) (bs : List (List α)) (w : α)
    (h : ∀ b ∈ bs, b.length ≤ n) : ∀ b ∈ pushBatch n bs w, b.length ≤ n := by
  fun_induction pushBatch n bs w <;> simp_all <;> omega

theorem pushBatch_ne {α : Type} (n : Nat) (bs : List (List α)) (w : α)
    (h : ∀ b ∈ bs, b ≠ []) : ∀ b ∈ pushBatch n bs w, b ≠ [] := by
  fun_induction pushBatch n bs w <;> simp_all

theorem batchIdx_lt (w : Worker) : w.batchIdx < 4 := by
  simp only [Worker.batchIdx, batchStepX, batchStepY]; omega

/-- invariant of the batch-building loop -/
structure BatchInv (n : Nat) (done : List Worker) (ws : List (List (List Worker))) : Prop where
  len : ws.length = 4
  colour : ∀ c bs, ws[c]? = some bs → bs.flatten = done.filter (fun w => w.batchIdx == c)
  size : 1 ≤ n → ∀ bs ∈ ws, ∀ b ∈ bs, b.length ≤ n
  perm : ws.flatten.flatten.Perm done

theorem modify_flatten_perm {α : Type} (ws : List (List (List α))) (c : Nat) (hc : c < ws.length)
    (f : List (List α) → List (List α)) (w : α) (hf : ∀ bs, (f bs).flatten = bs.flatten ++ [w]) :
    (ws.modify c f).flatten.flatten.Perm (ws.flatten.flatten ++ [w]) := by
  induction ws generalizing c with
  | nil => simp at hc
  | cons b ws ih =>
    cases c with
    | zero =>
      simp only [List.modify_zero_cons, List.flatten_cons, List.flatten_append, hf, List.append_assoc]
      exact List.Perm.append_left _ List.perm_append_comm
    | succ c =>
      simp only [List.modify_succ_cons, List.flatten_cons, List.flatten_append, List.append_assoc]
      exact List.Perm.append_left _ (ih c (by simpa using hc))

theorem BatchInv.step {n : Nat} {done : List Worker} {ws : List (List (List Worker))}
    (h : BatchInv n done ws) (w : Worker) : BatchInv n (done ++ [w]) (addWorker n ws w) := by
  have hlt := batchIdx_lt w
  refine ⟨?_, ?_, ?_, ?_⟩
  · simp [addWorker, h.len]
  · intro c bs hbs
    simp only [addWorker, List.getElem?_modify] at hbs
    rw [List.filter_append]
    cases hw : ws[c]? with
    | none => simp [hw] at hbs
    | some b0 =>
      rw [hw] at hbs
      by_cases hcw : w.batchIdx = c
      · simp [hcw] at hbs
        subst hbs
        rw [pushBatch_flatten, h.colour c b0 hw]
        simp [hcw]
      · simp [hcw] at hbs
        subst hbs
        rw [h.colour c b0 hw]
        simp [hcw]
  · intro hn bs hbs
    simp only [addWorker] at hbs
    rw [List.mem_iff_getElem?] at hbs
    obtain ⟨c, hc⟩ := hbs
    rw [List.getElem?_modify] at hc
    cases hw : ws[c]? with
    | none => simp [hw] at hc
    | some b0 =>
      have hb0 := h.size hn b0 (List.mem_of_getElem? hw)
      rw [hw] at hc
      by_cases hcw : w.batchIdx = c
      · simp [hcw] at hc
        subst hc
        exact pushBatch_size n hn b0 w hb0
      · simp [hcw] at hc
        subst hc
        exact hb0
  · have := modify_flatten_perm ws w.batchIdx (by rw [h.len]; exact hlt)
      (fun bs => pushBatch n bs w) w (fun bs => pushBatch_flatten n bs w)
    exact this.trans (h.perm.append_right _)

theorem BatchInv.foldl {n : Nat} (l : List Worker) : ∀ {done ws}, BatchInv n done ws →
    BatchInv n (done ++ l) (l.foldl (addWorker n) ws) := by
  induction l with
  | nil => intro done ws h; simpa using h
  | cons w l ih =>
    intro done ws h
    have := ih (h.step w)
    simpa [List.append_assoc] using this

theorem batches_inv (n : Nat) (g : GGrid) (clip o : Int) :
    BatchInv n (genWorkers g clip o) (batches n g clip o) := by
  have h0 : BatchInv n [] (List.replicate (batchStepX * batchStepY) []) := by
    refine ⟨by simp [batchStepX, batchStepY], ?_, ?_, ?_⟩
    · intro c bs h
      rw [List.getElem?_replicate] at h
      split at h <;> simp_all
    · intro _ bs hbs b hb
      simp [List.mem_replicate] at hbs
      simp_all
    · simp [batchStepX, batchStepY, List.replicate]
  simpa [batches] using h0.foldl (genWorkers g clip o)

end TR
