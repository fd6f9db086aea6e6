import Verif.GCell.Lemmas
/-! Property theorems C21–C24 and C46 (GCell grid, work partition, batches, TA panels). -/
namespace TR

/-- C21: the GCell index of any point is in range; a point of the die lies in the box of
the GCell it is mapped to. -/
theorem c21_index_in_range_and_contains (g : GGrid) (hf : g.Fits) (pt : Point) :
    ∃ c, g.idx pt = some c ∧ g.InRange c ∧ (g.die.Mem pt → (g.box c).Mem pt) := by
  obtain ⟨x, hx, hx0, hx1, hxc⟩ := gcellIdx1_spec hf.1 pt.x
  obtain ⟨y, hy, hy0, hy1, hyc⟩ := gcellIdx1_spec hf.2 pt.y
  refine ⟨⟨x, y⟩, by simp [GGrid.idx, hx, hy], ⟨hx0, hx1, hy0, hy1⟩, ?_⟩
  rintro ⟨h1, h2, h3, h4⟩
  rw [box_eq hf ⟨hx0, hx1, hy0, hy1⟩]
  obtain ⟨a, b⟩ := hxc h1 h2
  obtain ⟨c, d⟩ := hyc h3 h4
  exact ⟨a, b, c, d⟩

/-- C21: the GCell centre lies in the GCell box. -/
theorem c21_center_inside (g : GGrid) (hf : g.Fits) (c : Point) (hc : g.InRange c) :
    (g.box c).Mem (g.center c) := by
  have hx := span_lt hf.1 hc.1 (Int.le_refl _) hc.2.1
  have hy := span_lt hf.2 hc.2.2.1 (Int.le_refl _) hc.2.2.2
  have key : ∀ (p : GCellPat) (dl dh i : Int), 0 ≤ i → i < p.count →
      (gcellSpan p dl dh i).1 < (gcellSpan p dl dh i).2 →
      (gcellSpan p dl dh i).1 ≤ gcellMid p dl dh i ∧
      gcellMid p dl dh i ≤ (gcellSpan p dl dh i).2 := by
    intro p dl dh i h0 h1 hlt
    have e : gcellMid p dl dh i = ((gcellSpan p dl dh i).1 + (gcellSpan p dl dh i).2).tdiv 2 := by
      rw [gcellSpan_in p dl dh i h0 h1]; rfl
    rw [e]
    generalize (gcellSpan p dl dh i).1 = a at *
    generalize (gcellSpan p dl dh i).2 = b at *
    have := tdiv2_bounds (a + b)
    omega
  obtain ⟨a, b⟩ := key _ _ _ _ hc.1 hc.2.1 hx
  obtain ⟨a', b'⟩ := key _ _ _ _ hc.2.2.1 hc.2.2.2 hy
  rw [box_eq hf hc]
  exact ⟨a, b, a', b'⟩

/-- C21: looking up the centre of a GCell gives back that GCell, whenever the centre is not
on the GCell's upper or right edge (GCells at least two units wide). -/
theorem c21_center_roundtrip (g : GGrid) (hf : g.Fits) (c : Point) (hc : g.InRange c)
    (hx2 : (g.box c).left + 2 ≤ (g.box c).right) (hy2 : (g.box c).bottom + 2 ≤ (g.box c).top) :
    g.idx (g.center c) = some c := by
  have key : ∀ (p : GCellPat) (dl dh i : Int), AxisFits p dl dh → 0 ≤ i → i < p.count →
      (gcellSpan p dl dh i).1 + 2 ≤ (gcellSpan p dl dh i).2 →
      gcellIdx1 p (gcellMid p dl dh i) = some i := by
    intro p dl dh i hfit h0 h1 hlt
    have e : gcellMid p dl dh i = ((gcellSpan p dl dh i).1 + (gcellSpan p dl dh i).2).tdiv 2 := by
      rw [gcellSpan_in p dl dh i h0 h1]; rfl
    have hlo : (gcellSpan p dl dh i).1 < gcellMid p dl dh i := by
      rw [e]; generalize (gcellSpan p dl dh i).1 = a at *
      generalize (gcellSpan p dl dh i).2 = b at *
      have := tdiv2_bounds (a + b); omega
    have hhi : gcellMid p dl dh i < (gcellSpan p dl dh i).2 := by
      rw [e]; generalize (gcellSpan p dl dh i).1 = a at *
      generalize (gcellSpan p dl dh i).2 = b at *
      have := tdiv2_bounds (a + b); omega
    generalize gcellMid p dl dh i = m at *
    obtain ⟨j, hj, hj0, hj1, hjc⟩ := gcellIdx1_spec hfit m
    have hd := span_in_die hfit h0 h1
    obtain ⟨a, b⟩ := hjc (by omega) (by omega)
    rw [hj]
    rcases Int.lt_trichotomy i j with h | h | h
    · have := (span_sep hfit h0 h hj1).2.2; omega
    · rw [h]
    · have := (span_sep hfit hj0 h h1).2.2; omega
  rw [box_eq hf hc] at hx2 hy2
  simp only [GGrid.idx, GGrid.center]
  rw [key _ _ _ _ hf.1 hc.1 hc.2.1 hx2, key _ _ _ _ hf.2 hc.2.2.1 hc.2.2.2 hy2]

/-- A 5 x 3 GCell grid on a die that is not a multiple of the GCell size. -/
def exGrid : GGrid :=
  { die := ⟨⟨0, 0⟩, ⟨53, 35⟩⟩, xp := ⟨0, 10, 5⟩, yp := ⟨0, 10, 3⟩ }

theorem exGrid_fits : exGrid.Fits := by
  simp [GGrid.Fits, AxisFits, exGrid, Box.left, Box.right, Box.bottom, Box.top]

example : exGrid.idx ⟨52, 34⟩ = some ⟨4, 2⟩ ∧ exGrid.box ⟨4, 2⟩ = ⟨⟨40, 20⟩, ⟨53, 35⟩⟩ := by decide

/-- C22: the GCells cover the die, do not stick out of it, and two different GCells share
no interior point. -/
theorem c22_gcells_tile_die (g : GGrid) (hf : g.Fits) :
    (∀ pt, g.die.Mem pt → ∃ c, g.InRange c ∧ (g.box c).Mem pt) ∧
    (∀ c, g.InRange c → BoxSubset (g.box c) g.die) ∧
    (∀ c c', g.InRange c → g.InRange c' → c ≠ c' → NoInterior (g.box c) (g.box c')) := by
  refine ⟨?_, ?_, ?_⟩
  · intro pt hpt
    obtain ⟨c, _, hr, hm⟩ := c21_index_in_range_and_contains g hf pt
    exact ⟨c, hr, hm hpt⟩
  · intro c hc p hp
    rw [box_eq hf hc] at hp
    obtain ⟨a, b⟩ := span_in_die hf.1 hc.1 hc.2.1
    obtain ⟨a', b'⟩ := span_in_die hf.2 hc.2.2.1 hc.2.2.2
    obtain ⟨h1, h2, h3, h4⟩ := hp
    simp only [Box.left, Box.right, Box.bottom, Box.top] at *
    refine ⟨?_, ?_, ?_, ?_⟩ <;> simp only [Box.left, Box.right, Box.bottom, Box.top] <;> omega
  · intro c c' hc hc' hne
    apply noInterior_of
    rw [box_eq hf hc, box_eq hf hc']
    simp only [Box.left, Box.right, Box.bottom, Box.top]
    have hxy : c.x ≠ c'.x ∨ c.y ≠ c'.y := by
      by_cases h : c.x = c'.x
      · right; intro h'; apply hne; cases c; cases c'; simp_all
      · exact Or.inl h
    obtain ⟨c0, c1, c2, c3⟩ := hc
    obtain ⟨d0, d1, d2, d3⟩ := hc'
    rcases hxy with h | h
    · rcases Int.lt_or_gt_of_ne h with h | h
      · exact Or.inl (span_sep hf.1 c0 h d1).2.2
      · exact Or.inr (Or.inl (span_sep hf.1 d0 h c1).2.2)
    · rcases Int.lt_or_gt_of_ne h with h | h
      · exact Or.inr (Or.inr (Or.inl (span_sep hf.2 c2 h d3).2.2))
      · exact Or.inr (Or.inr (Or.inr (span_sep hf.2 d2 h c3).2.2))

/-- C23: route boxes of two different workers of an iteration share no interior point. -/
theorem c23_workers_disjoint (g : GGrid) (hf : g.Fits) (clip offset : Int) (hc : 0 < clip)
    (ho : -clip < offset) :
    (genWorkers g clip offset).Pairwise (fun w w' => NoInterior w.routeBox w'.routeBox) := by
  refine List.Pairwise.imp_of_mem ?_ (genWorkers_order g clip offset)
  intro a b ha hb hab
  rw [mem_genWorkers g clip offset hc] at ha hb
  obtain ⟨k, l, hk, hl, rfl⟩ := ha
  obtain ⟨k', l', hk', hl', rfl⟩ := hb
  have p0 : ∀ m : Nat, offset ≤ offset + m * clip := fun m => by
    have := mul_clip_lt hc (k := 0) (k' := m) 0 (by omega) offset; simp at this; omega
  have q1 := p0 k; have q2 := p0 l; have q3 := p0 k'; have q4 := p0 l'
  rw [routeBox_eq hf hc (by omega) hk (by omega) hl, routeBox_eq hf hc (by omega) hk' (by omega) hl']
  apply noInterior_of
  simp only [Box.left, Box.right, Box.bottom, Box.top]
  rcases hab with h | ⟨_, h⟩
  · left
    have := mul_clip_lt hc (k := k) (k' := k') 1 (by simp only [mkWorker] at h; omega) offset
    exact axisRoute_disjoint hf.1 (by omega) (by omega) hk'
  · right; right; left
    have := mul_clip_lt hc (k := l) (k' := l') 1 (by simp only [mkWorker] at h; omega) offset
    exact axisRoute_disjoint hf.2 (by omega) (by omega) hl'

/-- C23: every GCell with index at least the offset lies in the route box of exactly one
worker: there is one list position whose route box contains all of it, and the route box of
every other position meets no part of its interior. -/
theorem c23_gcell_in_exactly_one_worker (g : GGrid) (hf : g.Fits) (clip offset : Int)
    (hc : 0 < clip) (ho : -clip < offset) (c : Point) (hr : g.InRange c)
    (hx : offset ≤ c.x) (hy : offset ≤ c.y) :
    ∃ pre w post, genWorkers g clip offset = pre ++ w :: post ∧
      BoxSubset (g.box c) w.routeBox ∧
      ∀ w' ∈ pre ++ post, NoInterior (g.box c) w'.routeBox := by
  obtain ⟨c0, c1, c2, c3⟩ := hr
  -- the loop indices of the worker that owns `c`
  have own : ∀ a : Int, offset ≤ a → ∃ k : Nat, offset + k * clip ≤ a ∧ a < offset + k * clip + clip := by
    intro a ha
    refine ⟨((a - offset) / clip).toNat, ?_⟩
    have q0 : 0 ≤ (a - offset) / clip := Int.ediv_nonneg (by omega) (by omega)
    have e : (((a - offset) / clip).toNat : Int) = (a - offset) / clip := by omega
    have q1 := Int.ediv_mul_le (a - offset) (b := clip) (by omega)
    have q2 := Int.lt_ediv_add_one_mul_self (a - offset) hc
    rw [e]
    rw [Int.add_mul] at q2
    omega
  obtain ⟨k, hk1, hk2⟩ := own c.x hx
  obtain ⟨l, hl1, hl2⟩ := own c.y hy
  have p0 : ∀ m : Nat, offset ≤ offset + m * clip := fun m => by
    have := mul_clip_lt hc (k := 0) (k' := m) 0 (by omega) offset; simp at this; omega
  have q1 := p0 k; have q2 := p0 l
  have hmem : mkWorker g clip (offset + k * clip) (offset + l * clip) k l ∈ genWorkers g clip offset :=
    (mem_genWorkers g clip offset hc _).2 ⟨k, l, by omega, by omega, rfl⟩
  have hsub : BoxSubset (g.box c)
      (mkWorker g clip (offset + k * clip) (offset + l * clip) k l).routeBox := by
    rw [routeBox_eq hf hc (by omega) (by omega) (by omega) (by omega), box_eq hf ⟨c0, c1, c2, c3⟩]
    intro p hp
    obtain ⟨h1, h2, h3, h4⟩ := hp
    have a1 := span_lo_mono hf.1 (i := max 0 (offset + k * clip)) (j := c.x) (by omega) (by omega) c1
    have a2 := span_hi_mono hf.1 (i := c.x)
      (j := min (g.xp.count - 1) (offset + k * clip + clip - 1)) c0 (by omega) (by omega)
    have a3 := span_lo_mono hf.2 (i := max 0 (offset + l * clip)) (j := c.y) (by omega) (by omega) c3
    have a4 := span_hi_mono hf.2 (i := c.y)
      (j := min (g.yp.count - 1) (offset + l * clip + clip - 1)) c2 (by omega) (by omega)
    simp only [Box.left, Box.right, Box.bottom, Box.top] at *
    refine ⟨?_, ?_, ?_, ?_⟩ <;> simp only [Box.left, Box.right, Box.bottom, Box.top, axisRoute] <;> omega
  obtain ⟨pre, post, hsplit⟩ := List.append_of_mem hmem
  refine ⟨pre, _, post, hsplit, hsub, ?_⟩
  have hpw := c23_workers_disjoint g hf clip offset hc ho
  rw [hsplit, List.pairwise_append] at hpw
  obtain ⟨_, hpost, hcross⟩ := hpw
  have hmono : ∀ w', NoInterior
      (mkWorker g clip (offset + k * clip) (offset + l * clip) k l).routeBox w' →
      NoInterior (g.box c) w' := by
    rintro w' hn ⟨x1, y1, x2, y2, hx, hy, hp⟩
    exact hn ⟨x1, y1, x2, y2, hx, hy, fun p hp' => ⟨hsub p (hp p hp').1, (hp p hp').2⟩⟩
  have hsymm : ∀ a b, NoInterior a b → NoInterior b a := by
    rintro a b hn ⟨x1, y1, x2, y2, hx, hy, hp⟩
    exact hn ⟨x1, y1, x2, y2, hx, hy, fun p hp' => ⟨(hp p hp').2, (hp p hp').1⟩⟩
  intro w' hw'
  rcases List.mem_append.1 hw' with h | h
  · exact hmono _ (hsymm _ _ (hcross w' h _ (List.mem_cons_self ..)))
  · exact hmono _ ((List.pairwise_cons.1 hpost).1 w' h)

/-- C23: for an offset not above 0 (all offsets the router uses) the workers cover the die. -/
theorem c23_workers_cover_die (g : GGrid) (hf : g.Fits) (clip offset : Int)
    (hc : 0 < clip) (ho : -clip < offset) (ho' : offset ≤ 0) (pt : Point) (hp : g.die.Mem pt) :
    ∃ w ∈ genWorkers g clip offset, w.routeBox.Mem pt := by
  obtain ⟨c, _, hr, hm⟩ := c21_index_in_range_and_contains g hf pt
  obtain ⟨pre, w, post, he, hs, _⟩ := c23_gcell_in_exactly_one_worker g hf clip offset hc ho c hr
    (by have := hr.1; omega) (by have := hr.2.2.1; omega)
  exact ⟨w, by rw [he]; simp, hs _ (hm hp)⟩

/-- C23: the precondition `-clip < offset` matters: with clip 2 and offset -2 the first
two columns of workers both own GCell column 0. -/
theorem c23_offset_too_negative :
    ∃ a b, [a, b].Sublist (genWorkers exGrid 2 (-2)) ∧ ¬ NoInterior a.routeBox b.routeBox := by
  refine ⟨mkWorker exGrid 2 (-2) (-2) 0 0, mkWorker exGrid 2 (-2) 0 0 1, by decide, ?_⟩
  intro h
  exact h ⟨0, 0, 10, 10, by decide, by decide, by
    intro p hp
    have e1 : (mkWorker exGrid 2 (-2) (-2) 0 0).routeBox = ⟨⟨0, 0⟩, ⟨10, 10⟩⟩ := by decide
    have e2 : (mkWorker exGrid 2 (-2) 0 0 1).routeBox = ⟨⟨0, 0⟩, ⟨10, 20⟩⟩ := by decide
    rw [e1, e2]
    simp only [Box.Mem, InRect, Box.left, Box.right, Box.bottom, Box.top] at *
    omega⟩

example : (genWorkers exGrid 2 (-1)).length = 6 := by decide

/-- C24: each worker is put in exactly one batch (the batches hold the generated workers,
each once), and no batch is larger than the batch size. -/
theorem c24_batches_partition (batchSize : Nat) (hb : 1 ≤ batchSize) (g : GGrid)
    (clip offset : Int) :
    (batches batchSize g clip offset).flatten.flatten.Perm (genWorkers g clip offset) ∧
    ∀ colour ∈ batches batchSize g clip offset, ∀ batch ∈ colour, batch.length ≤ batchSize := by
  have h := batches_inv batchSize g clip offset
  exact ⟨h.perm, h.size hb⟩

/-- C24: two workers of one batch (indeed of one colour) have route boxes separated, along x
or along y, by at least one full clip. -/
theorem c24_batch_separated (batchSize : Nat) (g : GGrid) (hf : g.Fits) (clip offset : Int)
    (hc : 0 < clip) (ho : -clip < offset) :
    ∀ colour ∈ batches batchSize g clip offset, ∀ batch ∈ colour,
      batch.Pairwise (fun w w' =>
        (w.routeBox.right + g.xp.spacing * clip ≤ w'.routeBox.left ∨
         w'.routeBox.right + g.xp.spacing * clip ≤ w.routeBox.left) ∨
        (w.routeBox.top + g.yp.spacing * clip ≤ w'.routeBox.bottom ∨
         w'.routeBox.top + g.yp.spacing * clip ≤ w.routeBox.bottom)) := by
  intro colour hcol batch hbatch
  obtain ⟨ci, hci⟩ := List.mem_iff_getElem?.1 hcol
  have hflat := (batches_inv batchSize g clip offset).colour ci colour hci
  have hsub : batch.Sublist ((genWorkers g clip offset).filter (fun w => w.batchIdx == ci)) := by
    rw [← hflat]; exact List.sublist_flatten_of_mem hbatch
  have hord := ((genWorkers_order g clip offset).sublist List.filter_sublist).sublist hsub
  refine List.Pairwise.imp_of_mem ?_ hord
  intro a b ha hb hab
  have ha' := List.mem_filter.1 (hsub.subset ha)
  have hb' := List.mem_filter.1 (hsub.subset hb)
  obtain ⟨ha1, ha2⟩ := ha'
  obtain ⟨hb1, hb2⟩ := hb'
  rw [mem_genWorkers g clip offset hc] at ha1 hb1
  obtain ⟨k, l, hk, hl, rfl⟩ := ha1
  obtain ⟨k', l', hk', hl', rfl⟩ := hb1
  simp only [Worker.batchIdx, mkWorker, batchStepX, batchStepY, beq_iff_eq] at ha2 hb2 hab
  have p0 : ∀ m : Nat, offset ≤ offset + m * clip := fun m => by
    have := mul_clip_lt hc (k := 0) (k' := m) 0 (by omega) offset; simp at this; omega
  have q1 := p0 k; have q2 := p0 l; have q3 := p0 k'; have q4 := p0 l'
  rw [routeBox_eq hf hc (by omega) hk (by omega) hl, routeBox_eq hf hc (by omega) hk' (by omega) hl']
  simp only [Box.left, Box.right, Box.bottom, Box.top]
  rcases hab with h | ⟨_, h⟩
  · left; left
    have := mul_clip_lt hc (k := k) (k' := k') 2 (by omega) offset
    exact axisRoute_gap hf.1 hc (by omega) (by omega) hk'
  · right; left
    have := mul_clip_lt hc (k := l) (k' := l') 2 (by omega) offset
    exact axisRoute_gap hf.2 hc (by omega) (by omega) hl'

/-- C24: if a clip is wider than the working halo on both sides, the extended boxes of two
workers that run in parallel have no common point, nor do their DRC boxes. -/
theorem c24_extended_boxes_disjoint (batchSize : Nat) (g : GGrid) (hf : g.Fits)
    (clip offset : Int) (hc : 0 < clip) (ho : -clip < offset)
    (hwx : 2 * MTSAFEDIST < g.xp.spacing * clip) (hwy : 2 * MTSAFEDIST < g.yp.spacing * clip) :
    ∀ colour ∈ batches batchSize g clip offset, ∀ batch ∈ colour,
      batch.Pairwise (fun w w' => ¬ ∃ p, w.extBox.Mem p ∧ w'.extBox.Mem p) := by
  intro colour hcol batch hbatch
  have hmem : ∀ w ∈ batch, w.routeBox.Valid ∧ w.extBox = w.routeBox.bloat MTSAFEDIST := by
    intro w hw
    have h1 : w ∈ (batches batchSize g clip offset).flatten.flatten := by
      simp only [List.mem_flatten]; exact ⟨batch, ⟨colour, hcol, hbatch⟩, hw⟩
    have h2 := ((batches_inv batchSize g clip offset).perm.mem_iff).1 h1
    rw [mem_genWorkers g clip offset hc] at h2
    obtain ⟨k, l, hk, hl, rfl⟩ := h2
    refine ⟨?_, rfl⟩
    simp only [mkWorker, Box.Valid, Box.mk4_eq, Box.left, Box.right, Box.bottom, Box.top]; omega
  refine List.Pairwise.imp_of_mem ?_ (c24_batch_separated batchSize g hf clip offset hc ho colour hcol batch hbatch)
  intro a b ha hb hsep
  obtain ⟨va, ea⟩ := hmem a ha
  obtain ⟨vb, eb⟩ := hmem b hb
  rintro ⟨p, hp1, hp2⟩
  rw [ea] at hp1
  rw [eb] at hp2
  simp only [Box.bloat, Box.Mem, InRect, Box.mk4_eq, Box.Valid, Box.left, Box.right, Box.bottom,
    Box.top, MTSAFEDIST] at *
  omega

/-- A grid of 3000-wide GCells for which clips of 2 GCells exceed twice the halo. -/
def exGrid2 : GGrid :=
  { die := ⟨⟨0, 0⟩, ⟨27000, 27000⟩⟩, xp := ⟨0, 3000, 9⟩, yp := ⟨0, 3000, 9⟩ }

example : exGrid2.Fits ∧ 2 * MTSAFEDIST < exGrid2.xp.spacing * 2 ∧
    ((batches 4 exGrid2 2 (-1)).map (fun c => c.map List.length)) = [[4, 4, 1], [4, 2], [4, 2], [4]] := by
  refine ⟨?_, by decide, by decide⟩
  simp [GGrid.Fits, AxisFits, exGrid2, Box.left, Box.right, Box.bottom, Box.top]

/-- C46: horizontal track-assignment panels share no interior point and every GCell whose
row is at least the offset lies inside one of them. -/
theorem c46_ta_panels_h (g : GGrid) (hf : g.Fits) (size offset : Int) (hs : 0 < size)
    (ho : -size < offset) :
    (taPanelsH g size offset).Pairwise (fun a b => NoInterior a.2.1 b.2.1) ∧
    ∀ c, g.InRange c → offset ≤ c.y → ∃ a ∈ taPanelsH g size offset, BoxSubset (g.box c) a.2.1 := by
  have hnx := hf.1.2.1
  have hny := hf.2.2.1
  have hbox : ∀ i, -size < i → i < g.yp.count →
      Box.mk4 (g.box ⟨0, i⟩).left (g.box ⟨0, i⟩).bottom
        (g.box ⟨g.xp.count - 1, min (i + size - 1) (g.yp.count - 1)⟩).right
        (g.box ⟨g.xp.count - 1, min (i + size - 1) (g.yp.count - 1)⟩).top =
      ⟨⟨(gcellSpan g.xp g.die.left g.die.right 0).1, (axisRoute g.yp g.die.bottom g.die.top size i).1⟩,
       ⟨(gcellSpan g.xp g.die.left g.die.right (g.xp.count - 1)).2,
        (axisRoute g.yp g.die.bottom g.die.top size i).2⟩⟩ := by
    intro i hi hi'
    have r1 : g.InRange ⟨max 0 (min 0 (g.xp.count - 1)), max 0 (min i (g.yp.count - 1))⟩ := by
      simp only [GGrid.InRange]; omega
    have r2 : g.InRange ⟨max 0 (min (g.xp.count - 1) (g.xp.count - 1)),
        max 0 (min (min (i + size - 1) (g.yp.count - 1)) (g.yp.count - 1))⟩ := by
      simp only [GGrid.InRange]; omega
    rw [box_clamp hf ⟨0, i⟩, box_clamp hf ⟨g.xp.count - 1, _⟩, box_eq hf r1, box_eq hf r2]
    have e1 : max 0 (min 0 (g.xp.count - 1)) = 0 := by omega
    have e2 : max 0 (min i (g.yp.count - 1)) = max 0 i := by omega
    have e3 : max 0 (min (g.xp.count - 1) (g.xp.count - 1)) = g.xp.count - 1 := by omega
    have e4 : max 0 (min (min (i + size - 1) (g.yp.count - 1)) (g.yp.count - 1)) =
      min (g.yp.count - 1) (i + size - 1) := by omega
    have hx := span_lt hf.1 (i := 0) (j := g.xp.count - 1) (by omega) (by omega) (by omega)
    have hy := span_lt hf.2 (i := max 0 i) (j := min (g.yp.count - 1) (i + size - 1))
      (by omega) (by omega) (by omega)
    simp only [e1, e2, e3, e4, axisRoute, Box.left, Box.right, Box.bottom, Box.top, Box.mk4_eq,
      Box.mk.injEq, Point.mk.injEq] at hx hy ⊢
    omega
  have hpos : ∀ i ∈ loopFrom g.yp.count size offset, -size < i ∧ i < g.yp.count := by
    intro i hi
    rw [mem_loopFrom _ _ _ _ hs] at hi
    obtain ⟨k, rfl, h⟩ := hi
    have : 0 ≤ (k : Int) * size := Int.mul_nonneg (by omega) (by omega)
    omega
  constructor
  · simp only [taPanelsH, List.pairwise_map]
    refine List.Pairwise.imp_of_mem ?_ (loopFrom_pairwise g.yp.count size offset hs)
    intro a b ha hb hab
    obtain ⟨a1, a2⟩ := hpos a ha
    obtain ⟨b1, b2⟩ := hpos b hb
    rw [hbox a a1 a2, hbox b b1 b2]
    have hd := axisRoute_disjoint hf.2 a1 hab b2
    apply noInterior_of
    right; right; left
    exact hd
  · intro c hc hy
    obtain ⟨i, hi, _, h1, h2⟩ := loop_owner hs hy hc.2.2.2
    obtain ⟨a1, a2⟩ := hpos i hi
    refine ⟨_, List.mem_map_of_mem hi, ?_⟩
    simp only
    rw [hbox i a1 a2, box_eq hf hc]
    obtain ⟨c0, c1, c2, c3⟩ := hc
    intro p hp
    obtain ⟨h3, h4, h5, h6⟩ := hp
    have x1 := span_lo_mono hf.1 (i := 0) (j := c.x) (by omega) c0 c1
    have x2 := span_hi_mono hf.1 (i := c.x) (j := g.xp.count - 1) c0 (by omega) (by omega)
    have y1 := span_lo_mono hf.2 (i := max 0 i) (j := c.y) (by omega) (by omega) c3
    have y2 := span_hi_mono hf.2 (i := c.y) (j := min (g.yp.count - 1) (i + size - 1)) c2
      (by omega) (by omega)
    exact ⟨Int.le_trans x1 h3, Int.le_trans h4 x2, Int.le_trans y1 h5, Int.le_trans h6 y2⟩

/-- C46: the same for vertical panels. -/
theorem c46_ta_panels_v (g : GGrid) (hf : g.Fits) (size offset : Int) (hs : 0 < size)
    (ho : -size < offset) :
    (taPanelsV g size offset).Pairwise (fun a b => NoInterior a.2.1 b.2.1) ∧
    ∀ c, g.InRange c → offset ≤ c.x → ∃ a ∈ taPanelsV g size offset, BoxSubset (g.box c) a.2.1 := by
  have hnx := hf.1.2.1
  have hny := hf.2.2.1
  have hbox : ∀ i, -size < i → i < g.xp.count →
      Box.mk4 (g.box ⟨i, 0⟩).left (g.box ⟨i, 0⟩).bottom
        (g.box ⟨min (i + size - 1) (g.xp.count - 1), g.yp.count - 1⟩).right
        (g.box ⟨min (i + size - 1) (g.xp.count - 1), g.yp.count - 1⟩).top =
      ⟨⟨(axisRoute g.xp g.die.left g.die.right size i).1, (gcellSpan g.yp g.die.bottom g.die.top 0).1⟩,
       ⟨(axisRoute g.xp g.die.left g.die.right size i).2,
        (gcellSpan g.yp g.die.bottom g.die.top (g.yp.count - 1)).2⟩⟩ := by
    intro i hi hi'
    have r1 : g.InRange ⟨max 0 (min i (g.xp.count - 1)), max 0 (min 0 (g.yp.count - 1))⟩ := by
      simp only [GGrid.InRange]; omega
    have r2 : g.InRange ⟨max 0 (min (min (i + size - 1) (g.xp.count - 1)) (g.xp.count - 1)),
        max 0 (min (g.yp.count - 1) (g.yp.count - 1))⟩ := by
      simp only [GGrid.InRange]; omega
    rw [box_clamp hf ⟨i, 0⟩, box_clamp hf ⟨_, g.yp.count - 1⟩, box_eq hf r1, box_eq hf r2]
    have e1 : max 0 (min 0 (g.yp.count - 1)) = 0 := by omega
    have e2 : max 0 (min i (g.xp.count - 1)) = max 0 i := by omega
    have e3 : max 0 (min (g.yp.count - 1) (g.yp.count - 1)) = g.yp.count - 1 := by omega
    have e4 : max 0 (min (min (i + size - 1) (g.xp.count - 1)) (g.xp.count - 1)) =
      min (g.xp.count - 1) (i + size - 1) := by omega
    have hx := span_lt hf.2 (i := 0) (j := g.yp.count - 1) (by omega) (by omega) (by omega)
    have hy := span_lt hf.1 (i := max 0 i) (j := min (g.xp.count - 1) (i + size - 1))
      (by omega) (by omega) (by omega)
    simp only [e1, e2, e3, e4, axisRoute, Box.left, Box.right, Box.bottom, Box.top, Box.mk4_eq,
      Box.mk.injEq, Point.mk.injEq] at hx hy ⊢
    omega
  have hpos : ∀ i ∈ loopFrom g.xp.count size offset, -size < i ∧ i < g.xp.count := by
    intro i hi
    rw [mem_loopFrom _ _ _ _ hs] at hi
    obtain ⟨k, rfl, h⟩ := hi
    have : 0 ≤ (k : Int) * size := Int.mul_nonneg (by omega) (by omega)
    omega
  constructor
  · simp only [taPanelsV, List.pairwise_map]
    refine List.Pairwise.imp_of_mem ?_ (loopFrom_pairwise g.xp.count size offset hs)
    intro a b ha hb hab
    obtain ⟨a1, a2⟩ := hpos a ha
    obtain ⟨b1, b2⟩ := hpos b hb
    rw [hbox a a1 a2, hbox b b1 b2]
    have hd := axisRoute_disjoint hf.1 a1 hab b2
    apply noInterior_of
    left
    exact hd
  · intro c hc hx
    obtain ⟨i, hi, _, h1, h2⟩ := loop_owner hs hx hc.2.1
    obtain ⟨a1, a2⟩ := hpos i hi
    refine ⟨_, List.mem_map_of_mem hi, ?_⟩
    simp only
    rw [hbox i a1 a2, box_eq hf hc]
    obtain ⟨c0, c1, c2, c3⟩ := hc
    intro p hp
    obtain ⟨h3, h4, h5, h6⟩ := hp
    have x1 := span_lo_mono hf.2 (i := 0) (j := c.y) (by omega) c2 c3
    have x2 := span_hi_mono hf.2 (i := c.y) (j := g.yp.count - 1) c2 (by omega) (by omega)
    have y1 := span_lo_mono hf.1 (i := max 0 i) (j := c.x) (by omega) (by omega) c1
    have y2 := span_hi_mono hf.1 (i := c.x) (j := min (g.xp.count - 1) (i + size - 1)) c0
      (by omega) (by omega)
    exact ⟨Int.le_trans y1 h3, Int.le_trans h4 y2, Int.le_trans x1 h5, Int.le_trans h6 x2⟩

example : (taPanelsH exGrid 2 0).map (fun a => a.2.1) =
    [⟨⟨0, 0⟩, ⟨53, 20⟩⟩, ⟨⟨0, 20⟩, ⟨53, 35⟩⟩] := by decide

end TR
