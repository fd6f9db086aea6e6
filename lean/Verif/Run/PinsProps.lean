import Verif.Run.PinsLemmas
namespace TR

theorem die_mem {g : GGrid} {p : Point} : g.die.Mem p ↔ g.die.left ≤ p.x ∧ p.x ≤ g.die.right ∧ g.die.bottom ≤ p.y ∧ p.y ≤ g.die.top := by
  simp [Box.Mem, InRect]; try omega

theorem not_dummy {g : GGrid} {w : TWire} (h : w.Ok g) : w.dummy = false ↔ w.Horz ∨ w.Vert := by
  unfold TWire.dummy TWire.Horz TWire.Vert
  rcases h.2 with ⟨h1, h2⟩ | ⟨h1, h2⟩ <;> simp <;> omega

theorem idx_some {g : GGrid} {p : Point} {x y : Int} (h1 : gcellIdx1 g.xp p.x = some x) (h2 : gcellIdx1 g.yp p.y = some y) :
    g.idx p = some ⟨x, y⟩ := by simp [GGrid.idx, h1, h2]

theorem mem_wirePins_h {g : GGrid} (hf : g.Fits) {w : TWire} (hd : w.InDie g) (hh : w.Horz) {l : List (Point × Point)} (hl : wirePins g w = some l)
    {x y : Int} {p : Point} : (⟨x, y⟩, p) ∈ l ↔ gcellIdx1 g.yp w.b.y = some y ∧ p.y = w.b.y ∧
      AxisPin g.xp g.die.left g.die.right w.b.x w.e.x x p.x := by
  obtain ⟨d1, d2⟩ := hd
  rw [die_mem] at d1 d2
  obtain ⟨x1, ex1, x10, x11, _⟩ := gcellIdx1_iff hf.1 (c := w.b.x) d1.1 d1.2.1
  obtain ⟨x2, ex2, x20, x21, _⟩ := gcellIdx1_iff hf.1 (c := w.e.x) d2.1 d2.2.1
  obtain ⟨y1, ey1, y10, y11, _⟩ := gcellIdx1_iff hf.2 (c := w.b.y) d1.2.2.1 d1.2.2.2
  obtain ⟨y2, ey2, _⟩ := gcellIdx1_iff hf.2 (c := w.e.y) d2.2.2.1 d2.2.2.2
  have hnd : w.dummy = false := (not_dummy (g := g) ⟨⟨by rw [die_mem]; exact d1, by rw [die_mem]; exact d2⟩, .inl ⟨hh.1, by have := hh.2; omega⟩⟩).2 (.inl hh)
  unfold wirePins at hl
  rw [hnd, idx_some ex1 ey1, idx_some ex2 ey2] at hl
  simp only [Bool.false_eq_true, if_false, hh.1, if_true, Option.some.injEq] at hl
  subst hl
  simp only [List.mem_flatMap, mem_intsFrom, List.mem_append]
  unfold AxisPin
  rw [hh.1] at ey1
  rw [hh.1]
  have key : ∀ k, x1 ≤ k → k ≤ x2 → (g.box ⟨k, y1⟩).left = (gcellSpan g.xp g.die.left g.die.right k).1 ∧
      (g.box ⟨k, y1⟩).right = (gcellSpan g.xp g.die.left g.die.right k).2 := by
    intro k k1 k2
    rw [box_eq hf (c := ⟨k, y1⟩) ⟨by dsimp only; omega, by dsimp only; omega, y10, y11⟩]
    exact ⟨rfl, rfl⟩
  constructor
  · rintro ⟨k, ⟨k1, k2⟩, hm⟩
    obtain ⟨ka, kb⟩ := key k k1 (by omega)
    rw [ka, kb] at hm
    rcases hm with hm | hm
    · split at hm
      · rename_i hlt
        simp only [List.mem_singleton, Prod.mk.injEq, Point.mk.injEq] at hm
        obtain ⟨⟨rfl, rfl⟩, hp⟩ := hm
        subst hp
        exact ⟨ey1, rfl, x1, x2, ex1, ex2, k1, by omega, .inl ⟨rfl, hlt⟩⟩
      · cases hm
    · split at hm
      · rename_i hge
        simp only [List.mem_singleton, Prod.mk.injEq, Point.mk.injEq] at hm
        obtain ⟨⟨rfl, rfl⟩, hp⟩ := hm
        subst hp
        exact ⟨ey1, rfl, x1, x2, ex1, ex2, k1, by omega, .inr ⟨rfl, hge⟩⟩
      · cases hm
  · rintro ⟨hy, hp, x1', x2', e1, e2, k1, k2, hcase⟩
    rw [ex1] at e1; cases e1
    rw [ex2] at e2; cases e2
    rw [ey1] at hy; cases hy
    obtain ⟨ka, kb⟩ := key x k1 k2
    refine ⟨x, ⟨k1, by omega⟩, ?_⟩
    rw [ka, kb]
    obtain ⟨px, py⟩ := p
    dsimp only at hp hcase ⊢
    subst hp
    rcases hcase with ⟨rfl, hb⟩ | ⟨rfl, he⟩
    · left; rw [if_pos hb]; simp
    · right; rw [if_pos he]; simp

theorem mem_wirePins_v {g : GGrid} (hf : g.Fits) {w : TWire} (hd : w.InDie g) (hh : w.Vert) {l : List (Point × Point)} (hl : wirePins g w = some l)
    {x y : Int} {p : Point} : (⟨x, y⟩, p) ∈ l ↔ gcellIdx1 g.xp w.b.x = some x ∧ p.x = w.b.x ∧
      AxisPin g.yp g.die.bottom g.die.top w.b.y w.e.y y p.y := by
  obtain ⟨d1, d2⟩ := hd
  rw [die_mem] at d1 d2
  obtain ⟨x1, ex1, x10, x11, _⟩ := gcellIdx1_iff hf.1 (c := w.b.x) d1.1 d1.2.1
  obtain ⟨x2, ex2, _⟩ := gcellIdx1_iff hf.1 (c := w.e.x) d2.1 d2.2.1
  obtain ⟨y1, ey1, y10, y11, _⟩ := gcellIdx1_iff hf.2 (c := w.b.y) d1.2.2.1 d1.2.2.2
  obtain ⟨y2, ey2, y20, y21, _⟩ := gcellIdx1_iff hf.2 (c := w.e.y) d2.2.2.1 d2.2.2.2
  have hnd : w.dummy = false := (not_dummy (g := g) ⟨⟨by rw [die_mem]; exact d1, by rw [die_mem]; exact d2⟩, .inr ⟨hh.1, by have := hh.2; omega⟩⟩).2 (.inr hh)
  have hne : w.b.y ≠ w.e.y := by have := hh.2; omega
  unfold wirePins at hl
  rw [hnd, idx_some ex1 ey1, idx_some ex2 ey2] at hl
  simp only [Bool.false_eq_true, if_false, hne, hh.1, if_true, Option.some.injEq] at hl
  subst hl
  simp only [List.mem_flatMap, mem_intsFrom, List.mem_append]
  unfold AxisPin
  rw [hh.1] at ex1
  rw [hh.1]
  have key : ∀ k, y1 ≤ k → k ≤ y2 → (g.box ⟨x1, k⟩).bottom = (gcellSpan g.yp g.die.bottom g.die.top k).1 ∧
      (g.box ⟨x1, k⟩).top = (gcellSpan g.yp g.die.bottom g.die.top k).2 := by
    intro k k1 k2
    rw [box_eq hf (c := ⟨x1, k⟩) ⟨x10, x11, by dsimp only; omega, by dsimp only; omega⟩]
    exact ⟨rfl, rfl⟩
  constructor
  · rintro ⟨k, ⟨k1, k2⟩, hm⟩
    obtain ⟨ka, kb⟩ := key k k1 (by omega)
    rw [ka, kb] at hm
    rcases hm with hm | hm
    · split at hm
      · rename_i hlt
        simp only [List.mem_singleton, Prod.mk.injEq, Point.mk.injEq] at hm
        obtain ⟨⟨rfl, rfl⟩, hp⟩ := hm
        subst hp
        exact ⟨ex1, rfl, y1, y2, ey1, ey2, k1, by omega, .inl ⟨rfl, hlt⟩⟩
      · cases hm
    · split at hm
      · rename_i hge
        simp only [List.mem_singleton, Prod.mk.injEq, Point.mk.injEq] at hm
        obtain ⟨⟨rfl, rfl⟩, hp⟩ := hm
        subst hp
        exact ⟨ex1, rfl, y1, y2, ey1, ey2, k1, by omega, .inr ⟨rfl, hge⟩⟩
      · cases hm
  · rintro ⟨hy, hp, x1', x2', e1, e2, k1, k2, hcase⟩
    rw [ey1] at e1; cases e1
    rw [ey2] at e2; cases e2
    rw [ex1] at hy; cases hy
    obtain ⟨ka, kb⟩ := key y k1 k2
    refine ⟨y, ⟨k1, by omega⟩, ?_⟩
    rw [ka, kb]
    obtain ⟨px, py⟩ := p
    dsimp only at hp hcase ⊢
    subst hp
    rcases hcase with ⟨rfl, hb⟩ | ⟨rfl, he⟩
    · left; rw [if_pos hb]; simp
    · right; rw [if_pos he]; simp

theorem lineX_iff {g : GGrid} (hf : g.Fits) (c : Int) : LineX g c ↔ AxisLine g.xp g.die.left g.die.right c := by
  have hy := hf.2.2.1
  unfold LineX AxisLine
  apply exists_congr; intro k
  constructor
  · rintro ⟨h0, h1, h⟩
    rw [box_eq hf (c := ⟨k, 0⟩) ⟨h0, h1, Int.le_refl 0, hy⟩] at h
    exact ⟨h0, h1, h⟩
  · rintro ⟨h0, h1, h⟩
    rw [box_eq hf (c := ⟨k, 0⟩) ⟨h0, h1, Int.le_refl 0, hy⟩]
    exact ⟨h0, h1, h⟩

theorem lineY_iff {g : GGrid} (hf : g.Fits) (c : Int) : LineY g c ↔ AxisLine g.yp g.die.bottom g.die.top c := by
  have hy := hf.1.2.1
  unfold LineY AxisLine
  apply exists_congr; intro k
  constructor
  · rintro ⟨h0, h1, h⟩
    rw [box_eq hf (c := ⟨0, k⟩) ⟨Int.le_refl 0, hy, h0, h1⟩] at h
    exact ⟨h0, h1, h⟩
  · rintro ⟨h0, h1, h⟩
    rw [box_eq hf (c := ⟨0, k⟩) ⟨Int.le_refl 0, hy, h0, h1⟩]
    exact ⟨h0, h1, h⟩

/-- a worker of the first iteration -/
theorem first_worker {g : GGrid} (hf : g.Fits) {clip : Int} (hc : 0 < clip) {W : Worker} (hW : W ∈ genWorkers g clip 0) :
    ∃ k l : Nat, W.i = k * clip ∧ W.j = l * clip ∧ 0 ≤ W.i ∧ W.i < g.xp.count ∧ 0 ≤ W.j ∧ W.j < g.yp.count ∧
      W.routeBox = ⟨⟨(axisRoute g.xp g.die.left g.die.right clip W.i).1, (axisRoute g.yp g.die.bottom g.die.top clip W.j).1⟩,
        ⟨(axisRoute g.xp g.die.left g.die.right clip W.i).2, (axisRoute g.yp g.die.bottom g.die.top clip W.j).2⟩⟩ := by
  obtain ⟨k, l, h1, h2, rfl⟩ := (mem_genWorkers g clip 0 hc W).1 hW
  have a1 : (0 : Int) ≤ k * clip := Int.mul_nonneg (by omega) (by omega)
  have a2 : (0 : Int) ≤ l * clip := Int.mul_nonneg (by omega) (by omega)
  refine ⟨k, l, by simp [mkWorker], by simp [mkWorker], by simp only [mkWorker]; omega, by simp only [mkWorker]; omega,
    by simp only [mkWorker]; omega, by simp only [mkWorker]; omega, ?_⟩
  rw [routeBox_eq hf hc (by omega) h1 (by omega) h2]
  simp [mkWorker]

/-- the border of a region consists of lines -/
theorem axisRoute_line {p : GCellPat} {dl dh : Int} {clip i : Int} (hc : 0 < clip) (h0 : 0 ≤ i) (h1 : i < p.count) :
    AxisLine p dl dh (axisRoute p dl dh clip i).1 ∧ AxisLine p dl dh (axisRoute p dl dh clip i).2 := by
  unfold AxisLine axisRoute
  dsimp only
  constructor
  · exact ⟨max 0 i, by omega, by omega, Or.inl rfl⟩
  · exact ⟨min (p.count - 1) (i + clip - 1), by omega, by omega, Or.inr rfl⟩

theorem axisRoute_lt {p : GCellPat} {dl dh : Int} (hf : AxisFits p dl dh) {clip i : Int} (hc : 0 < clip) (h0 : 0 ≤ i) (h1 : i < p.count) :
    (axisRoute p dl dh clip i).1 < (axisRoute p dl dh clip i).2 := by
  unfold axisRoute
  dsimp only
  exact span_lt hf (i := max 0 i) (j := min (p.count - 1) (i + clip - 1)) (by omega) (by omega) (by omega)

/-- C109: the boundary pins that a worker of the first iteration gets for a net are exactly the points where the assigned wires of the
net that belong to the region reach its border, and, for wires along the border, the lines of GCells they reach -/
theorem c109_boundary_pins {g : GGrid} (hf : g.Fits) {clip : Int} (hc : 0 < clip) {ws : List TWire} (hws : ∀ w ∈ ws, w.Ok g) :
    ∃ pins, cellPins g ws = some pins ∧ ∀ W ∈ genWorkers g clip 0, ∀ net p l,
      (p, l) ∈ workerPins g pins clip W net ↔ ∃ w ∈ ws, w.net = net ∧ w.layer = l ∧ (PinH g W.routeBox w p ∨ PinV g W.routeBox w p) := by
  obtain ⟨pins, hp⟩ := cellPins_some hf ws
  refine ⟨pins, hp, fun W hW net p l => ?_⟩
  obtain ⟨_, _, _, _, i0, i1, j0, j1, hrb⟩ := first_worker hf hc hW
  unfold workerPins
  rw [mem_mergePins]
  have hx1 := axisRoute_line (p := g.xp) (dl := g.die.left) (dh := g.die.right) hc i0 i1
  have hy1 := axisRoute_line (p := g.yp) (dl := g.die.bottom) (dh := g.die.top) hc j0 j1
  have hxl := axisRoute_lt hf.1 hc i0 i1
  have hyl := axisRoute_lt hf.2 hc j0 j1
  have horz : ∀ w ∈ ws, w.Horz → ∀ ls, wirePins g w = some ls →
      (((∃ x y, W.i ≤ x ∧ x < min g.xp.count (W.i + clip) ∧ W.j ≤ y ∧ y < min g.yp.count (W.j + clip) ∧ (⟨x, y⟩, p) ∈ ls) ∧
        (p.x = W.routeBox.left ∨ p.x = W.routeBox.right ∨ p.y = W.routeBox.bottom ∨ p.y = W.routeBox.top)) ↔ PinH g W.routeBox w p) := by
    intro w hw hh ls hls
    obtain ⟨d1, d2⟩ := (hws w hw).1
    have d1' := die_mem.1 d1
    have d2' := die_mem.1 d2
    have hhl := hh.2
    have hown := axis_owns hf.2 (c := w.b.y) d1'.2.2.1 d1'.2.2.2 hc j0 j1
    have hpin := axis_pins hf.1 (b := w.b.x) (e := w.e.x) d1'.1 (by omega) d2'.2.1 hc i0 i1 p.x
    unfold PinH TWire.ReachesH OwnsY
    rw [lineX_iff hf, hrb]
    simp only [Box.left, Box.right, Box.bottom, Box.top]
    simp only [Box.left, Box.right, Box.bottom, Box.top] at hown hpin hxl hyl hx1 hy1
    constructor
    · rintro ⟨⟨x, y, a, b, c, d, hm⟩, hb⟩
      obtain ⟨m1, m2, m3⟩ := (mem_wirePins_h hf (hws w hw).1 hh hls).1 hm
      have o := hown.1 ⟨y, m1, c, d⟩
      have q := hpin.1 ⟨x, a, b, m3⟩
      rw [← m2] at o
      refine ⟨⟨hh, m2, q.1, q.2.1⟩, o, ?_⟩
      rcases hb with hb | hb | hb | hb
      · exact .inl hb
      · exact .inr (.inl hb)
      · exact .inr (.inr ⟨.inl hb, q.2.2⟩)
      · exact .inr (.inr ⟨.inr hb, q.2.2⟩)
    · rintro ⟨⟨_, m2, r1, r2⟩, o, hb⟩
      rw [m2] at o
      obtain ⟨y, m1, c, d⟩ := hown.2 o
      have hq : (axisRoute g.xp g.die.left g.die.right clip W.i).1 ≤ p.x ∧ p.x ≤ (axisRoute g.xp g.die.left g.die.right clip W.i).2 ∧
          AxisLine g.xp g.die.left g.die.right p.x := by
        rcases hb with hb | hb | ⟨_, hb⟩
        · rw [hb]; exact ⟨Int.le_refl _, Int.le_of_lt hxl, hx1.1⟩
        · rw [hb]; exact ⟨Int.le_of_lt hxl, Int.le_refl _, hx1.2⟩
        · exact hb
      obtain ⟨x, a, b, m3⟩ := hpin.2 ⟨r1, r2, hq⟩
      refine ⟨⟨x, y, a, b, c, d, (mem_wirePins_h hf (hws w hw).1 hh hls).2 ⟨m1, m2, m3⟩⟩, ?_⟩
      rcases hb with hb | hb | ⟨hb | hb, _⟩
      · exact .inl hb
      · exact .inr (.inl hb)
      · exact .inr (.inr (.inl hb))
      · exact .inr (.inr (.inr hb))
  have vert : ∀ w ∈ ws, w.Vert → ∀ ls, wirePins g w = some ls →
      (((∃ x y, W.i ≤ x ∧ x < min g.xp.count (W.i + clip) ∧ W.j ≤ y ∧ y < min g.yp.count (W.j + clip) ∧ (⟨x, y⟩, p) ∈ ls) ∧
        (p.x = W.routeBox.left ∨ p.x = W.routeBox.right ∨ p.y = W.routeBox.bottom ∨ p.y = W.routeBox.top)) ↔ PinV g W.routeBox w p) := by
    intro w hw hh ls hls
    obtain ⟨d1, d2⟩ := (hws w hw).1
    have d1' := die_mem.1 d1
    have d2' := die_mem.1 d2
    have hhl := hh.2
    have hown := axis_owns hf.1 (c := w.b.x) d1'.1 d1'.2.1 hc i0 i1
    have hpin := axis_pins hf.2 (b := w.b.y) (e := w.e.y) d1'.2.2.1 (by omega) d2'.2.2.2 hc j0 j1 p.y
    unfold PinV TWire.ReachesV OwnsX
    rw [lineY_iff hf, hrb]
    simp only [Box.left, Box.right, Box.bottom, Box.top]
    simp only [Box.left, Box.right, Box.bottom, Box.top] at hown hpin hxl hyl hx1 hy1
    constructor
    · rintro ⟨⟨x, y, a, b, c, d, hm⟩, hb⟩
      obtain ⟨m1, m2, m3⟩ := (mem_wirePins_v hf (hws w hw).1 hh hls).1 hm
      have o := hown.1 ⟨x, m1, a, b⟩
      have q := hpin.1 ⟨y, c, d, m3⟩
      rw [← m2] at o
      refine ⟨⟨hh, m2, q.1, q.2.1⟩, o, ?_⟩
      rcases hb with hb | hb | hb | hb
      · exact .inr (.inr ⟨.inl hb, q.2.2⟩)
      · exact .inr (.inr ⟨.inr hb, q.2.2⟩)
      · exact .inl hb
      · exact .inr (.inl hb)
    · rintro ⟨⟨_, m2, r1, r2⟩, o, hb⟩
      rw [m2] at o
      obtain ⟨x, m1, a, b⟩ := hown.2 o
      have hq : (axisRoute g.yp g.die.bottom g.die.top clip W.j).1 ≤ p.y ∧ p.y ≤ (axisRoute g.yp g.die.bottom g.die.top clip W.j).2 ∧
          AxisLine g.yp g.die.bottom g.die.top p.y := by
        rcases hb with hb | hb | ⟨_, hb⟩
        · rw [hb]; exact ⟨Int.le_refl _, Int.le_of_lt hyl, hy1.1⟩
        · rw [hb]; exact ⟨Int.le_of_lt hyl, Int.le_refl _, hy1.2⟩
        · exact hb
      obtain ⟨y, c, d, m3⟩ := hpin.2 ⟨r1, r2, hq⟩
      refine ⟨⟨x, y, a, b, c, d, (mem_wirePins_v hf (hws w hw).1 hh hls).2 ⟨m1, m2, m3⟩⟩, ?_⟩
      rcases hb with hb | hb | ⟨hb | hb, _⟩
      · exact .inr (.inr (.inl hb))
      · exact .inr (.inr (.inr hb))
      · exact .inl hb
      · exact .inr (.inl hb)
  constructor
  · rintro ⟨⟨x, y, a, b, c, d, hm⟩, hb⟩
    obtain ⟨w, hw, ls, hls, hin, hn, hla⟩ := (mem_cellPins hp _).1 hm
    dsimp only at hin hn hla
    refine ⟨w, hw, hn.symm, hla.symm, ?_⟩
    by_cases hd : w.dummy = true
    · unfold wirePins at hls
      rw [if_pos hd] at hls
      cases hls; cases hin
    · rcases (not_dummy (hws w hw)).1 (by simpa using hd) with hh | hv
      · exact .inl ((horz w hw hh ls hls).1 ⟨⟨x, y, a, b, c, d, hin⟩, hb⟩)
      · exact .inr ((vert w hw hv ls hls).1 ⟨⟨x, y, a, b, c, d, hin⟩, hb⟩)
  · rintro ⟨w, hw, rfl, rfl, hcase⟩
    have hls : ∃ ls, wirePins g w = some ls := by
      have := cellPins_some hf [w]
      obtain ⟨q, hq⟩ := this
      unfold cellPins at hq
      split at hq
      · cases hq
      · exact ⟨_, by assumption⟩
    obtain ⟨ls, hls⟩ := hls
    have hfin : ((∃ x y, W.i ≤ x ∧ x < min g.xp.count (W.i + clip) ∧ W.j ≤ y ∧ y < min g.yp.count (W.j + clip) ∧ (⟨x, y⟩, p) ∈ ls) ∧
        (p.x = W.routeBox.left ∨ p.x = W.routeBox.right ∨ p.y = W.routeBox.bottom ∨ p.y = W.routeBox.top)) := by
      rcases hcase with h | h
      · exact (horz w hw h.1.1 ls hls).2 h
      · exact (vert w hw h.1.1 ls hls).2 h
    obtain ⟨⟨x, y, a, b, c, d, hin⟩, hb⟩ := hfin
    exact ⟨⟨x, y, a, b, c, d, (mem_cellPins hp _).2 ⟨w, hw, ls, hls, hin, rfl, rfl⟩⟩, hb⟩

end TR
