import Verif.PinCell.Lemmas
/-! C148 – C150: the GCells of terminals and the guides around access points. -/
namespace TR

/-- the entries of a rectangle; and the GCell of its lower left corner is one of them -/
theorem rectCells_spec (T : PcTech) (hf : T.grid.Fits) (l : Int) (b : Box) (hb : T.Reaches b) :
    ∃ ns, rectCells T (l, b) = some ns ∧
      (∀ n, n ∈ ns ↔ n.layer = l ∧ T.grid.InRange n.pt ∧ BoxesMeet (T.grid.box n.pt) b ∧ ¬ T.OnlyTouches l n.pt b) ∧
      ∃ n, n ∈ ns ∧ T.grid.idx b.ll = some n.pt := by
  obtain ⟨o1, o2, b1, b2, b3, b4⟩ := hb
  obtain ⟨xa, xb, xt, ex1, ex2, ex3, xa0, xb1, xt0, xt1, xo, _⟩ := axis_cells (i := 0) hf.1 b1 b2 (by omega) hf.1.2.1
  obtain ⟨ya, yb, yt, ey1, ey2, ey3, ya0, yb1, yt0, yt1, yo, _⟩ := axis_cells (i := 0) hf.2 b3 b4 (by omega) hf.2.2.1
  have i1 : T.grid.idx ⟨b.left - 1, b.bottom - 1⟩ = some ⟨xa, ya⟩ := by simp only [GGrid.idx, ex1, ey1]
  have i2 : T.grid.idx b.ur = some ⟨xb, yb⟩ := by
    have u : gcellIdx1 T.grid.xp b.ur.x = some xb := ex2
    have v : gcellIdx1 T.grid.yp b.ur.y = some yb := ey2
    simp only [GGrid.idx, u, v]
  have i3 : T.grid.idx b.ll = some ⟨xt, yt⟩ := by
    have u : gcellIdx1 T.grid.xp b.ll.x = some xt := ex3
    have v : gcellIdx1 T.grid.yp b.ll.y = some yt := ey3
    simp only [GGrid.idx, u, v]
  have key : ∀ n : Node, (n ∈ (intRange xa xb).flatMap fun x => (intRange ya yb).filterMap fun y =>
      if leftOut T l b (T.grid.box ⟨xt, yt⟩) ⟨xt, yt⟩ x y then none else some (⟨⟨x, y⟩, l⟩ : Node)) ↔
      n.layer = l ∧ T.grid.InRange n.pt ∧ BoxesMeet (T.grid.box n.pt) b ∧ ¬ T.OnlyTouches l n.pt b := by
    rintro ⟨⟨x, y⟩, l'⟩
    have m : (⟨⟨x, y⟩, l'⟩ : Node) ∈ ((intRange xa xb).flatMap fun x => (intRange ya yb).filterMap fun y =>
        if leftOut T l b (T.grid.box ⟨xt, yt⟩) ⟨xt, yt⟩ x y then none else some (⟨⟨x, y⟩, l⟩ : Node)) ↔
        l' = l ∧ (xa ≤ x ∧ x ≤ xb) ∧ (ya ≤ y ∧ y ≤ yb) ∧ leftOut T l b (T.grid.box ⟨xt, yt⟩) ⟨xt, yt⟩ x y = false := by
      simp only [List.mem_flatMap, List.mem_filterMap, mem_intRange]
      constructor
      · rintro ⟨x', hx, y', hy, h⟩
        split at h
        · cases h
        · next q => cases h; exact ⟨rfl, hx, hy, by simpa using q⟩
      · rintro ⟨rfl, hx, hy, q⟩
        exact ⟨x, hx, y, hy, by rw [q]; rfl⟩
    rw [m]
    have hin : T.grid.InRange ⟨xt, yt⟩ := ⟨xt0, xt1, yt0, yt1⟩
    constructor
    · rintro ⟨rfl, hx, hy, q⟩
      have hr : T.grid.InRange ⟨x, y⟩ := ⟨by dsimp only; omega, by dsimp only; omega, by dsimp only; omega, by dsimp only; omega⟩
      obtain ⟨_, _, _, f1, f2, f3, _, _, _, _, _, xm, xc⟩ := axis_cells (i := x) hf.1 b1 b2 hr.1 hr.2.1
      obtain ⟨_, _, _, g1, g2, g3, _, _, _, _, _, ym, yc⟩ := axis_cells (i := y) hf.2 b3 b4 hr.2.2.1 hr.2.2.2
      rw [ex1] at f1; rw [ex2] at f2; rw [ex3] at f3
      rw [ey1] at g1; rw [ey2] at g2; rw [ey3] at g3
      cases f1; cases f2; cases f3; cases g1; cases g2; cases g3
      refine ⟨rfl, hr, ?_, ?_⟩
      · have a1 := xm.1 hx
        have a2 := ym.1 hy
        unfold BoxesMeet
        rw [box_eq hf hr]
        exact ⟨a1.1, a1.2, a2.1, a2.2⟩
      · unfold PcTech.OnlyTouches
        unfold leftOut atCorner atSide at q
        rw [box_eq hf hin] at q
        rw [box_eq hf hr]
        simp only [Box.left, Box.right, Box.bottom, Box.top] at q xc yc ⊢
        rintro (⟨z1, z2⟩ | ⟨np, ⟨d, z⟩ | ⟨d, z⟩⟩)
        · have w1 := xc.2 z1
          have w2 := yc.2 z2
          have ell : b.ll = ⟨(gcellSpan T.grid.xp T.grid.die.left T.grid.die.right xt).1, (gcellSpan T.grid.yp T.grid.die.bottom T.grid.die.top yt).1⟩ := by
            rcases e : b.ll with ⟨u, v⟩
            rw [e] at w1 w2
            simp only [Point.mk.injEq]
            exact ⟨w1.1, w2.1⟩
          simp only [Box.left, Box.bottom] at ell
          simp [ell, w1.2, w2.2] at q
        · have w1 := xc.2 z
          simp [np, d, w1.1, w1.2] at q
        · have w1 := yc.2 z
          simp [np, d, w1.1, w1.2] at q
    · rintro ⟨rfl, hr, hm, hn⟩
      obtain ⟨_, _, _, f1, f2, f3, _, _, _, _, _, xm, xc⟩ := axis_cells (i := x) hf.1 b1 b2 hr.1 hr.2.1
      obtain ⟨_, _, _, g1, g2, g3, _, _, _, _, _, ym, yc⟩ := axis_cells (i := y) hf.2 b3 b4 hr.2.2.1 hr.2.2.2
      rw [ex1] at f1; rw [ex2] at f2; rw [ex3] at f3
      rw [ey1] at g1; rw [ey2] at g2; rw [ey3] at g3
      cases f1; cases f2; cases f3; cases g1; cases g2; cases g3
      unfold BoxesMeet at hm
      rw [box_eq hf hr] at hm
      refine ⟨rfl, xm.2 ⟨hm.1, hm.2.1⟩, ym.2 ⟨hm.2.2.1, hm.2.2.2⟩, ?_⟩
      rw [Bool.eq_false_iff]
      intro q
      apply hn
      unfold PcTech.OnlyTouches
      unfold leftOut atCorner atSide at q
      rw [box_eq hf hin] at q
      rw [box_eq hf hr]
      simp only [Box.left, Box.right, Box.bottom, Box.top] at q xc yc ⊢
      simp only [Bool.or_eq_true, Bool.and_eq_true, decide_eq_true_eq, Bool.not_eq_true'] at q
      rcases q with ⟨⟨e, q1⟩, q2⟩ | ⟨q1, q2⟩
      · refine .inl ⟨xc.1 ⟨by rw [e], q1⟩, yc.1 ⟨by rw [e], q2⟩⟩
      · right
        rcases q1 with ⟨⟨d, np⟩, e⟩ | ⟨⟨d, np⟩, e⟩ <;> refine ⟨np, ?_⟩ <;> rcases q2 with ⟨q, d'⟩ | ⟨q, d'⟩
        · exact .inl ⟨d, xc.1 ⟨e, q⟩⟩
        · rw [d] at d'; cases d'
        · rw [d] at d'; cases d'
        · exact .inr ⟨d, yc.1 ⟨e, q⟩⟩
  refine ⟨_, by simp only [rectCells, i1, i2, i3], key, ⟨⟨xt, yt⟩, l⟩, ?_, i3⟩
  simp only [List.mem_flatMap, List.mem_filterMap, mem_intRange]
  have := xo o1
  have := yo o2
  refine ⟨xt, by omega, yt, by omega, ?_⟩
  have : leftOut T l b (T.grid.box ⟨xt, yt⟩) ⟨xt, yt⟩ xt yt = false := by
    unfold leftOut
    have u : ∀ z : Int, decide (z = z - 1) = false := fun z => decide_eq_false (by omega)
    simp [u]
  rw [this]; rfl

/-- C148: a rectangle of a terminal is entered at exactly the GCells that meet it, on its layer, except those that only touch its lower left
corner, or its side along the tracks if there are no tracks across. -/
theorem c148_cells_of_rect (T : PcTech) (hf : T.grid.Fits) (l : Int) (b : Box) (hb : T.Reaches b) :
    ∃ ns, rectCells T (l, b) = some ns ∧
      ∀ n, n ∈ ns ↔ n.layer = l ∧ T.grid.InRange n.pt ∧ BoxesMeet (T.grid.box n.pt) b ∧ ¬ T.OnlyTouches l n.pt b := by
  obtain ⟨ns, h, k, _⟩ := rectCells_spec T hf l b hb
  exact ⟨ns, h, k⟩

theorem mem_rects (t : PcTerm) (r : Int × Box) : r ∈ t.rects ↔ t.RectAt r := by
  unfold PcTerm.rects PcTerm.RectAt
  rw [List.mem_map]
  cases hi : t.inst with
  | none =>
    constructor
    · rintro ⟨s, hs, rfl⟩
      obtain ⟨p, hp, h⟩ := List.mem_flatMap.1 hs
      exact ⟨p, hp, s, h, rfl, .inl ⟨rfl, rfl⟩⟩
    · rintro ⟨p, hp, s, h, e, (⟨_, e'⟩ | ⟨I, hI, _⟩)⟩
      · exact ⟨s, List.mem_flatMap.2 ⟨p, hp, h⟩, Prod.ext e.symm e'.symm⟩
      · cases hI
  | some J =>
    constructor
    · rintro ⟨s, hs, rfl⟩
      obtain ⟨p, hp, h⟩ := List.mem_flatMap.1 hs
      exact ⟨p, hp, s, h, rfl, .inr ⟨J, rfl, rfl⟩⟩
    · rintro ⟨p, hp, s, h, e, (⟨hI, _⟩ | ⟨I, hI, e'⟩)⟩
      · cases hI
      · cases hI
        exact ⟨s, List.mem_flatMap.2 ⟨p, hp, h⟩, Prod.ext e.symm e'.symm⟩

/-- C148 for terminals, in any process but one: every GCell whose inside some rectangle overlaps is entered, each rectangle is entered
somewhere, and only at GCells that meet it. -/
theorem c148_cells_of_terminal (T : PcTech) (hf : T.grid.Fits) (t : PcTerm) (ht : ∀ r, t.RectAt r → T.Reaches r.2) :
    ∃ ns, pinCellsOf T false t = some ns ∧
      (∀ r, t.RectAt r → ∀ c, T.grid.InRange c → BoxesOverlap (T.grid.box c) r.2 → ⟨c, r.1⟩ ∈ ns) ∧
      (∀ r, t.RectAt r → ∃ n ∈ ns, n.layer = r.1 ∧ BoxesMeet (T.grid.box n.pt) r.2) ∧
      (∀ n ∈ ns, T.grid.InRange n.pt ∧ ∃ r, t.RectAt r ∧ n.layer = r.1 ∧ BoxesMeet (T.grid.box n.pt) r.2) := by
  simp only [← mem_rects] at ht ⊢
  have hm : ∀ (rs : List (Int × Box)), (∀ r ∈ rs, T.Reaches r.2) → ∃ L, rs.mapM (rectCells T) = some L ∧
      ∀ n, n ∈ L.flatten ↔ ∃ r ∈ rs, ∃ ns, rectCells T r = some ns ∧ n ∈ ns := by
    intro rs
    induction rs with
    | nil => intro _; exact ⟨[], rfl, by simp⟩
    | cons r rs ih =>
      intro h
      obtain ⟨L, e, k⟩ := ih fun r' hr => h r' (by simp [hr])
      obtain ⟨ns, e', _⟩ := c148_cells_of_rect T hf r.1 r.2 (h r (by simp))
      refine ⟨ns :: L, by simp [List.mapM_cons, e', e], fun n => ?_⟩
      simp only [List.flatten_cons, List.mem_append, k, List.mem_cons, exists_eq_or_imp, e', Option.some.injEq, exists_eq_left']
  obtain ⟨L, e, k⟩ := hm t.rects ht
  refine ⟨L.flatten, by simp [pinCellsOf, termCells, e], fun r hr c hc ho => ?_, fun r hr => ?_, fun n hn => ?_⟩
  · obtain ⟨ns, e', k'⟩ := c148_cells_of_rect T hf r.1 r.2 (ht r hr)
    refine (k _).2 ⟨r, hr, ns, e', (k' _).2 ⟨rfl, hc, ?_, ?_⟩⟩
    · unfold BoxesOverlap at ho; unfold BoxesMeet; dsimp only; omega
    · unfold BoxesOverlap at ho; unfold PcTech.OnlyTouches; dsimp only
      rintro (⟨z, _⟩ | ⟨_, ⟨_, z⟩ | ⟨_, z⟩⟩) <;> omega
  · obtain ⟨ns, e', k', n, hn, _⟩ := rectCells_spec T hf r.1 r.2 (ht r hr)
    obtain ⟨a1, _, a3, _⟩ := (k' n).1 hn
    exact ⟨n, (k n).2 ⟨r, hr, ns, e', hn⟩, a1, a3⟩
  · obtain ⟨r, hr, ns, e', hn'⟩ := (k n).1 hn
    obtain ⟨ns', e'', k'⟩ := c148_cells_of_rect T hf r.1 r.2 (ht r hr)
    have : ns' = ns := by rw [e'] at e''; exact (Option.some.inj e'').symm
    subst this
    obtain ⟨a1, a2, a3, _⟩ := (k' n).1 hn'
    exact ⟨a2, r, hr, a1, a3⟩

/-! ## C149: access points -/

theorem gidx_some (g : GGrid) (hf : g.Fits) (p : Point) : ∃ c, g.idx p = some c ∧ g.InRange c := by
  obtain ⟨c, h, h', _⟩ := c21_index_in_range_and_contains g hf p
  exact ⟨c, h, h'⟩

theorem apChoices_length (i : Option Nat) (pref : List (Option (Point × Int))) (ps : List PcPin) : ∀ k,
    (apChoices i pref k ps).length ≤ ps.length ∧ ((∃ p ∈ ps, p.access = []) → (apChoices i pref k ps).length < ps.length) := by
  induction ps with
  | nil => intro k; exact ⟨Nat.le_refl _, fun ⟨_, h, _⟩ => by cases h⟩
  | cons p ps ih =>
    intro k
    unfold apChoices
    split
    · have := (ih k).1
      simp only [List.length_cons]
      exact ⟨by omega, fun _ => by omega⟩
    · next h =>
      have go : (∃ p' ∈ p :: ps, p'.access = []) → ∃ p' ∈ ps, p'.access = [] := by
        rintro ⟨p', hp, e⟩
        rcases List.mem_cons.1 hp with rfl | hp
        · exact absurd e h
        · exact ⟨p', hp, e⟩
      cases i with
      | none =>
        simp only [List.length_cons]
        have := (ih k).1
        exact ⟨by omega, fun _ => by omega⟩
      | some i =>
        dsimp only
        have := (ih (k + 1)).1
        split
        · simp only [List.length_cons]
          exact ⟨by omega, fun q => by have := (ih (k + 1)).2 (go q); omega⟩
        · simp only [List.length_cons]
          exact ⟨by omega, fun _ => by omega⟩

theorem apChoices_all (i : Nat) (pref : List (Option (Point × Int))) (ps : List PcPin) : ∀ k,
    (∀ p ∈ ps, p.access.getD i [] ≠ []) →
    (apChoices (some i) pref k ps).length = ps.length ∧
    ∀ (j : Nat) p, ps[j]? = some p → ∃ a, p.Chosen i pref (k + j) a ∧ (apChoices (some i) pref k ps)[j]? = some a := by
  induction ps with
  | nil => intro k _; exact ⟨rfl, fun j p h => by simp at h⟩
  | cons p ps ih =>
    intro k hp
    have h0 := hp p (by simp)
    have h1 : p.access ≠ [] := by intro e; rw [e] at h0; exact h0 rfl
    obtain ⟨i1, i2⟩ := ih (k + 1) fun q hq => hp q (by simp [hq])
    have hc : ∃ a, apChoice (pref.getD k none) (p.access.getD i []) = some a ∧ p.Chosen i pref k a := by
      unfold apChoice PcPin.Chosen
      rcases pref.getD k none with _ | a
      · rcases e : p.access.getD i [] with _ | ⟨a, t⟩
        · exact absurd e h0
        · exact ⟨a, rfl, .inr ⟨rfl, rfl⟩⟩
      · exact ⟨a, rfl, .inl rfl⟩
    obtain ⟨a, ha, hc⟩ := hc
    have e : apChoices (some i) pref k (p :: ps) = a :: apChoices (some i) pref (k + 1) ps := by
      rw [apChoices, if_neg h1, ha]
    rw [e]
    refine ⟨by simp [i1], fun j q hj => ?_⟩
    cases j with
    | zero => simp at hj; subst hj; exact ⟨a, hc, rfl⟩
    | succ j =>
      obtain ⟨b, hb, hb'⟩ := i2 j q (by simpa using hj)
      exact ⟨b, by rw [show k + (j + 1) = k + 1 + j by omega]; exact hb, by simpa using hb'⟩

theorem apCells_some (T : PcTech) (hf : T.grid.Fits) (l : List (Point × Int)) :
    ∃ ns, (l.mapM fun a => (T.grid.idx a.1).map fun c => (⟨c, a.2⟩ : Node)) = some ns ∧ ns.length = l.length ∧
      ∀ (j : Nat) a, l[j]? = some a → ∃ c, T.grid.idx a.1 = some c ∧ ns[j]? = some ⟨c, a.2⟩ := by
  induction l with
  | nil => exact ⟨[], rfl, rfl, fun j a h => by simp at h⟩
  | cons a l ih =>
    obtain ⟨ns, e, h1, h2⟩ := ih
    obtain ⟨c, hc, _⟩ := gidx_some T.grid hf a.1
    refine ⟨⟨c, a.2⟩ :: ns, by simp [List.mapM_cons, hc, e], by simp [h1], fun j b hj => ?_⟩
    cases j with
    | zero => simp at hj; subst hj; exact ⟨c, hc, rfl⟩
    | succ j => simpa using h2 j b (by simpa using hj)

/-- C149: in the process that goes by access points, a terminal of a component all of whose pins have access points in its class is entered
at the GCell and layer of one access point for each pin, and nowhere else: the preferred one, otherwise the first. -/
theorem c149_one_per_pin (T : PcTech) (hf : T.grid.Fits) (I : PcInst) (i : Nat) (hi : I.paIdx = some i) (pins : List PcPin) (h0 : pins ≠ [])
    (hp : ∀ p ∈ pins, p.access.getD i [] ≠ []) :
    ∃ ns, pinCellsOf T true ⟨some I, pins⟩ = some ns ∧ ns.length = pins.length ∧
      ∀ (k : Nat) p, pins[k]? = some p → ∃ a c, p.Chosen i I.pref k a ∧
        T.grid.idx ⟨I.at'.ox + a.1.x, I.at'.oy + a.1.y⟩ = some c ∧ ns[k]? = some ⟨c, a.2⟩ := by
  obtain ⟨l1, l2⟩ := apChoices_all i I.pref pins 0 hp
  obtain ⟨ns, e, h1, h2⟩ := apCells_some T hf (PcTerm.aps (some 0) ⟨some I, pins⟩)
  have ha : PcTerm.aps (some 0) ⟨some I, pins⟩ = (apChoices (some i) I.pref 0 pins).map fun a => (a.1.transform { I.at' with ori := .R0 }, a.2) := by
    simp only [PcTerm.aps, hi]
  have hl : ns.length = pins.length := by rw [h1, ha, List.length_map, l1]
  have hne : ns ≠ [] := by
    intro q; rw [q] at hl; exact h0 (List.eq_nil_of_length_eq_zero hl.symm)
  refine ⟨ns, ?_, hl, fun k p hk => ?_⟩
  · unfold pinCellsOf apCells
    rw [if_pos rfl, e]
    exact if_pos ⟨hl, hne⟩
  · obtain ⟨a, hc, hk'⟩ := l2 k p hk
    obtain ⟨c, hc', hn⟩ := h2 k (a.1.transform { I.at' with ori := .R0 }, a.2) (by rw [ha, List.getElem?_map, hk']; rfl)
    exact ⟨a, c, by simpa using hc, hc', hn⟩

/-- C149: in that process, if some pin of a terminal has no access points, the terminal is entered at all GCells of its rectangles. -/
theorem c149_without_access (T : PcTech) (hf : T.grid.Fits) (t : PcTerm) (ht : ∀ r, t.RectAt r → T.Reaches r.2) (hp : ∃ p ∈ t.pins, p.access = []) :
    ∃ ns ms, pinCellsOf T true t = some ns ∧ pinCellsOf T false t = some ms ∧ ∀ n ∈ ms, n ∈ ns := by
  obtain ⟨ns, e, h1, _⟩ := apCells_some T hf (t.aps (some 0))
  obtain ⟨ms, e', _⟩ := c148_cells_of_terminal T hf t ht
  have hl : ns.length < t.pins.length := by
    rw [h1]
    unfold PcTerm.aps
    split
    · rw [List.length_map]; exact (apChoices_length _ _ _ _).2 hp
    · exact (apChoices_length _ _ _ _).2 hp
  refine ⟨ns ++ ms, ms, ?_, e', fun n h => by simp [h]⟩
  have e2 : termCells T t = some ms := by simpa [pinCellsOf] using e'
  unfold pinCellsOf apCells
  rw [if_pos rfl, e]
  dsimp only
  rw [if_neg (by omega), e2]
  rfl

/-! ## C150: guides around access points -/

/-- GCells of a box made of the sides of two GCells -/
theorem axis_cover {p : GCellPat} {dl dh : Int} (hf : AxisFits p dl dh) {i j : Int} (h0 : 0 ≤ i) (hij : i ≤ j) (h1 : j < p.count) :
    gcellIdx1 p (gcellSpan p dl dh i).1 = some i ∧ gcellIdx1 p ((gcellSpan p dl dh j).2 - 1) = some j := by
  have key : ∀ c k, 0 ≤ k → k < p.count → (k ≠ 0 → p.spacing * k + p.start ≤ c) → (k + 1 < p.count → c < p.spacing * (k + 1) + p.start) →
      gcellIdx1 p c = some k := by
    intro c k k0 k1 lo hi
    obtain ⟨m, e, m0, m1, hm⟩ := idx_lines hf c
    rw [e]
    have a1 : k ≤ m := by
      by_cases q : k = 0
      · omega
      · exact (hm k (by omega) k1).2 (lo q)
    have a2 : ¬ k + 1 ≤ m := by
      intro q
      have := (hm (k + 1) (by omega) (by omega)).1 q
      have := hi (by omega)
      omega
    exact congrArg some (by omega)
  have hs := hf.1
  constructor
  · obtain ⟨⟨s1, s2⟩, _⟩ := span_line (p := p) (dl := dl) (dh := dh) h0 (by omega : i < p.count)
    refine key _ i h0 (by omega) (fun q => by rw [s2 q]; exact Int.le_refl _) fun q => ?_
    by_cases z : i = 0
    · rw [s1 z, z]; have := hf.2.2.2.1; simp only [Int.zero_add, Int.mul_one]; omega
    · rw [s2 z, Int.mul_add, Int.mul_one]; omega
  · obtain ⟨_, s3, s4⟩ := span_line (p := p) (dl := dl) (dh := dh) (by omega : 0 ≤ j) h1
    have lt := span_lt hf (by omega : 0 ≤ j) (Int.le_refl j) h1
    refine key _ j (by omega) h1 (fun q => ?_) fun q => ?_
    · obtain ⟨⟨_, s2⟩, _⟩ := span_line (p := p) (dl := dl) (dh := dh) (by omega : 0 ≤ j) h1
      rw [s2 q] at lt; omega
    · rw [s4 (by omega)]; omega

theorem coverRects_spec (T : PcTech) (hf : T.grid.Fits) (a : Point × Int) :
    ∃ rs c, coverRects T a = some rs ∧ T.grid.idx a.1 = some c ∧ ∀ n : Node, (∃ r ∈ rs, r.Covers (fun p => (T.grid.idx p).getD ⟨0, 0⟩) n) ↔
      T.grid.InRange n.pt ∧ NextCell c n.pt ∧ (n.layer = a.2 ∨ n.layer = a.2 + 2 ∨ n.layer = a.2 + 4) ∧ n.layer ≤ T.top := by
  obtain ⟨c, hc, r1, r2, r3, r4⟩ := gidx_some T.grid hf a.1
  have hx := hf.1.2.1
  have hy := hf.2.2.1
  have lo : T.grid.InRange ⟨max 0 (min (c.x - 1) (T.grid.xp.count - 1)), max 0 (min (c.y - 1) (T.grid.yp.count - 1))⟩ :=
    ⟨by dsimp only; omega, by dsimp only; omega, by dsimp only; omega, by dsimp only; omega⟩
  have hi : T.grid.InRange ⟨max 0 (min (c.x + 1) (T.grid.xp.count - 1)), max 0 (min (c.y + 1) (T.grid.yp.count - 1))⟩ :=
    ⟨by dsimp only; omega, by dsimp only; omega, by dsimp only; omega, by dsimp only; omega⟩
  refine ⟨_, c, by simp only [coverRects, hc]; rfl, hc, fun n => ?_⟩
  rw [box_clamp hf ⟨c.x - 1, c.y - 1⟩, box_clamp hf ⟨c.x + 1, c.y + 1⟩, box_eq hf lo, box_eq hf hi]
  simp only [Box.left, Box.right, Box.bottom, Box.top]
  generalize ex1 : max 0 (min (c.x - 1) (T.grid.xp.count - 1)) = x1 at lo
  generalize ey1 : max 0 (min (c.y - 1) (T.grid.yp.count - 1)) = y1 at lo
  generalize ex2 : max 0 (min (c.x + 1) (T.grid.xp.count - 1)) = x2 at hi
  generalize ey2 : max 0 (min (c.y + 1) (T.grid.yp.count - 1)) = y2 at hi
  have lx := span_lt hf.1 lo.1 (show x1 ≤ x2 by omega) hi.2.1
  have ly := span_lt hf.2 lo.2.2.1 (show y1 ≤ y2 by omega) hi.2.2.2
  obtain ⟨cx1, cx2⟩ := axis_cover hf.1 lo.1 (show x1 ≤ x2 by omega) hi.2.1
  obtain ⟨cy1, cy2⟩ := axis_cover hf.2 lo.2.2.1 (show y1 ≤ y2 by omega) hi.2.2.2
  dsimp only at lx ly cx1 cx2 cy1 cy2
  have em : Box.mk4 (gcellSpan T.grid.xp T.grid.die.ll.x T.grid.die.ur.x x1).1 (gcellSpan T.grid.yp T.grid.die.ll.y T.grid.die.ur.y y1).1
      (gcellSpan T.grid.xp T.grid.die.ll.x T.grid.die.ur.x x2).2 (gcellSpan T.grid.yp T.grid.die.ll.y T.grid.die.ur.y y2).2 =
      ⟨⟨(gcellSpan T.grid.xp T.grid.die.ll.x T.grid.die.ur.x x1).1, (gcellSpan T.grid.yp T.grid.die.ll.y T.grid.die.ur.y y1).1⟩,
       ⟨(gcellSpan T.grid.xp T.grid.die.ll.x T.grid.die.ur.x x2).2, (gcellSpan T.grid.yp T.grid.die.ll.y T.grid.die.ur.y y2).2⟩⟩ := by
    simp only [Box.mk4_eq, Box.mk.injEq, Point.mk.injEq]
    simp only [Box.left, Box.right, Box.bottom, Box.top] at lx ly
    omega
  rw [em]
  simp only [Box.left, Box.right, Box.bottom, Box.top] at cx1 cx2 cy1 cy2
  have cov : ∀ l, GuideRect.Covers (fun p => (T.grid.idx p).getD ⟨0, 0⟩) ⟨l, ⟨⟨(gcellSpan T.grid.xp T.grid.die.ll.x T.grid.die.ur.x x1).1, (gcellSpan T.grid.yp T.grid.die.ll.y T.grid.die.ur.y y1).1⟩,
       ⟨(gcellSpan T.grid.xp T.grid.die.ll.x T.grid.die.ur.x x2).2, (gcellSpan T.grid.yp T.grid.die.ll.y T.grid.die.ur.y y2).2⟩⟩⟩ n ↔
      n.layer = l ∧ x1 ≤ n.pt.x ∧ n.pt.x ≤ x2 ∧ y1 ≤ n.pt.y ∧ n.pt.y ≤ y2 := by
    intro l
    simp only [GuideRect.Covers, Box.right, Box.top, GGrid.idx, cx1, cx2, cy1, cy2, Option.getD_some]
  have inr : x1 ≤ n.pt.x ∧ n.pt.x ≤ x2 ∧ y1 ≤ n.pt.y ∧ n.pt.y ≤ y2 ↔ T.grid.InRange n.pt ∧ NextCell c n.pt := by
    unfold GGrid.InRange NextCell
    omega
  simp only [List.mem_flatMap, List.mem_filter, List.mem_cons, List.not_mem_nil, or_false, List.mem_replicate, decide_eq_true_eq]
  constructor
  · rintro ⟨r, ⟨l, ⟨hl, hlt⟩, _, rfl⟩, h⟩
    obtain ⟨e, h⟩ := (cov l).1 h
    obtain ⟨h1, h2⟩ := inr.1 h
    subst e
    exact ⟨h1, h2, hl, by omega⟩
  · rintro ⟨h1, h2, hl, ht⟩
    exact ⟨_, ⟨n.layer, ⟨hl, by omega⟩, by omega, rfl⟩, (cov _).2 ⟨rfl, inr.2 ⟨h1, h2⟩⟩⟩

theorem mem_apChoices (i : Nat) (pref : List (Option (Point × Int))) (ps : List PcPin) : ∀ (j : Nat) (b : Point × Int),
    b ∈ apChoices (some i) pref j ps ↔ ∃ (k : Nat) (p : PcPin), (ps.filter fun q => !q.access.isEmpty)[k]? = some p ∧ p.Chosen i pref (j + k) b := by
  induction ps with
  | nil => intro j b; simp [apChoices]
  | cons q ps ih =>
    intro j b
    rw [apChoices.eq_def]
    by_cases hq : q.access = []
    · simp only [hq, if_true, List.filter_cons, List.isEmpty_nil, Bool.not_true, Bool.false_eq_true, if_false]
      exact ih j b
    · have hq' : (!q.access.isEmpty) = true := by simp [hq]
      simp only [hq, if_false, List.filter_cons, hq', if_true]
      have hc : ∀ b, q.Chosen i pref j b ↔ apChoice (pref.getD j none) (q.access.getD i []) = some b := by
        intro b
        unfold PcPin.Chosen apChoice
        cases pref.getD j none <;> simp
      have hs : (∃ (k : Nat) (p : PcPin), (q :: ps.filter fun q => !q.access.isEmpty)[k]? = some p ∧ p.Chosen i pref (j + k) b) ↔
          q.Chosen i pref j b ∨ ∃ (k : Nat) (p : PcPin), (ps.filter fun q => !q.access.isEmpty)[k]? = some p ∧ p.Chosen i pref (j + 1 + k) b := by
        constructor
        · rintro ⟨k, p, h1, h2⟩
          cases k with
          | zero => simp only [List.getElem?_cons_zero, Option.some.injEq] at h1; subst h1; exact .inl h2
          | succ k => exact .inr ⟨k, p, by simpa using h1, by rw [show j + 1 + k = j + (k + 1) by omega]; exact h2⟩
        · rintro (h | ⟨k, p, h1, h2⟩)
          · exact ⟨0, q, rfl, h⟩
          · exact ⟨k + 1, p, by simpa using h1, by rw [show j + (k + 1) = j + 1 + k by omega]; exact h2⟩
      rw [hs, hc, ← ih (j + 1) b]
      cases apChoice (pref.getD j none) (q.access.getD i []) with
      | none => simp
      | some a => simp [eq_comm]

theorem apChoices_none (pref : List (Option (Point × Int))) (ps : List PcPin) : ∀ j, apChoices none pref j ps = [] := by
  induction ps with
  | nil => intro j; rfl
  | cons q ps ih => intro j; rw [apChoices.eq_def]; simp [ih]

theorem mem_aps (t : PcTerm) (a : Point × Int) : a ∈ t.aps none ↔ t.AccessAt a := by
  unfold PcTerm.aps PcTerm.AccessAt
  cases hi : t.inst with
  | none => simp [apChoices_none]
  | some I =>
    cases hp : I.paIdx with
    | none =>
      simp only [hp, apChoices_none, List.map_nil, List.not_mem_nil, false_iff]
      rintro ⟨J, i, h, h', _⟩
      cases h
      rw [hp] at h'
      cases h'
    | some i =>
      rw [List.mem_map]
      simp only [hp]
      constructor
      · rintro ⟨b, hb, rfl⟩
        obtain ⟨k, p, h1, h2⟩ := (mem_apChoices i I.pref t.pins 0 b).1 hb
        exact ⟨I, i, rfl, hp, k, p, b, h1, by simpa using h2, rfl⟩
      · rintro ⟨J, i', h, h', k, p, b, h1, h2, rfl⟩
        cases h
        rw [hp] at h'
        cases h'
        exact ⟨b, (mem_apChoices i I.pref t.pins 0 b).2 ⟨k, p, h1, by simpa using h2⟩, rfl⟩

/-- C150: in that process guides are added that cover exactly the GCells at or beside that of a chosen access point of a component's
terminal, on its layer and the next two routing layers above, as far as there are any. -/
theorem c150_cover_guides (T : PcTech) (hf : T.grid.Fits) (ts : List PcTerm) :
    ∃ rs, coverGuides T ts = some rs ∧ ∀ n : Node, (∃ r ∈ rs, r.Covers (fun p => (T.grid.idx p).getD ⟨0, 0⟩) n) ↔
      ∃ t ∈ ts, ∃ a, t.AccessAt a ∧ ∃ c, T.grid.idx a.1 = some c ∧
        T.grid.InRange n.pt ∧ NextCell c n.pt ∧ (n.layer = a.2 ∨ n.layer = a.2 + 2 ∨ n.layer = a.2 + 4) ∧ n.layer ≤ T.top := by
  simp only [← mem_aps]
  have key : ∀ as : List (Point × Int), ∃ L, as.mapM (coverRects T) = some L ∧
      ∀ n : Node, (∃ r ∈ L.flatten, r.Covers (fun p => (T.grid.idx p).getD ⟨0, 0⟩) n) ↔ ∃ a ∈ as, ∃ c, T.grid.idx a.1 = some c ∧
        T.grid.InRange n.pt ∧ NextCell c n.pt ∧ (n.layer = a.2 ∨ n.layer = a.2 + 2 ∨ n.layer = a.2 + 4) ∧ n.layer ≤ T.top := by
    intro as
    induction as with
    | nil => exact ⟨[], rfl, by simp⟩
    | cons a as ih =>
      obtain ⟨L, e, k⟩ := ih
      obtain ⟨rs, c, e', hc, k'⟩ := coverRects_spec T hf a
      refine ⟨rs :: L, by simp [List.mapM_cons, e', e], fun n => ?_⟩
      rw [List.flatten_cons]
      constructor
      · rintro ⟨r, hr, h⟩
        rcases List.mem_append.1 hr with hr | hr
        · exact ⟨a, by simp, c, hc, (k' n).1 ⟨r, hr, h⟩⟩
        · obtain ⟨b, hb, q⟩ := (k n).1 ⟨r, hr, h⟩
          exact ⟨b, by simp [hb], q⟩
      · rintro ⟨b, hb, c', hc', q⟩
        rcases List.mem_cons.1 hb with rfl | hb
        · rw [hc] at hc'
          cases hc'
          obtain ⟨r, hr, h⟩ := (k' n).2 q
          exact ⟨r, by simp [hr], h⟩
        · obtain ⟨r, hr, h⟩ := (k n).2 ⟨b, hb, c', hc', q⟩
          exact ⟨r, List.mem_append.2 (.inr hr), h⟩
  obtain ⟨L, e, k⟩ := key (ts.flatMap fun t => t.aps none)
  refine ⟨L.flatten, by simp [coverGuides, e], fun n => (k n).trans ?_⟩
  simp only [List.mem_flatMap]
  constructor
  · rintro ⟨a, ⟨t, ht, ha⟩, h⟩; exact ⟨t, ht, a, ha, h⟩
  · rintro ⟨t, ht, a, ha, h⟩; exact ⟨a, ⟨t, ht, ha⟩, h⟩

/-! ### examples -/

/-- GCells of 100 by 100; layer 2 horizontal, layer 4 vertical; no tracks across the layers -/
def exPcTech : PcTech := ⟨⟨⟨⟨0, 0⟩, ⟨400, 300⟩⟩, ⟨0, 100, 4⟩, ⟨0, 100, 3⟩⟩, fun l => if l = 2 then some true else if l = 4 then some false else none, false, 6⟩

theorem exPc_fits : exPcTech.grid.Fits := by unfold GGrid.Fits AxisFits; decide

/-- a rectangle that begins on the corner of four GCells: of these only two of three neighbours are left out on a horizontal layer -/
example : exPcTech.Reaches ⟨⟨100, 100⟩, ⟨150, 120⟩⟩ ∧
    rectCells exPcTech (2, ⟨⟨100, 100⟩, ⟨150, 120⟩⟩) = some [⟨⟨0, 1⟩, 2⟩, ⟨⟨1, 1⟩, 2⟩] := by
  refine ⟨by unfold PcTech.Reaches; decide, by decide⟩

/-- a terminal with two pins, of a component at (100, 0); the second pin has a preferred access point -/
def exPcInst : PcInst := ⟨⟨100, 0, .R0⟩, ⟨100, 0, .R0⟩, some 0, [none, some (⟨150, 250⟩, 4)]⟩

def exPcPins : List PcPin :=
  [⟨[(2, ⟨⟨10, 10⟩, ⟨30, 20⟩⟩)], [[(⟨20, 15⟩, 2), (⟨30, 15⟩, 2)]]⟩, ⟨[(4, ⟨⟨140, 240⟩, ⟨160, 260⟩⟩)], [[(⟨145, 245⟩, 4), (⟨150, 250⟩, 4)]]⟩]

example : (∀ r, PcTerm.RectAt ⟨some exPcInst, exPcPins⟩ r → exPcTech.Reaches r.2) ∧ (∀ p ∈ exPcPins, p.access.getD 0 [] ≠ []) ∧
    pinCellsOf exPcTech true ⟨some exPcInst, exPcPins⟩ = some [⟨⟨1, 0⟩, 2⟩, ⟨⟨2, 2⟩, 4⟩] ∧
    pinCellsOf exPcTech false ⟨some exPcInst, exPcPins⟩ = some [⟨⟨1, 0⟩, 2⟩, ⟨⟨2, 2⟩, 4⟩] := by
  refine ⟨?_, by decide, by decide, by decide⟩
  have e : PcTerm.rects ⟨some exPcInst, exPcPins⟩ = [(2, ⟨⟨110, 10⟩, ⟨130, 20⟩⟩), (4, ⟨⟨240, 240⟩, ⟨260, 260⟩⟩)] := by decide
  intro r hr
  rw [← mem_rects, e] at hr
  simp only [List.mem_cons, List.not_mem_nil, or_false] at hr
  rcases hr with rfl | rfl <;> (unfold PcTech.Reaches; decide)

/-- the first pin without access points -/
example : ∃ p ∈ (⟨some exPcInst, ⟨[(2, ⟨⟨10, 10⟩, ⟨30, 20⟩⟩)], []⟩ :: exPcPins⟩ : PcTerm).pins, p.access = [] :=
  ⟨⟨[(2, ⟨⟨10, 10⟩, ⟨30, 20⟩⟩)], []⟩, by simp, rfl⟩

/-- guides around an access point in the corner of the die -/
example : (coverGuides exPcTech [⟨some { exPcInst with pref := [] }, exPcPins.take 1⟩]).map (fun rs => rs.map fun r => (r.layer, r.box.right, r.box.top)) =
    some (List.replicate 9 (2, 300, 200) ++ List.replicate 9 (4, 300, 200) ++ List.replicate 9 (6, 300, 200)) := by decide

end TR
