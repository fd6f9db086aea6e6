import Verif.Run.PinsProps
namespace TR

/-- C109: two regions side by side get the same pins of a net on their common border, unless a wire of the net runs along that border -/
theorem c109_neighbours_agree {g : GGrid} (hf : g.Fits) {clip : Int} (hc : 0 < clip) {ws : List TWire} (hws : ∀ w ∈ ws, w.Ok g) {pins : List CellPin}
    (hp : cellPins g ws = some pins) {A B : Worker} (hA : A ∈ genWorkers g clip 0) (hB : B ∈ genWorkers g clip 0) (net l : Nat) :
    (A.routeBox.right = B.routeBox.left → A.routeBox.bottom = B.routeBox.bottom → A.routeBox.top = B.routeBox.top →
      (∀ w ∈ ws, w.net = net → w.layer = l → w.Vert → w.b.x ≠ A.routeBox.right) → ∀ p, p.x = A.routeBox.right →
      ((p, l) ∈ workerPins g pins clip A net ↔ (p, l) ∈ workerPins g pins clip B net)) ∧
    (A.routeBox.top = B.routeBox.bottom → A.routeBox.left = B.routeBox.left → A.routeBox.right = B.routeBox.right →
      (∀ w ∈ ws, w.net = net → w.layer = l → w.Horz → w.b.y ≠ A.routeBox.top) → ∀ p, p.y = A.routeBox.top →
      ((p, l) ∈ workerPins g pins clip A net ↔ (p, l) ∈ workerPins g pins clip B net)) := by
  obtain ⟨pins', hp', hall⟩ := c109_boundary_pins hf hc hws
  rw [hp] at hp'; cases hp'
  constructor
  · intro h1 h2 h3 hn p hpx
    rw [hall A hA, hall B hB]
    apply exists_congr; intro w
    apply and_congr_right; intro hw
    apply and_congr_right; intro e1
    apply and_congr_right; intro e2
    have hv : ∀ R : Box, ¬ PinV g R w p := fun R h => hn w hw e1 e2 h.1.1 (by rw [← h.1.2.1, hpx])
    simp only [hv, or_false]
    unfold PinH OwnsY
    rw [h2, h3, ← h1, hpx]
    simp
  · intro h1 h2 h3 hn p hpx
    rw [hall A hA, hall B hB]
    apply exists_congr; intro w
    apply and_congr_right; intro hw
    apply and_congr_right; intro e1
    apply and_congr_right; intro e2
    have hv : ∀ R : Box, ¬ PinH g R w p := fun R h => hn w hw e1 e2 h.1.1 (by rw [← h.1.2.1, hpx])
    simp only [hv, false_or]
    unfold PinV OwnsX
    rw [h2, h3, ← h1, hpx]
    simp

/-- along one axis: consecutive regions share a border, so a relation that links the borders of each region links all borders on the way -/
theorem axis_links {p : GCellPat} {dl dh : Int} (hf : AxisFits p dl dh) {clip : Int} (hc : 0 < clip) {b e : Int} {E : Int → Int → Prop}
    (trans : ∀ x y z, E x y → E y z → E x z)
    (hE : ∀ k : Nat, (k : Int) * clip < p.count → ∀ x y, (x = (axisRoute p dl dh clip (k * clip)).1 ∨ x = (axisRoute p dl dh clip (k * clip)).2) →
      (y = (axisRoute p dl dh clip (k * clip)).1 ∨ y = (axisRoute p dl dh clip (k * clip)).2) → b < x → x ≤ e → b < y → y ≤ e → E x y)
    (d : Nat) : ∀ k : Nat, ((k + d : Nat) : Int) * clip < p.count → ∀ x y,
      (x = (axisRoute p dl dh clip (k * clip)).1 ∨ x = (axisRoute p dl dh clip (k * clip)).2) →
      (y = (axisRoute p dl dh clip ((k + d : Nat) * clip)).1 ∨ y = (axisRoute p dl dh clip ((k + d : Nat) * clip)).2) →
      b < x → x ≤ e → b < y → y ≤ e → E x y := by
  induction d with
  | zero => intro k hk; exact hE k hk
  | succ d ih =>
    intro k hk x y hx hy x1 x2 y1 y2
    have h0 : (0 : Int) ≤ k * clip := Int.mul_nonneg (by omega) (by omega)
    have hkd : ((k + 1 : Nat) : Int) * clip = k * clip + clip := by
      rw [show ((k + 1 : Nat) : Int) = (k : Int) + 1 by omega, Int.add_mul, Int.one_mul]
    have hle : ((k + 1 : Nat) : Int) * clip ≤ ((k + (d + 1) : Nat) : Int) * clip := Int.mul_le_mul_of_nonneg_right (by omega) (by omega)
    have hlt : (k : Int) * clip + clip < p.count := by omega
    -- the common border
    have hmid : (axisRoute p dl dh clip (k * clip)).2 = (axisRoute p dl dh clip ((k + 1 : Nat) * clip)).1 := by
      unfold axisRoute
      rw [hkd]
      have e1 : min (p.count - 1) (↑k * clip + clip - 1) = ↑k * clip + clip - 1 := by omega
      have e2 : max 0 (↑k * clip + clip) = ↑k * clip + clip - 1 + 1 := by omega
      dsimp only
      rw [e1, e2]
      exact span_next hf (by omega) (by omega)
    have hxm : x ≤ (axisRoute p dl dh clip (k * clip)).2 := by
      have := axisRoute_lt hf hc h0 (by omega)
      rcases hx with rfl | rfl <;> omega
    have hmy : (axisRoute p dl dh clip (k * clip)).2 ≤ y := by
      have a1 := axisRoute_disjoint hf (clip := clip) (i := k * clip) (j := ((k + (d + 1) : Nat) : Int) * clip) (by omega) (by omega) hk
      have := axisRoute_lt hf hc (i := ((k + (d + 1) : Nat) : Int) * clip) (by omega) hk
      rcases hy with rfl | rfl <;> omega
    have hstep := hE k (by omega) x _ hx (.inr rfl) x1 x2 (by omega) (by omega)
    have e3 : k + (d + 1) = k + 1 + d := by omega
    rw [e3] at hk hy
    exact trans _ _ _ hstep (ih (k + 1) hk _ y (.inl hmid) hy (by omega) (by omega) y1 y2)

/-- the region with given indices -/
theorem region_at {g : GGrid} (hf : g.Fits) {clip : Int} (hc : 0 < clip) {k l : Nat} (hk : (k : Int) * clip < g.xp.count) (hl : (l : Int) * clip < g.yp.count) :
    ∃ W ∈ genWorkers g clip 0, W.routeBox = ⟨⟨(axisRoute g.xp g.die.left g.die.right clip (k * clip)).1, (axisRoute g.yp g.die.bottom g.die.top clip (l * clip)).1⟩,
        ⟨(axisRoute g.xp g.die.left g.die.right clip (k * clip)).2, (axisRoute g.yp g.die.bottom g.die.top clip (l * clip)).2⟩⟩ := by
  have a1 : (0 : Int) ≤ k * clip := Int.mul_nonneg (by omega) (by omega)
  have a2 : (0 : Int) ≤ l * clip := Int.mul_nonneg (by omega) (by omega)
  refine ⟨mkWorker g clip (0 + k * clip) (0 + l * clip) k l, (mem_genWorkers g clip 0 hc _).2 ⟨k, l, by omega, by omega, rfl⟩, ?_⟩
  rw [routeBox_eq hf hc (by omega) (by omega) (by omega) (by omega)]
  simp

/-- the row of regions that owns a height -/
theorem axis_owner {p : GCellPat} {dl dh : Int} (hf : AxisFits p dl dh) {clip : Int} (hc : 0 < clip) {c : Int} (h1 : dl ≤ c) (h2 : c ≤ dh) :
    ∃ l : Nat, (l : Int) * clip < p.count ∧ (axisRoute p dl dh clip (l * clip)).1 ≤ c ∧
      (c < (axisRoute p dl dh clip (l * clip)).2 ∨ c = (axisRoute p dl dh clip (l * clip)).2 ∧ (axisRoute p dl dh clip (l * clip)).2 = dh) := by
  obtain ⟨y, ey, y0, y1, _⟩ := gcellIdx1_iff hf h1 h2
  obtain ⟨i, hi, i0, i1, i2⟩ := loop_owner hc (offset := 0) y0 y1
  obtain ⟨l, rfl, hl⟩ := (mem_loopFrom _ _ _ _ hc).1 hi
  simp only [Int.zero_add] at i0 i1 i2 hl
  exact ⟨l, hl, (axis_owns hf h1 h2 hc i0 hl).1 ⟨y, ey, i1, by omega⟩⟩

/-- C109: if every region connects its pins of a net with each other, then all the places where a wire of the net crosses borders of
regions are connected -/
theorem c109_wire_connected {g : GGrid} (hf : g.Fits) {clip : Int} (hc : 0 < clip) {ws : List TWire} (hws : ∀ w ∈ ws, w.Ok g) {pins : List CellPin}
    (hp : cellPins g ws = some pins) {w : TWire} (hw : w ∈ ws) {E : Point × Nat → Point × Nat → Prop}
    (symm : ∀ a b, E a b → E b a) (trans : ∀ a b c, E a b → E b c → E a c)
    (hE : ∀ W ∈ genWorkers g clip 0, ∀ a ∈ workerPins g pins clip W w.net, ∀ b ∈ workerPins g pins clip W w.net, E a b) {p q : Point}
    (h : w.ReachesH p ∧ w.ReachesH q ∧ BorderX g clip p.x ∧ BorderX g clip q.x ∨ w.ReachesV p ∧ w.ReachesV q ∧ BorderY g clip p.y ∧ BorderY g clip q.y) :
    E (p, w.layer) (q, w.layer) := by
  obtain ⟨pins', hp', hall⟩ := c109_boundary_pins hf hc hws
  rw [hp] at hp'; cases hp'
  obtain ⟨d1, d2⟩ := (hws w hw).1
  rw [die_mem] at d1 d2
  rcases h with ⟨rp, rq, bp, bq⟩ | ⟨rp, rq, bp, bq⟩
  · obtain ⟨l, hl, hown⟩ := axis_owner hf.2 hc d1.2.2.1 d1.2.2.2
    have hlink : ∀ k : Nat, (k : Int) * clip < g.xp.count → ∀ x y,
        (x = (axisRoute g.xp g.die.left g.die.right clip (k * clip)).1 ∨ x = (axisRoute g.xp g.die.left g.die.right clip (k * clip)).2) →
        (y = (axisRoute g.xp g.die.left g.die.right clip (k * clip)).1 ∨ y = (axisRoute g.xp g.die.left g.die.right clip (k * clip)).2) →
        w.b.x < x → x ≤ w.e.x → w.b.x < y → y ≤ w.e.x → E (⟨x, w.b.y⟩, w.layer) (⟨y, w.b.y⟩, w.layer) := by
      intro k hk x y hx hy x1 x2 y1 y2
      obtain ⟨W, hW, hrb⟩ := region_at hf hc hk hl
      apply hE W hW
      · refine (hall W hW w.net _ _).2 ⟨w, hw, rfl, rfl, .inl ⟨⟨rp.1, rfl, x1, x2⟩, ?_, ?_⟩⟩
        · rw [hrb]; exact hown
        · rw [hrb]; exact hx.elim .inl (fun h => .inr (.inl h))
      · refine (hall W hW w.net _ _).2 ⟨w, hw, rfl, rfl, .inl ⟨⟨rp.1, rfl, y1, y2⟩, ?_, ?_⟩⟩
        · rw [hrb]; exact hown
        · rw [hrb]; exact hy.elim .inl (fun h => .inr (.inl h))
    have hlinks := axis_links hf.1 hc (b := w.b.x) (e := w.e.x) (E := fun x y => E (⟨x, w.b.y⟩, w.layer) (⟨y, w.b.y⟩, w.layer))
      (fun _ _ _ => trans _ _ _) hlink
    have hk : ∀ x, BorderX g clip x → ∃ k : Nat, (k : Int) * clip < g.xp.count ∧
        (x = (axisRoute g.xp g.die.left g.die.right clip (k * clip)).1 ∨ x = (axisRoute g.xp g.die.left g.die.right clip (k * clip)).2) := by
      rintro x ⟨W, hW, hx⟩
      obtain ⟨k, l, e1, e2, i0, i1, j0, j1, hrb⟩ := first_worker hf hc hW
      rw [e1] at i1
      rw [hrb, e1] at hx
      exact ⟨k, i1, hx⟩
    obtain ⟨kp, kp1, kp2⟩ := hk _ bp
    obtain ⟨kq, kq1, kq2⟩ := hk _ bq
    obtain ⟨px, py⟩ := p
    obtain ⟨qx, qy⟩ := q
    obtain ⟨_, ep, rp1, rp2⟩ := rp
    obtain ⟨_, eq, rq1, rq2⟩ := rq
    dsimp only at ep eq rp1 rp2 rq1 rq2 kp2 kq2
    subst ep eq
    by_cases hle : kp ≤ kq
    · have e : kp + (kq - kp) = kq := by omega
      exact hlinks (kq - kp) kp (by rw [e]; exact kq1) px qx kp2 (by rw [e]; exact kq2) rp1 rp2 rq1 rq2
    · have e : kq + (kp - kq) = kp := by omega
      exact symm _ _ (hlinks (kp - kq) kq (by rw [e]; exact kp1) qx px kq2 (by rw [e]; exact kp2) rq1 rq2 rp1 rp2)
  · obtain ⟨l, hl, hown⟩ := axis_owner hf.1 hc d1.1 d1.2.1
    have hlink : ∀ k : Nat, (k : Int) * clip < g.yp.count → ∀ x y,
        (x = (axisRoute g.yp g.die.bottom g.die.top clip (k * clip)).1 ∨ x = (axisRoute g.yp g.die.bottom g.die.top clip (k * clip)).2) →
        (y = (axisRoute g.yp g.die.bottom g.die.top clip (k * clip)).1 ∨ y = (axisRoute g.yp g.die.bottom g.die.top clip (k * clip)).2) →
        w.b.y < x → x ≤ w.e.y → w.b.y < y → y ≤ w.e.y → E (⟨w.b.x, x⟩, w.layer) (⟨w.b.x, y⟩, w.layer) := by
      intro k hk x y hx hy x1 x2 y1 y2
      obtain ⟨W, hW, hrb⟩ := region_at hf hc hl hk
      apply hE W hW
      · refine (hall W hW w.net _ _).2 ⟨w, hw, rfl, rfl, .inr ⟨⟨rp.1, rfl, x1, x2⟩, ?_, ?_⟩⟩
        · rw [hrb]; exact hown
        · rw [hrb]; exact hx.elim .inl (fun h => .inr (.inl h))
      · refine (hall W hW w.net _ _).2 ⟨w, hw, rfl, rfl, .inr ⟨⟨rp.1, rfl, y1, y2⟩, ?_, ?_⟩⟩
        · rw [hrb]; exact hown
        · rw [hrb]; exact hy.elim .inl (fun h => .inr (.inl h))
    have hlinks := axis_links hf.2 hc (b := w.b.y) (e := w.e.y) (E := fun x y => E (⟨w.b.x, x⟩, w.layer) (⟨w.b.x, y⟩, w.layer))
      (fun _ _ _ => trans _ _ _) hlink
    have hk : ∀ x, BorderY g clip x → ∃ k : Nat, (k : Int) * clip < g.yp.count ∧
        (x = (axisRoute g.yp g.die.bottom g.die.top clip (k * clip)).1 ∨ x = (axisRoute g.yp g.die.bottom g.die.top clip (k * clip)).2) := by
      rintro x ⟨W, hW, hx⟩
      obtain ⟨k, l, e1, e2, i0, i1, j0, j1, hrb⟩ := first_worker hf hc hW
      rw [e2] at j1
      rw [hrb, e2] at hx
      exact ⟨l, j1, hx⟩
    obtain ⟨kp, kp1, kp2⟩ := hk _ bp
    obtain ⟨kq, kq1, kq2⟩ := hk _ bq
    obtain ⟨px, py⟩ := p
    obtain ⟨qx, qy⟩ := q
    obtain ⟨_, ep, rp1, rp2⟩ := rp
    obtain ⟨_, eq, rq1, rq2⟩ := rq
    dsimp only at ep eq rp1 rp2 rq1 rq2 kp2 kq2
    subst ep eq
    by_cases hle : kp ≤ kq
    · have e : kp + (kq - kp) = kq := by omega
      exact hlinks (kq - kp) kp (by rw [e]; exact kq1) py qy kp2 (by rw [e]; exact kq2) rp1 rp2 rq1 rq2
    · have e : kq + (kp - kq) = kp := by omega
      exact symm _ _ (hlinks (kp - kq) kq (by rw [e]; exact kp1) qy py kq2 (by rw [e]; exact kp2) rq1 rq2 rp1 rp2)

/-! ### an example: a die of 4 by 4 GCells, regions of 2 by 2 GCells -/

def pinGrid : GGrid := ⟨⟨⟨0, 0⟩, ⟨400, 400⟩⟩, ⟨0, 100, 4⟩, ⟨0, 100, 4⟩⟩
/-- net 1: a horizontal wire through both regions of the lower row; net 2: a vertical wire on the border between them -/
def pinWires : List TWire := [⟨1, 4, ⟨50, 150⟩, ⟨350, 150⟩⟩, ⟨2, 6, ⟨200, 50⟩, ⟨200, 180⟩⟩, ⟨1, 4, ⟨10, 10⟩, ⟨11, 10⟩⟩]

theorem pinGrid_fits : pinGrid.Fits := by
  constructor <;> refine ⟨?_, ?_, ?_, ?_, ?_⟩ <;> decide

/-- the hypotheses hold, and both regions get the pin of net 1 on their common border; the wire of one unit is skipped -/
example : pinGrid.Fits ∧ (∀ w ∈ pinWires, w.Ok pinGrid) ∧
    (cellPins pinGrid pinWires).map (fun pins => (genWorkers pinGrid 2 0).map (fun W => workerPins pinGrid pins 2 W 1)) =
      some [[(⟨200, 150⟩, 4)], [], [(⟨200, 150⟩, 4)], []] := by
  refine ⟨pinGrid_fits, ?_, by decide +kernel⟩
  intro w hw
  simp only [pinWires, List.mem_cons, List.not_mem_nil, or_false] at hw
  rcases hw with rfl | rfl | rfl <;> simp [TWire.Ok, TWire.InDie, pinGrid, Box.Mem, InRect, Box.left, Box.right, Box.bottom, Box.top]

/-- the wire of net 1 begins before and reaches the border -/
example : ∃ p, BorderX pinGrid 2 p.x ∧ TWire.ReachesH ⟨1, 4, ⟨50, 150⟩, ⟨350, 150⟩⟩ p ∧ p.x = 200 :=
  ⟨⟨200, 150⟩, ⟨mkWorker pinGrid 2 0 0 0 0, by decide +kernel, .inr (by decide +kernel)⟩, by simp [TWire.ReachesH, TWire.Horz], rfl⟩

/-- C109: a wire along the border of two regions gives the right one (upper one) pins in the middle of its border, where the wire crosses
only a line of GCells; the left one does not get them -/
theorem c109_wire_along_border : pinGrid.Fits ∧ (∀ w ∈ pinWires, w.Ok pinGrid) ∧
    ∃ pins, cellPins pinGrid pinWires = some pins ∧ ∃ A ∈ genWorkers pinGrid 2 0, ∃ B ∈ genWorkers pinGrid 2 0,
      A.routeBox.right = B.routeBox.left ∧ A.routeBox.bottom = B.routeBox.bottom ∧ A.routeBox.top = B.routeBox.top ∧
      (⟨200, 100⟩, 6) ∈ workerPins pinGrid pins 2 B 2 ∧ workerPins pinGrid pins 2 A 2 = [] := by
  refine ⟨pinGrid_fits, ?_, ?_⟩
  · intro w hw
    simp only [pinWires, List.mem_cons, List.not_mem_nil, or_false] at hw
    rcases hw with rfl | rfl | rfl <;> simp [TWire.Ok, TWire.InDie, pinGrid, Box.Mem, InRect, Box.left, Box.right, Box.bottom, Box.top]
  · obtain ⟨pins, hp⟩ := cellPins_some pinGrid_fits pinWires
    refine ⟨pins, hp, mkWorker pinGrid 2 0 0 0 0, by decide +kernel, mkWorker pinGrid 2 2 0 1 0, by decide +kernel, by decide +kernel, by decide +kernel, by decide +kernel, ?_⟩
    have h2 : cellPins pinGrid pinWires = some [⟨⟨0, 1⟩, 1, ⟨100, 150⟩, 4⟩, ⟨⟨1, 1⟩, 1, ⟨100, 150⟩, 4⟩, ⟨⟨1, 1⟩, 1, ⟨200, 150⟩, 4⟩, ⟨⟨2, 1⟩, 1, ⟨200, 150⟩, 4⟩,
        ⟨⟨2, 1⟩, 1, ⟨300, 150⟩, 4⟩, ⟨⟨3, 1⟩, 1, ⟨300, 150⟩, 4⟩, ⟨⟨2, 0⟩, 2, ⟨200, 100⟩, 6⟩, ⟨⟨2, 1⟩, 2, ⟨200, 100⟩, 6⟩] := by decide +kernel
    rw [h2] at hp
    cases hp
    constructor <;> decide +kernel

end TR
