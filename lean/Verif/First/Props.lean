import Verif.First.Lemmas
import Verif.TaInit.Props
/-! C181: if every region of the first iteration connects what it is given of a net, the net is connected. -/
namespace TR

variable {g : GGrid} {clip : Int} {ws : List TWire} {pins : List CellPin}

theorem nodup_eraseDups (l : List Nat) : l.eraseDups.Nodup := by
  generalize hn : l.length = n
  induction n using Nat.strongRecOn generalizing l with
  | _ n ih =>
    cases l with
    | nil => simp
    | cons a t =>
      rw [List.eraseDups_cons, List.nodup_cons]
      have hlen : (t.filter (fun b => !b == a)).length < n := by
        have := List.length_filter_le (fun b => !b == a) t
        simp only [List.length_cons] at hn
        omega
      exact ⟨by simp, ih _ hlen _ rfl⟩

/-- C181: the pins of a net that a region is given: the terminals of the net with a GCell centre in the region, each once, and the places where its
wires cross the border. -/
theorem c181_pins (ts : List GrTerm) (W : Worker) (net : Nat) :
    (∀ t, .term t ∈ netPins g pins clip ts W net ↔ ∃ x ∈ ts, x.term = t ∧ x.net = net ∧ W.routeBox.Mem x.at_) ∧
    (∀ p l, .border p l ∈ netPins g pins clip ts W net ↔ (p, l) ∈ workerPins g pins clip W net) ∧
    (netTerms W.routeBox ts net).Nodup := by
  refine ⟨fun t => ?_, fun p l => ?_, nodup_eraseDups _⟩
  · simp only [netPins, netTerms, List.mem_append, List.mem_map, List.mem_eraseDups, List.mem_filter, Bool.and_eq_true, decide_eq_true_eq,
      RegPin.term.injEq, reduceCtorEq, and_false, exists_false, or_false]
    constructor
    · rintro ⟨_, ⟨x, ⟨h1, h2, h3⟩, rfl⟩, rfl⟩
      refine ⟨x, h1, rfl, h2, ?_⟩
      simp only [Box.meets, Bool.and_eq_true, decide_eq_true_eq, Box.left, Box.right, Box.bottom, Box.top] at h3
      simp only [Box.Mem, InRect, Box.left, Box.right, Box.bottom, Box.top]
      omega
    · rintro ⟨x, h1, rfl, h2, h3⟩
      refine ⟨_, ⟨x, ⟨h1, h2, ?_⟩, rfl⟩, rfl⟩
      simp only [Box.Mem, InRect, Box.left, Box.right, Box.bottom, Box.top] at h3
      simp only [Box.meets, Bool.and_eq_true, decide_eq_true_eq, Box.left, Box.right, Box.bottom, Box.top]
      omega
  · simp only [netPins, List.mem_append, List.mem_map, RegPin.border.injEq, reduceCtorEq, and_false, exists_false, false_or]
    constructor
    · rintro ⟨⟨a, b⟩, h, rfl, rfl⟩; exact h
    · intro h; exact ⟨_, h, rfl, rfl⟩

/-- C181: a net is taken into a region, once, exactly if it has a wire or via found around it, a guide that meets it or a terminal in it. -/
theorem c181_nets (rb : Box) (objNets : List Nat) (gds : List (Nat × Box)) (ts : List GrTerm) :
    (regionNets rb objNets gds ts).Nodup ∧ ∀ n, n ∈ regionNets rb objNets gds ts ↔
      n ∈ objNets ∨ (∃ b, (n, b) ∈ gds ∧ rb.meets b = true) ∨ ∃ t ∈ ts, t.net = n ∧ rb.Mem t.at_ := by
  refine ⟨nodup_eraseDups _, fun n => ?_⟩
  have hm : ∀ p : Point, rb.meets ⟨p, p⟩ = true ↔ rb.Mem p := by
    intro p
    simp only [Box.meets, Bool.and_eq_true, decide_eq_true_eq, Box.Mem, InRect, Box.left, Box.right, Box.bottom, Box.top]
    omega
  simp only [regionNets, List.mem_eraseDups, List.mem_append, List.mem_map, List.mem_filter, hm, or_assoc]
  refine or_congr Iff.rfl (or_congr ⟨?_, ?_⟩ ⟨?_, ?_⟩)
  · rintro ⟨⟨a, b⟩, ⟨h1, h2⟩, rfl⟩; exact ⟨b, h1, h2⟩
  · rintro ⟨b, h1, h2⟩; exact ⟨_, ⟨h1, h2⟩, rfl⟩
  · rintro ⟨t, ⟨h1, h2⟩, rfl⟩; exact ⟨t, h1, rfl, h2⟩
  · rintro ⟨t, h1, rfl, h2⟩; exact ⟨t, ⟨h1, h2⟩, rfl⟩

/-- region of the given column and row -/
def RegionAt (g : GGrid) (clip : Int) (k l : Nat) (W : Worker) : Prop :=
  W ∈ genWorkers g clip 0 ∧ W.routeBox = ⟨⟨(axisRoute g.xp g.die.left g.die.right clip (k * clip)).1, (axisRoute g.yp g.die.bottom g.die.top clip (l * clip)).1⟩,
        ⟨(axisRoute g.xp g.die.left g.die.right clip (k * clip)).2, (axisRoute g.yp g.die.bottom g.die.top clip (l * clip)).2⟩⟩

section
variable (hf : g.Fits) (hc : 0 < clip) (hws : ∀ w ∈ ws, w.Ok g) (hp : cellPins g ws = some pins)
  {E : RegPin → RegPin → Prop} (symm : ∀ a b, E a b → E b a) (trans : ∀ a b c, E a b → E b c → E a c) {ts : List GrTerm} {net : Nat}
  (hE : ∀ W ∈ genWorkers g clip 0, ∀ a ∈ netPins g pins clip ts W net, ∀ b ∈ netPins g pins clip ts W net, E a b)
  {d : TGuide} (hd : GuideOk g d) (hn : d.net = net)
  {w : TWire} (hw : w ∈ ws) (hwn : w.net = net) (hb : SameCell g w.b d.b) (he : SameCell g w.e d.e) (hlen : w.dummy = false)

include hf hc hws hp symm trans hE hd hw hwn hb he hlen in
theorem cross_h (hy : d.b.y = d.e.y) {p q : Point} (hpy : p.y = d.b.y) (hqy : q.y = d.b.y) (hpx : d.b.x ≤ p.x) (hqx : q.x ≤ d.e.x)
    {k k' l : Nat} (hk : k < k') (hx1 : AxisAt g.xp g.die.left g.die.right clip k p.x) (hx2 : AxisAt g.xp g.die.left g.die.right clip k' q.x)
    (hl : AxisAt g.yp g.die.bottom g.die.top clip l d.b.y) {A B : Worker} (hA : RegionAt g clip k l A) (hB : RegionAt g clip k' l B) :
    ∃ a ∈ netPins g pins clip ts A net, ∃ b ∈ netPins g pins clip ts B net, E a b := by
  obtain ⟨pins', hp', hall⟩ := c109_boundary_pins hf hc hws
  rw [hp] at hp'; cases hp'
  obtain ⟨⟨db, de⟩, hor⟩ := hws w hw
  rw [die_mem] at db de
  have hdb := die_mem.1 hd.1
  have sb := fun k h0 h1 => by have := hb.1 k h0 h1; rwa [box_left hf h0 h1] at this
  have se := fun k h0 h1 => by have := he.1 k h0 h1; rwa [box_left hf h0 h1] at this
  obtain ⟨c1, c2, c3⟩ := axis_cross hf.1 hc hk hx1 hx2 hpx hqx sb se
  have hwl : AxisAt g.yp g.die.bottom g.die.top clip l w.b.y := by
    refine axisAt_same hf.2 hc (by omega) (by omega) (by omega) (by omega) (fun k h0 h1 => ?_) hl
    have := hb.2 k h0 h1; rw [box_bottom hf h0 h1] at this; exact this.symm
  have hH : w.Horz := by
    rcases (not_dummy (hws w hw)).1 hlen with h | h
    · exact h
    · have := h.1; omega
  generalize hX : axisRoute g.xp g.die.left g.die.right clip (k * clip) = X at *
  generalize hX' : axisRoute g.xp g.die.left g.die.right clip (k' * clip) = X' at *
  have r1 : w.ReachesH ⟨X.2, w.b.y⟩ := ⟨hH, rfl, c1, by show X.2 ≤ _; omega⟩
  have r2 : w.ReachesH ⟨X'.1, w.b.y⟩ := ⟨hH, rfl, by show _ < X'.1; omega, c3⟩
  unfold RegionAt at hA hB
  rw [hX] at hA
  rw [hX'] at hB
  refine ⟨.border ⟨X.2, w.b.y⟩ w.layer, ?_, .border ⟨X'.1, w.b.y⟩ w.layer, ?_, ?_⟩
  · refine ((c181_pins ts A net).2.1 _ _).2 ((hall A hA.1 net _ _).2 ⟨w, hw, hwn, rfl, .inl ⟨r1, ?_, .inr (.inl (by rw [hA.2]))⟩⟩)
    rw [hA.2]; exact hwl.2
  · refine ((c181_pins ts B net).2.1 _ _).2 ((hall B hB.1 net _ _).2 ⟨w, hw, hwn, rfl, .inl ⟨r2, ?_, .inl (by rw [hB.2])⟩⟩)
    rw [hB.2]; exact hwl.2
  · subst hwn
    exact c109_wire_connected hf hc hws hp hw (E := fun a b => E (.border a.1 a.2) (.border b.1 b.2)) (fun _ _ => symm _ _) (fun _ _ _ => trans _ _ _)
      (fun W hW a ha b hb => hE W hW _ (((c181_pins ts W _).2.1 _ _).2 ha) _ (((c181_pins ts W _).2.1 _ _).2 hb))
      (.inl ⟨r1, r2, ⟨A, hA.1, .inr (by rw [hA.2])⟩, ⟨B, hB.1, .inl (by rw [hB.2])⟩⟩)

include hf hc hws hp symm trans hE hd hw hwn hb he hlen in
theorem cross_v (hy : d.b.x = d.e.x) {p q : Point} (hpy : p.x = d.b.x) (hqy : q.x = d.b.x) (hpx : d.b.y ≤ p.y) (hqx : q.y ≤ d.e.y)
    {k k' l : Nat} (hk : k < k') (hx1 : AxisAt g.yp g.die.bottom g.die.top clip k p.y) (hx2 : AxisAt g.yp g.die.bottom g.die.top clip k' q.y)
    (hl : AxisAt g.xp g.die.left g.die.right clip l d.b.x) {A B : Worker} (hA : RegionAt g clip l k A) (hB : RegionAt g clip l k' B) :
    ∃ a ∈ netPins g pins clip ts A net, ∃ b ∈ netPins g pins clip ts B net, E a b := by
  obtain ⟨pins', hp', hall⟩ := c109_boundary_pins hf hc hws
  rw [hp] at hp'; cases hp'
  obtain ⟨⟨db, de⟩, hor⟩ := hws w hw
  rw [die_mem] at db de
  have hdb := die_mem.1 hd.1
  have sb := fun k h0 h1 => by have := hb.2 k h0 h1; rwa [box_bottom hf h0 h1] at this
  have se := fun k h0 h1 => by have := he.2 k h0 h1; rwa [box_bottom hf h0 h1] at this
  obtain ⟨c1, c2, c3⟩ := axis_cross hf.2 hc hk hx1 hx2 hpx hqx sb se
  have hwl : AxisAt g.xp g.die.left g.die.right clip l w.b.x := by
    refine axisAt_same hf.1 hc (by omega) (by omega) (by omega) (by omega) (fun k h0 h1 => ?_) hl
    have := hb.1 k h0 h1; rw [box_left hf h0 h1] at this; exact this.symm
  have hH : w.Vert := by
    rcases (not_dummy (hws w hw)).1 hlen with h | h
    · have := h.1; omega
    · exact h
  generalize hX : axisRoute g.yp g.die.bottom g.die.top clip (k * clip) = X at *
  generalize hX' : axisRoute g.yp g.die.bottom g.die.top clip (k' * clip) = X' at *
  have r1 : w.ReachesV ⟨w.b.x, X.2⟩ := ⟨hH, rfl, c1, by show X.2 ≤ _; omega⟩
  have r2 : w.ReachesV ⟨w.b.x, X'.1⟩ := ⟨hH, rfl, by show _ < X'.1; omega, c3⟩
  unfold RegionAt at hA hB
  rw [hX] at hA
  rw [hX'] at hB
  refine ⟨.border ⟨w.b.x, X.2⟩ w.layer, ?_, .border ⟨w.b.x, X'.1⟩ w.layer, ?_, ?_⟩
  · refine ((c181_pins ts A net).2.1 _ _).2 ((hall A hA.1 net _ _).2 ⟨w, hw, hwn, rfl, .inr ⟨r1, ?_, .inr (.inl (by rw [hA.2]))⟩⟩)
    rw [hA.2]; exact hwl.2
  · refine ((c181_pins ts B net).2.1 _ _).2 ((hall B hB.1 net _ _).2 ⟨w, hw, hwn, rfl, .inr ⟨r2, ?_, .inl (by rw [hB.2])⟩⟩)
    rw [hB.2]; exact hwl.2
  · subst hwn
    exact c109_wire_connected hf hc hws hp hw (E := fun a b => E (.border a.1 a.2) (.border b.1 b.2)) (fun _ _ => symm _ _) (fun _ _ _ => trans _ _ _)
      (fun W hW a ha b hb => hE W hW _ (((c181_pins ts W _).2.1 _ _).2 ha) _ (((c181_pins ts W _).2.1 _ _).2 hb))
      (.inr ⟨r1, r2, ⟨A, hA.1, .inr (by rw [hA.2])⟩, ⟨B, hB.1, .inl (by rw [hB.2])⟩⟩)
end

/-- C181: if every region of the first iteration connects the pins it is given of a net with each other, and the wires of the guides run from the GCell
where the guide begins to the one where it ends, then any two terminals of the net that hang together through its guides are connected, whatever
the regions do inside. (A wire of one unit is skipped by the program; no wire between GCells may be that short.) -/
theorem c181_connected (hf : g.Fits) (hc : 0 < clip) (hws : ∀ w ∈ ws, w.Ok g) (hp : cellPins g ws = some pins)
    {E : RegPin → RegPin → Prop} (symm : ∀ a b, E a b → E b a) (trans : ∀ a b c, E a b → E b c → E a c) {ts : List GrTerm} {net : Nat}
    (hE : ∀ W ∈ genWorkers g clip 0, ∀ a ∈ netPins g pins clip ts W net, ∀ b ∈ netPins g pins clip ts W net, E a b)
    {gs : List TGuide} (hgs : ∀ d ∈ gs, d.net = net → GuideOk g d ∧ (SameCell g d.b d.e ∨ WiredFrom g ws d))
    (hlen : ∀ w ∈ ws, w.dummy = true → SameCell g w.b w.e) (hts : ∀ t ∈ ts, g.die.Mem t.at_)
    {t1 t2 : Nat} {p q : Point} (h1 : ⟨t1, net, p⟩ ∈ ts) (h2 : ⟨t2, net, q⟩ ∈ ts) (hh : Hang net gs ts p q) : E (.term t1) (.term t2) := by
  have hterm : ∀ {t : Nat} {r : Point} {k l : Nat} {W : Worker}, ⟨t, net, r⟩ ∈ ts → AxisAt g.xp g.die.left g.die.right clip k r.x →
      AxisAt g.yp g.die.bottom g.die.top clip l r.y → RegionAt g clip k l W → .term t ∈ netPins g pins clip ts W net := by
    intro t r k l W ht hx hy hW
    have := region_own hx hy hW.2
    refine ((c181_pins ts W net).1 t).2 ⟨_, ht, rfl, rfl, ?_⟩
    simp only [Box.meets, Bool.and_eq_true, decide_eq_true_eq, Box.left, Box.right, Box.bottom, Box.top] at this
    simp only [Box.Mem, InRect, Box.left, Box.right, Box.bottom, Box.top]
    omega
  have hat : ∀ {r : Point}, g.die.Mem r → ∃ k l W, AxisAt g.xp g.die.left g.die.right clip k r.x ∧
      AxisAt g.yp g.die.bottom g.die.top clip l r.y ∧ RegionAt g clip k l W := by
    intro r hr
    rw [die_mem] at hr
    obtain ⟨k, hk⟩ := axis_owner hf.1 hc hr.1 hr.2.1
    obtain ⟨l, hl⟩ := axis_owner hf.2 hc hr.2.2.1 hr.2.2.2
    obtain ⟨W, hW⟩ := region_at hf hc hk.1 hl.1
    exact ⟨k, l, W, hk, hl, hW⟩
  have hinv : ∀ (k l : Nat) (W : Worker), AxisAt g.xp g.die.left g.die.right clip k q.x → AxisAt g.yp g.die.bottom g.die.top clip l q.y →
      RegionAt g clip k l W → ∃ a ∈ netPins g pins clip ts W net, E a (.term t1) := by
    clear h2
    induction hh with
    | refl =>
      intro k l W hx hy hW
      have := hterm h1 hx hy hW
      exact ⟨_, this, hE W hW.1 _ this _ this⟩
    | @term q r t hq hqt hrt ih =>
      intro k l W hx hy hW
      obtain ⟨k0, l0, W0, hx0, hy0, hW0⟩ := hat (hts _ hqt)
      obtain ⟨a, ha, hea⟩ := ih k0 l0 W0 hx0 hy0 hW0
      exact ⟨.term t, hterm hrt hx hy hW, trans _ _ _ (hE W0 hW0.1 _ (hterm hqt hx0 hy0 hW0) _ ha) hea⟩
    | @guide q r d hq hd hn pq pr ih =>
      intro k' l' W' hx' hy' hW'
      obtain ⟨⟨d1, d2, hor⟩, hwire⟩ := hgs d hd hn
      have m1 := die_mem.1 d1
      have m2 := die_mem.1 d2
      have hdok : GuideOk g d := ⟨d1, d2, hor⟩
      obtain ⟨a1, a2, a3, a4⟩ := pq
      obtain ⟨b1, b2, b3, b4⟩ := pr
      have step : ∀ {W : Worker}, (∃ a ∈ netPins g pins clip ts W net, E a (.term t1)) → W ∈ genWorkers g clip 0 →
          (∃ a ∈ netPins g pins clip ts W net, ∃ b ∈ netPins g pins clip ts W' net, E a b) → ∃ a ∈ netPins g pins clip ts W' net, E a (.term t1) := by
        rintro W ⟨a, ha, hea⟩ hW ⟨x, hx, y, hy, hxy⟩
        exact ⟨y, hy, trans _ _ _ (symm _ _ hxy) (trans _ _ _ (hE W hW _ hx _ ha) hea)⟩
      have hwr : ¬ SameCell g d.b d.e → ∃ w ∈ ws, w.net = net ∧ SameCell g w.b d.b ∧ SameCell g w.e d.e ∧ w.dummy = false := by
        intro hns
        obtain ⟨w, hw, e1, e2, e3⟩ := hwire.resolve_left hns
        refine ⟨w, hw, e1.trans hn, e2, e3, ?_⟩
        cases hdm : w.dummy with
        | false => rfl
        | true =>
          have e4 := hlen w hw hdm
          exact absurd ⟨fun k h0 h1 => by rw [← e2.1 k h0 h1, e4.1 k h0 h1, e3.1 k h0 h1], fun k h0 h1 => by rw [← e2.2 k h0 h1, e4.2 k h0 h1, e3.2 k h0 h1]⟩ hns
      rcases hor with ⟨ho, hle⟩ | ⟨ho, hle⟩
      · have eq : q.y = d.b.y := by omega
        have er : r.y = d.b.y := by omega
        obtain ⟨k, hk⟩ := axis_owner hf.1 hc (c := q.x) (by omega) (by omega)
        obtain ⟨W, hW⟩ := region_at hf hc hk.1 hy'.1
        have hh := ih k l' W hk (by rw [eq, ← er]; exact hy') hW
        have hns : ∀ {c c' : Int} {k k' : Nat}, k < k' → AxisAt g.xp g.die.left g.die.right clip k c → AxisAt g.xp g.die.left g.die.right clip k' c' →
            d.b.x ≤ c → c' ≤ d.e.x → ¬ SameCell g d.b d.e := by
          intro c c' k k' hkk hc1 hc2 hb he hs
          have hs' := fun k h0 h1 => by have := hs.1 k h0 h1; rwa [box_left hf h0 h1] at this
          have := axis_cross hf.1 hc hkk hc1 hc2 hb he (wb := d.e.x) (we := d.b.x) (fun k h0 h1 => (hs' k h0 h1).symm) hs'
          omega
        rcases Nat.lt_trichotomy k k' with hkk | hkk | hkk
        · obtain ⟨w, hw, e1, e2, e3, e4⟩ := hwr (hns hkk hk hx' (by omega) (by omega))
          exact step hh hW.1 (cross_h hf hc hws hp symm trans hE hdok hw e1 e2 e3 e4 ho eq er (by omega) (by omega) hkk hk hx' (by rw [← er]; exact hy') hW hW')
        · subst hkk
          exact ih k l' W' hk (by rw [eq, ← er]; exact hy') hW'
        · obtain ⟨w, hw, e1, e2, e3, e4⟩ := hwr (hns hkk hx' hk (by omega) (by omega))
          obtain ⟨x, hx, y, hy, hxy⟩ := cross_h hf hc hws hp symm trans hE hdok hw e1 e2 e3 e4 ho er eq (by omega) (by omega) hkk hx' hk (by rw [← er]; exact hy') hW' hW
          exact step hh hW.1 ⟨y, hy, x, hx, symm _ _ hxy⟩
      · have eq : q.x = d.b.x := by omega
        have er : r.x = d.b.x := by omega
        obtain ⟨k, hk⟩ := axis_owner hf.2 hc (c := q.y) (by omega) (by omega)
        obtain ⟨W, hW⟩ := region_at hf hc hx'.1 hk.1
        have hh := ih k' k W (by rw [eq, ← er]; exact hx') hk hW
        have hns : ∀ {c c' : Int} {k k' : Nat}, k < k' → AxisAt g.yp g.die.bottom g.die.top clip k c → AxisAt g.yp g.die.bottom g.die.top clip k' c' →
            d.b.y ≤ c → c' ≤ d.e.y → ¬ SameCell g d.b d.e := by
          intro c c' k k' hkk hc1 hc2 hb he hs
          have hs' := fun k h0 h1 => by have := hs.2 k h0 h1; rwa [box_bottom hf h0 h1] at this
          have := axis_cross hf.2 hc hkk hc1 hc2 hb he (wb := d.e.y) (we := d.b.y) (fun k h0 h1 => (hs' k h0 h1).symm) hs'
          omega
        rcases Nat.lt_trichotomy k l' with hkk | hkk | hkk
        · obtain ⟨w, hw, e1, e2, e3, e4⟩ := hwr (hns hkk hk hy' (by omega) (by omega))
          exact step hh hW.1 (cross_v hf hc hws hp symm trans hE hdok hw e1 e2 e3 e4 ho eq er (by omega) (by omega) hkk hk hy' (by rw [← er]; exact hx') hW hW')
        · subst hkk
          exact ih k' k W' (by rw [eq, ← er]; exact hx') hk hW'
        · obtain ⟨w, hw, e1, e2, e3, e4⟩ := hwr (hns hkk hy' hk (by omega) (by omega))
          obtain ⟨x, hx, y, hy, hxy⟩ := cross_v hf hc hws hp symm trans hE hdok hw e1 e2 e3 e4 ho er eq (by omega) (by omega) hkk hy' hk (by rw [← er]; exact hx') hW' hW
          exact step hh hW.1 ⟨y, hy, x, hx, symm _ _ hxy⟩
  obtain ⟨k, l, W, hx, hy, hW⟩ := hat (hts _ h2)
  obtain ⟨a, ha, hea⟩ := hinv k l W hx hy hW
  exact trans _ _ _ (symm _ _ hea) (hE W hW.1 _ ha _ (hterm h2 hx hy hW))

end TR
