import Verif.DrPin.Term
/-! # C133 – C136: the access points of a terminal in a region -/
namespace TR

/-! ### the points of pin access -/

theorem apKept_iff (T : ApTech) (route : Box) (initDR : Bool) (p : Point) (l : Int) :
    apKept T route initDR p l = true ↔ Usable T route initDR l p := by
  unfold apKept Usable Box.containsPt Box.Has
  obtain ⟨px, py⟩ := p
  obtain ⟨⟨rl, rb⟩, ⟨rr, rt⟩⟩ := route
  cases initDR <;> cases T.horz l <;> cases T.rectOnly l <;>
    simp only [Bool.and_eq_true, Bool.or_eq_true, Bool.not_eq_true', Bool.and_eq_false_iff, Bool.or_eq_false_iff, decide_eq_true_eq,
      decide_eq_false_iff_not, Box.left, Box.right, Box.top, Box.bottom, Point.mk.injEq, ne_eq, if_true, Bool.not_true, Bool.not_false,
      Bool.false_eq_true, Bool.true_eq_false, reduceCtorEq, false_or, or_false, true_and, and_true, true_or, or_true, false_and, and_false,
      false_implies, true_implies, not_and, if_false, forall_const, not_false_eq_true, not_true_eq_false, implies_true] <;> omega

/-- the number of pins with access points before pin `j` -/
def pinsBefore (ps : List TermPin) (j : Nat) : Nat := ((ps.take j).filter fun p => !p.access.isEmpty).length

theorem mem_preAps {T : ApTech} {route : Box} {initDR : Bool} {I : TermInst} {d : DrAp} :
    ∀ {ps : List TermPin} {k : Nat}, d ∈ preAps T route initDR I k ps ↔
      ∃ j pin c aps a, ps[j]? = some pin ∧ I.paIdx = some c ∧ pin.access[c]? = some aps ∧ a ∈ aps ∧
        preAp T route initDR { I.at' with ori := .R0 } (I.pref.getD (k + pinsBefore ps j) none) a = some d
  | [], k => by simp [preAps]
  | p :: ps, k => by
    have skip : ∀ k', (∀ j, k' + pinsBefore ps j = k + pinsBefore (p :: ps) (j + 1)) →
        ((∃ j pin c aps a, ps[j]? = some pin ∧ I.paIdx = some c ∧ pin.access[c]? = some aps ∧ a ∈ aps ∧
          preAp T route initDR { I.at' with ori := .R0 } (I.pref.getD (k' + pinsBefore ps j) none) a = some d) ↔
        (∃ j pin c aps a, (p :: ps)[j + 1]? = some pin ∧ I.paIdx = some c ∧ pin.access[c]? = some aps ∧ a ∈ aps ∧
          preAp T route initDR { I.at' with ori := .R0 } (I.pref.getD (k + pinsBefore (p :: ps) (j + 1)) none) a = some d)) := by
      intro k' he
      simp only [he, List.getElem?_cons_succ]
    rw [preAps]
    split
    · rename_i hempty
      rw [mem_preAps, skip k (fun j => by simp [pinsBefore, hempty])]
      constructor
      · rintro ⟨j, h⟩; exact ⟨j + 1, h⟩
      · rintro ⟨j, pin, c, aps, a, h1, h2, h3, h4⟩
        cases j with
        | zero =>
          simp only [List.getElem?_cons_zero, Option.some.injEq] at h1
          subst h1
          rw [hempty] at h3
          cases h3
        | succ j => exact ⟨j, pin, c, aps, a, h1, h2, h3, h4⟩
    · rename_i hne
      cases hI : I.paIdx with
      | none =>
        dsimp only
        rw [mem_preAps]
        simp [hI]
      | some i =>
        dsimp only
        rw [List.mem_append, mem_preAps, skip (k + 1) (fun j => by simp [pinsBefore, hne]; omega), List.mem_filterMap]
        constructor
        · rintro (⟨a, ha, hd⟩ | ⟨j, pin, c, aps, a, h⟩)
          · cases hx : p.access[i]? with
            | none => rw [List.getD_eq_getElem?_getD, hx] at ha; cases ha
            | some aps =>
              rw [List.getD_eq_getElem?_getD, hx] at ha
              exact ⟨0, p, i, aps, a, rfl, hI ▸ rfl, hx, ha, by simpa [pinsBefore] using hd⟩
          · exact ⟨j + 1, pin, c, aps, a, hI ▸ h⟩
        · rintro ⟨j, pin, c, aps, a, h1, h2, h3, h4, h5⟩
          cases j with
          | zero =>
            left
            simp only [List.getElem?_cons_zero, Option.some.injEq] at h1 h2
            subst h1 h2
            refine ⟨a, by rw [List.getD_eq_getElem?_getD, h3]; exact h4, ?_⟩
            simpa [pinsBefore] using h5
          | succ j => exact Or.inr ⟨j, pin, c, aps, a, h1, hI ▸ h2, h3, h4, h5⟩

theorem preAp_some {T : ApTech} {route : Box} {initDR : Bool} {I : TermInst} {pref : Option Nat} {a : PreAp} {d : DrAp} :
    preAp T route initDR { I.at' with ori := .R0 } pref a = some d ↔
      Usable T route initDR a.layer (I.spot a) ∧
      d = ⟨a.layer, I.spot a, if pref = some a.id then 0 else 1, if T.marFix then apArea T a.layer else 0, a.dirs,
        if a.dirs.u = true ∧ a.vias ≠ [] then some a.vias else none⟩ := by
  unfold preAp
  have e : a.pt.transform { I.at' with ori := .R0 } = I.spot a := rfl
  dsimp only
  rw [e, ← apKept_iff]
  split
  · rename_i h
    simp only [h, true_and, Option.some.injEq]
    exact eq_comm
  · rename_i h
    simp [h]

/-- the points of pin access that the region may use -/
theorem preAps_ne {T : ApTech} {route : Box} {initDR : Bool} {n : NetTerm} {I : TermInst} (hI : n.inst = some I) :
    preAps T route initDR I 0 n.pins ≠ [] ↔ ∃ k a, n.Found I k a ∧ Usable T route initDR a.layer (I.spot a) := by
  constructor
  · intro h
    obtain ⟨d, hd⟩ := List.exists_mem_of_ne_nil _ h
    obtain ⟨j, pin, c, aps, a, h1, h2, h3, h4, h5⟩ := mem_preAps.1 hd
    exact ⟨j, a, ⟨hI, pin, c, aps, h1, h2, h3, h4⟩, (preAp_some.1 h5).1⟩
  · rintro ⟨k, a, ⟨_, pin, c, aps, h1, h2, h3, h4⟩, hu⟩ he
    have := (mem_preAps (k := 0)).2 ⟨k, pin, c, aps, a, h1, h2, h3, h4, preAp_some.2 ⟨hu, rfl⟩⟩
    rw [he] at this
    cases this

/-- the terminal has a point of pin access that the region may use -/
def NetTerm.Served (T : ApTech) (route : Box) (initDR : Bool) (n : NetTerm) : Prop :=
  ∃ I k a, n.Found I k a ∧ Usable T route initDR a.layer (I.spot a)

theorem served_iff {T : ApTech} {route : Box} {initDR : Bool} {n : NetTerm} :
    n.Served T route initDR ↔ foundAps T route initDR n ≠ [] := by
  unfold foundAps
  cases hI : n.inst with
  | none => simp [NetTerm.Served, NetTerm.Found, hI]
  | some I =>
    dsimp only
    rw [preAps_ne hI]
    constructor
    · rintro ⟨J, k, a, h⟩
      obtain ⟨hJ, _⟩ := h.1
      rw [hI] at hJ
      injection hJ with hJ
      subst hJ
      exact ⟨k, a, h⟩
    · rintro ⟨k, a, h⟩
      exact ⟨I, k, a, h⟩

/-! ## C135: the points of pin access come first -/

/-- C135: if pin access left a point of the terminal that the region may use, the terminal has exactly these points: each as pin access left it,
moved with the instance, and of cost 0 if it is the one chosen for its pin, else 1. -/
theorem c135_points_of_pin_access {T : ApTech} {route : Box} {initDR : Bool} {n : NetTerm} (hs : n.Served T route initDR)
    (hacc : ∀ pin ∈ n.pins, pin.access ≠ []) :
    ∃ l, termAps T route initDR n = .aps l ∧
      (∀ d ∈ l, ∃ I k a, n.Found I k a ∧ Usable T route initDR a.layer (I.spot a) ∧ Keeps T I k a d) ∧
      (∀ I k a, n.Found I k a → Usable T route initDR a.layer (I.spot a) → ∃ d ∈ l, Keeps T I k a d) := by
  have hne := served_iff.1 hs
  have hb : ∀ j, j ≤ n.pins.length → pinsBefore n.pins j = j := by
    intro j hj
    unfold pinsBefore
    rw [List.filter_eq_self.2 (fun p hp => by simp [hacc p (List.mem_of_mem_take hp)]), List.length_take]
    omega
  cases hI : n.inst with
  | none =>
    obtain ⟨I, k, a, h, _⟩ := hs
    have := h.1
    rw [hI] at this
    cases this
  | some I =>
    have hf : foundAps T route initDR n = preAps T route initDR I 0 n.pins := by unfold foundAps; rw [hI]
    refine ⟨preAps T route initDR I 0 n.pins, ?_, ?_, ?_⟩
    · unfold termAps
      rw [if_pos hne, hf]
    · intro d hd
      obtain ⟨j, pin, c, aps, a, h1, h2, h3, h4, h5⟩ := mem_preAps.1 hd
      have hj : j < n.pins.length := (List.getElem?_eq_some_iff.1 h1).1
      rw [hb j (by omega), Nat.zero_add] at h5
      obtain ⟨hu, rfl⟩ := preAp_some.1 h5
      refine ⟨I, j, a, ⟨hI, pin, c, aps, h1, h2, h3, h4⟩, hu, ⟨rfl, rfl, ?_, ?_, rfl, rfl, rfl⟩⟩
      · dsimp only
        rw [List.getD_eq_getElem?_getD]
        cases hx : I.pref[j]? with
        | none => simp
        | some o => cases o <;> simp
      · dsimp only; split <;> simp
    · rintro J k a ⟨hJ, pin, c, aps, h1, h2, h3, h4⟩ hu
      rw [hI] at hJ
      injection hJ with hJ
      subst hJ
      have hj : k < n.pins.length := (List.getElem?_eq_some_iff.1 h1).1
      refine ⟨_, mem_preAps.2 ⟨k, pin, c, aps, a, h1, h2, h3, h4, preAp_some.2 ⟨hu, rfl⟩⟩, ⟨rfl, rfl, ?_, ?_, rfl, rfl, rfl⟩⟩
      · dsimp only
        rw [hb k (by omega), Nat.zero_add, List.getD_eq_getElem?_getD]
        cases hx : I.pref[k]? with
        | none => simp
        | some o => cases o <;> simp
      · dsimp only; split <;> simp

/-! ## C133: temporary points -/

theorem termAps_temp {T : ApTech} {route : Box} {initDR : Bool} {n : NetTerm} (hs : ¬ n.Served T route initDR) {l : List DrAp}
    (h : termAps T route initDR n = .aps l) : l = tempAps T route initDR n := by
  rw [served_iff, ne_eq, Decidable.not_not] at hs
  unfold termAps at h
  rw [hs, if_neg (by simp)] at h
  split at h
  · cases h
  · split at h
    · injection h with h; exact h.symm
    · cases h

theorem pinCuts_shape {T : ApTech} {route : Box} {n : NetTerm} (hi : ApInput T n) (hn : n.inst = none) {pin : TermPin} (hp : pin ∈ n.pins)
    {s : Int × Box × Box} (hs : s ∈ pinCuts T route n pin) : (s.1, s.2.1) ∈ pin.shapes := by
  obtain ⟨t, ht, he⟩ := List.mem_filterMap.1 hs
  obtain ⟨b, _, _, hb, hsh⟩ := shapeIn_box T route n t (hi.boxes pin hp t ht)
  rw [hsh] at he
  split at he
  · obtain ⟨c, _, rfl⟩ := Option.map_eq_some_iff.1 he
    rw [hb hn]
    exact ht
  · cases he

/-- C133: every access point of a terminal lies in the region, boundary included, and in the first iteration not at the upper right corner. -/
theorem c133_in_region {T : ApTech} {route : Box} {initDR : Bool} {n : NetTerm} (hi : ApInput T n) (hr : route.Proper) {l : List DrAp}
    (h : termAps T route initDR n = .aps l) {a : DrAp} (ha : a ∈ l) :
    route.Has a.pt ∧ (initDR = true → a.pt ≠ route.ur) := by
  by_cases hs : n.Served T route initDR
  · have hne := served_iff.1 hs
    unfold termAps at h
    rw [if_pos hne] at h
    injection h with h
    subst h
    unfold foundAps at ha
    cases hI : n.inst with
    | none => rw [hI] at ha; cases ha
    | some I =>
      rw [hI] at ha
      obtain ⟨j, pin, c, aps, b, h1, h2, h3, h4, h5⟩ := mem_preAps.1 ha
      obtain ⟨hu, rfl⟩ := preAp_some.1 h5
      exact ⟨hu.1, hu.2.1⟩
  · have := termAps_temp hs h
    subst this
    obtain ⟨pin, hp, ha⟩ := List.mem_flatMap.1 ha
    rcases mem_tempPin hi hr hp ha with ⟨s, hs, _, hh, hne, _⟩ | ⟨_, s, hs, hrect⟩
    · exact ⟨(((pinCuts_ok hi hr hp hs).has _).1 hh).2, hne⟩
    · obtain ⟨_, _, _, b1, b2, b3, b4⟩ := mem_termRectAps hrect
      refine ⟨⟨b1, by omega, b3, by omega⟩, fun _ e => ?_⟩
      rw [e] at b2
      simp only [Box.right] at b2
      omega

/-- C133: a temporary access point lies on metal of the terminal, on a routing layer (the rectangles of a terminal of the design have to be drawn
on the manufacturing grid). -/
theorem c133_on_metal {T : ApTech} {route : Box} {initDR : Bool} {n : NetTerm} (hi : ApInput T n) (hr : route.Proper)
    (hg : n.inst = none → OnGrid T n) (hs : ¬ n.Served T route initDR) {l : List DrAp}
    (h : termAps T route initDR n = .aps l) {a : DrAp} (ha : a ∈ l) : n.OnMetal T a.layer a.pt := by
  have := termAps_temp hs h
  subst this
  obtain ⟨pin, hp, ha⟩ := List.mem_flatMap.1 ha
  rcases mem_tempPin hi hr hp ha with ⟨s, hs, he, hh, _, _⟩ | ⟨hn, s, hs, hrect⟩
  · have hk := pinCuts_ok hi hr hp hs
    rw [he]
    exact hk.metal _ ((hk.has _).1 hh).1
  · have hk := pinCuts_ok hi hr hp hs
    obtain ⟨he, hx, hy, _⟩ := mem_termRectAps hrect
    have el : a.layer = s.1 := by rw [he]; rfl
    rw [el]
    obtain ⟨hg0, hg1⟩ := hg hn
    obtain ⟨⟨k1, g1⟩, ⟨k2, g2⟩, ⟨k3, g3⟩, ⟨k4, g4⟩⟩ := hg1 pin hp _ (pinCuts_shape hi hn hp hs)
    dsimp only at g1 g2 g3 g4
    obtain ⟨s1, s2, s3, s4⟩ := hk.sub
    apply hk.metal
    have cx := centreLine_in hg0 g1 g2 hk.bproper.1
    have cy := centreLine_in hg0 g3 g4 hk.bproper.2
    rcases termLocs_in hi.spacing hi.widths hx hy with h | h | h
    · exact ⟨by omega, by omega, by omega, by omega⟩
    · exact ⟨by omega, by omega, by omega, by omega⟩
    · exact ⟨by omega, by omega, by omega, by omega⟩

/-- C133: a temporary access point of an instance's pin may be left upwards, never downwards, and along its layer unless the layer is the one on
which vias reach the pins; it costs more than any point of pin access. One of a terminal of the design that lies on tracks may be left along the
longer side of the rectangle only. -/
theorem c133_directions {T : ApTech} {route : Box} {initDR : Bool} {n : NetTerm} (hi : ApInput T n) (hr : route.Proper)
    (hs : ¬ n.Served T route initDR) {l : List DrAp} (h : termAps T route initDR n = .aps l) {a : DrAp} (ha : a ∈ l) :
    a.area = (T.minArea a.layer).getD 0 ∧ a.vias = none ∧
    (n.inst ≠ none → a.cost = 7 ∧ a.dirs.u = true ∧ a.dirs.d = false ∧
      ∀ v ∈ [a.dirs.e, a.dirs.s, a.dirs.w, a.dirs.n], v = true ↔ a.layer ≠ T.viaAccess) ∧
    (n.inst = none → a.cost = 0 ∧
      (a.dirs = ⟨true, true, true, true, true, true⟩ ∨
       ∃ pin ∈ n.pins, ∃ b, (a.layer, b) ∈ pin.shapes ∧
        a.dirs = if b.top - b.bottom < b.right - b.left then ⟨true, false, true, false, false, false⟩
          else ⟨false, true, false, true, false, false⟩)) := by
  have := termAps_temp hs h
  subst this
  obtain ⟨pin, hp, ha⟩ := List.mem_flatMap.1 ha
  rcases mem_tempPin hi hr hp ha with ⟨s, hs, _, _, _, ⟨⟨I, hI⟩, he⟩ | ⟨hn, he⟩⟩ | ⟨hn, s, hs, hrect⟩
  · rw [he]
    refine ⟨rfl, rfl, fun _ => ⟨rfl, rfl, rfl, ?_⟩, fun hn => ?_⟩
    · intro v hv
      simp only [tempAp, List.mem_cons, List.not_mem_nil, or_false, or_self] at hv
      subst hv
      simp [tempAp]
    · rw [hI] at hn; cases hn
  · rw [he]
    exact ⟨rfl, rfl, fun hne => absurd hn hne, fun _ => ⟨rfl, Or.inl rfl⟩⟩
  · obtain ⟨he, _⟩ := mem_termRectAps hrect
    rw [he]
    refine ⟨rfl, rfl, fun hne => absurd hn hne, fun _ => ⟨rfl, Or.inr ⟨pin, hp, s.2.1, pinCuts_shape hi hn hp hs, ?_⟩⟩⟩
    simp only [alongAp]
    by_cases hz : s.2.1.top - s.2.1.bottom < s.2.1.right - s.2.1.left
    · simp [hz]
    · simp [hz]

/-! ## C134: when the program gives up -/

/-- C134: (regions at coordinates that are not negative) the program ends with the message that a pin has no access point exactly when pin access
left none the region may use and no metal of the terminal on a routing layer lies in the region, where in the first iteration the upper right
corner does not count. -/
theorem c134_exit_iff {T : ApTech} {route : Box} {initDR : Bool} {n : NetTerm} (hi : ApInput T n) (hr : route.Proper)
    (h0 : 0 ≤ route.left) (h1 : 0 ≤ route.bottom) (hg : T.manuGrid ≠ 0) :
    termAps T route initDR n = .exit ↔ ¬ n.Served T route initDR ∧ ¬ n.InRegion T route initDR := by
  rw [← tempAps_ne_iff hi hr h0 h1, served_iff]
  unfold termAps
  by_cases h : foundAps T route initDR n ≠ []
  · rw [if_pos h]
    simp [h]
  · rw [if_neg h, if_neg (fun h => hg h.2)]
    by_cases h2 : tempAps T route initDR n ≠ []
    · rw [if_pos h2]
      simp [h2]
    · rw [if_neg h2]
      simp only [h, h2, not_false_eq_true, and_self]

/-- C134: it never divides by zero if the technology has a manufacturing grid. -/
theorem c134_no_division_by_zero {T : ApTech} {route : Box} {initDR : Bool} {n : NetTerm} (hg : T.manuGrid ≠ 0) :
    termAps T route initDR n ≠ .divZero := by
  unfold termAps
  split
  · simp
  · rw [if_neg (fun h => hg h.2)]
    split <;> simp

/-! ## C136: how crowded a net is -/

theorem pinSpot_iff (aps : List DrAp) (p : Point) : pinSpot aps = some p ↔ StandsFor aps p := by
  unfold pinSpot StandsFor
  cases hf : aps.find? fun a => a.cost == 0 with
  | some a =>
    dsimp only
    obtain ⟨h0, l, r, he, hl⟩ := List.find?_eq_some_iff_append.1 hf
    have hc : a.cost = 0 := by simpa using h0
    have hl' : ∀ b ∈ l, b.cost ≠ 0 := fun b hb => by have := hl b hb; simpa using this
    constructor
    · intro h
      injection h with h
      exact Or.inl ⟨l, a, r, he, hc, hl', h.symm⟩
    · rintro (⟨l2, a2, r2, he2, hc2, hl2, rfl⟩ | ⟨hall, _⟩)
      · have : (aps.find? fun a => a.cost == 0) = some a2 :=
          List.find?_eq_some_iff_append.2 ⟨by simp [hc2], l2, r2, he2, fun b hb => by have := hl2 b hb; simpa using this⟩
        rw [hf] at this
        injection this with this
        rw [this]
      · exact absurd hc (hall a (by rw [he]; simp))
  | none =>
    dsimp only
    have hall : ∀ b ∈ aps, b.cost ≠ 0 := fun b hb => by
      have := List.find?_eq_none.1 hf b hb
      simpa using this
    constructor
    · intro h
      right
      refine ⟨hall, ?_⟩
      cases aps with
      | nil => cases h
      | cons a r =>
        simp only [List.head?_cons, Option.map_some, Option.some.injEq] at h
        exact ⟨a, r, rfl, h.symm⟩
    · rintro (⟨l2, a2, r2, he2, hc2, _⟩ | ⟨_, a, r, rfl, rfl⟩)
      · exact absurd hc2 (hall a2 (by rw [he2]; simp))
      · rfl

theorem spotBox_fold (ps : List Point) : ∀ q : Int × Int × Int × Int,
    let q' := ps.foldl (fun q p => (if p.x < q.1 then p.x else q.1, if p.x > q.2.1 then p.x else q.2.1,
      if p.y < q.2.2.1 then p.y else q.2.2.1, if p.y > q.2.2.2 then p.y else q.2.2.2)) q
    (q'.1 ≤ q.1 ∧ q.2.1 ≤ q'.2.1 ∧ q'.2.2.1 ≤ q.2.2.1 ∧ q.2.2.2 ≤ q'.2.2.2) ∧
    (∀ p ∈ ps, q'.1 ≤ p.x ∧ p.x ≤ q'.2.1 ∧ q'.2.2.1 ≤ p.y ∧ p.y ≤ q'.2.2.2) ∧
    (q'.1 = q.1 ∨ ∃ p ∈ ps, q'.1 = p.x) ∧ (q'.2.1 = q.2.1 ∨ ∃ p ∈ ps, q'.2.1 = p.x) ∧
    (q'.2.2.1 = q.2.2.1 ∨ ∃ p ∈ ps, q'.2.2.1 = p.y) ∧ (q'.2.2.2 = q.2.2.2 ∨ ∃ p ∈ ps, q'.2.2.2 = p.y) := by
  induction ps with
  | nil => intro q; simp
  | cons p ps ih =>
    intro q
    have h := ih (if p.x < q.1 then p.x else q.1, if p.x > q.2.1 then p.x else q.2.1,
      if p.y < q.2.2.1 then p.y else q.2.2.1, if p.y > q.2.2.2 then p.y else q.2.2.2)
    rw [List.foldl_cons]
    revert h
    generalize List.foldl _ (_, _, _, _) ps = q'
    dsimp only
    rintro ⟨⟨a1, a2, a3, a4⟩, b, c1, c2, c3, c4⟩
    have e1 : (if p.x < q.1 then p.x else q.1) = q.1 ∧ ¬ p.x < q.1 ∨ (if p.x < q.1 then p.x else q.1) = p.x ∧ p.x < q.1 := by
      split <;> simp_all
    have e2 : (if p.x > q.2.1 then p.x else q.2.1) = q.2.1 ∧ ¬ p.x > q.2.1 ∨ (if p.x > q.2.1 then p.x else q.2.1) = p.x ∧ p.x > q.2.1 := by
      split <;> simp_all
    have e3 : (if p.y < q.2.2.1 then p.y else q.2.2.1) = q.2.2.1 ∧ ¬ p.y < q.2.2.1 ∨
        (if p.y < q.2.2.1 then p.y else q.2.2.1) = p.y ∧ p.y < q.2.2.1 := by split <;> simp_all
    have e4 : (if p.y > q.2.2.2 then p.y else q.2.2.2) = q.2.2.2 ∧ ¬ p.y > q.2.2.2 ∨
        (if p.y > q.2.2.2 then p.y else q.2.2.2) = p.y ∧ p.y > q.2.2.2 := by split <;> simp_all
    have lift : ∀ (v v0 w : Int) (f : Point → Int), (v = w ∨ ∃ p ∈ ps, v = f p) → (w = v0 ∨ w = f p) → (v = v0 ∨ ∃ x ∈ p :: ps, v = f x) := by
      rintro v v0 w f (h | ⟨x, hx, h⟩) h2
      · rcases h2 with h2 | h2
        · exact Or.inl (h.trans h2)
        · exact Or.inr ⟨p, by simp, h.trans h2⟩
      · exact Or.inr ⟨x, by simp [hx], h⟩
    refine ⟨by omega, ?_, lift _ _ _ (·.x) c1 (by omega), lift _ _ _ (·.x) c2 (by omega), lift _ _ _ (·.y) c3 (by omega),
      lift _ _ _ (·.y) c4 (by omega)⟩
    intro x hx
    rcases List.mem_cons.1 hx with rfl | hx
    · omega
    · exact b x hx

theorem pinsAmong_spec {ext : Box} {all spots : List Point} (hext : ∀ p ∈ spots, ext.Has p) (hne : spots ≠ []) :
    Around (pinsAmong ext all spots).2 spots ∧
    (pinsAmong ext all spots).1 = (all.filter fun p => (pinsAmong ext all spots).2.containsPt p).length := by
  obtain ⟨_, hb, c1, c2, c3, c4⟩ := spotBox_fold spots (ext.right, ext.left, ext.top, ext.bottom)
  change (∀ p ∈ spots, (spotBox ext spots).1 ≤ p.x ∧ p.x ≤ (spotBox ext spots).2.1 ∧ (spotBox ext spots).2.2.1 ≤ p.y ∧
    p.y ≤ (spotBox ext spots).2.2.2) at hb
  change (spotBox ext spots).1 = ext.right ∨ ∃ p ∈ spots, (spotBox ext spots).1 = p.x at c1
  change (spotBox ext spots).2.1 = ext.left ∨ ∃ p ∈ spots, (spotBox ext spots).2.1 = p.x at c2
  change (spotBox ext spots).2.2.1 = ext.top ∨ ∃ p ∈ spots, (spotBox ext spots).2.2.1 = p.y at c3
  change (spotBox ext spots).2.2.2 = ext.bottom ∨ ∃ p ∈ spots, (spotBox ext spots).2.2.2 = p.y at c4
  obtain ⟨p0, hp0⟩ := List.exists_mem_of_ne_nil _ hne
  have hp0b := hb p0 hp0
  unfold pinsAmong
  dsimp only
  rw [if_pos (by omega)]
  refine ⟨⟨?_, ?_⟩, rfl⟩
  · intro p hp
    have := hb p hp
    simp only [Box.Has, Box.mk4_eq, Box.left, Box.right, Box.top, Box.bottom]
    omega
  · intro c hc
    simp only [Box.mk4_eq, Box.left, Box.right, Box.top, Box.bottom]
    have h0 := hc p0 hp0
    have he0 := hext p0 hp0
    simp only [Box.Has, Box.left, Box.right, Box.top, Box.bottom] at h0 he0
    have k1 : c.ll.x ≤ (spotBox ext spots).1 := by
      rcases c1 with h | ⟨p, hp, h⟩
      · simp only [Box.right] at h; omega
      · have := hc p hp; simp only [Box.Has, Box.left] at this; omega
    have k2 : (spotBox ext spots).2.1 ≤ c.ur.x := by
      rcases c2 with h | ⟨p, hp, h⟩
      · simp only [Box.left] at h; omega
      · have := hc p hp; simp only [Box.Has, Box.right] at this; omega
    have k3 : c.ll.y ≤ (spotBox ext spots).2.2.1 := by
      rcases c3 with h | ⟨p, hp, h⟩
      · simp only [Box.top] at h; omega
      · have := hc p hp; simp only [Box.Has, Box.bottom] at this; omega
    have k4 : (spotBox ext spots).2.2.2 ≤ c.ur.y := by
      rcases c4 with h | ⟨p, hp, h⟩
      · simp only [Box.bottom] at h; omega
      · have := hc p hp; simp only [Box.Has, Box.top] at this; omega
    omega

theorem mapM_forall₂ {α β : Type} {f : α → Option β} : ∀ {l : List α} {r : List β}, l.mapM f = some r →
    l.length = r.length ∧ ∀ (i : Nat) a b, l[i]? = some a → r[i]? = some b → f a = some b
  | [], r, h => by
    simp only [List.mapM_nil] at h
    cases h
    exact ⟨rfl, fun i a b h => by simp at h⟩
  | x :: l, r, h => by
    rw [List.mapM_cons] at h
    cases hx : f x with
    | none => rw [hx] at h; cases h
    | some y =>
      rw [hx] at h
      cases hl : l.mapM f with
      | none => rw [hl] at h; cases h
      | some r' =>
        rw [hl] at h
        cases h
        obtain ⟨h1, h2⟩ := mapM_forall₂ hl
        refine ⟨by simp [h1], ?_⟩
        intro i a b ha hb
        cases i with
        | zero => simp at ha hb; subst ha hb; exact hx
        | succ i => exact h2 i a b (by simpa using ha) (by simpa using hb)

theorem mapM_all {α β : Type} {f : α → Option β} : ∀ {l : List α}, (∀ a ∈ l, ∃ b, f a = some b) → ∃ r, l.mapM f = some r
  | [], _ => ⟨[], by simp⟩
  | x :: l, h => by
    obtain ⟨y, hy⟩ := h x (by simp)
    obtain ⟨r, hr⟩ := mapM_all (l := l) (fun a ha => h a (by simp [ha]))
    exact ⟨y :: r, by rw [List.mapM_cons, hy, hr]; rfl⟩

/-- C136: given nets whose pins all have access points, every net gets the smallest box around the points that stand for its pins (points of the
extended region), and the number of pins of all nets whose point lies in that box; a net without pins gets the extended region and the number
99999. -/
theorem c136_pins_among {ext : Box} (hp : ext.left < ext.right) {nets : List (List (List DrAp))}
    (hap : ∀ net ∈ nets, ∀ pin ∈ net, pin ≠ []) (hext : ∀ net ∈ nets, ∀ pin ∈ net, ∀ a ∈ pin, ext.Has a.pt) :
    ∃ (r : List (Nat × Box)) (spots : List (List Point)), numPinsIn ext nets = some r ∧ r.length = nets.length ∧ spots.length = nets.length ∧
      (∀ (i : Nat) net sp, nets[i]? = some net → spots[i]? = some sp →
        sp.length = net.length ∧ ∀ (k : Nat) pin p, net[k]? = some pin → sp[k]? = some p → StandsFor pin p) ∧
      ∀ (i : Nat) sp v, spots[i]? = some sp → r[i]? = some v →
        (sp ≠ [] → Around v.2 sp ∧ v.1 = (spots.flatten.filter fun p => v.2.containsPt p).length) ∧
        (sp = [] → v = (99999, ext)) := by
  have hspot : ∀ net ∈ nets, ∃ sp, (fun (pins : List (List DrAp)) => pins.mapM pinSpot) net = some sp := by
    intro net hn
    apply mapM_all
    intro pin hpin
    unfold pinSpot
    split
    · exact ⟨_, rfl⟩
    · cases hh : pin with
      | nil => exact absurd hh (hap net hn pin hpin)
      | cons a r => exact ⟨a.pt, rfl⟩
  obtain ⟨spots, hs⟩ := mapM_all hspot
  obtain ⟨hlen, hall⟩ := mapM_forall₂ hs
  have hin : ∀ (i : Nat) net sp, nets[i]? = some net → spots[i]? = some sp →
      sp.length = net.length ∧ ∀ (k : Nat) pin p, net[k]? = some pin → sp[k]? = some p → StandsFor pin p := by
    intro i net sp h1 h2
    obtain ⟨h3, h4⟩ := mapM_forall₂ (hall i net sp h1 h2)
    exact ⟨h3.symm, fun k pin p hk hq => (pinSpot_iff pin p).1 (h4 k pin p hk hq)⟩
  refine ⟨spots.map (pinsAmong ext spots.flatten), spots, by unfold numPinsIn; rw [hs]; rfl, by simp [hlen], by rw [hlen], hin, ?_⟩
  intro i sp v h1 h2
  rw [List.getElem?_map, h1] at h2
  simp only [Option.map_some, Option.some.injEq] at h2
  subst h2
  constructor
  · intro hne
    apply pinsAmong_spec _ hne
    intro p hpm
    obtain ⟨k, hk, he⟩ := List.mem_iff_getElem.1 hpm
    have hi : i < nets.length := by rw [hlen]; exact (List.getElem?_eq_some_iff.1 h1).1
    obtain ⟨hl, hst⟩ := hin i nets[i] sp (List.getElem?_eq_getElem hi) h1
    have hk' : k < nets[i].length := by omega
    have := hst k nets[i][k] p (List.getElem?_eq_getElem hk') (by rw [List.getElem?_eq_getElem hk, he])
    have hm : nets[i] ∈ nets := List.getElem_mem hi
    have hm2 : nets[i][k] ∈ nets[i] := List.getElem_mem hk'
    rcases this with ⟨l, a, r, e, _, _, rfl⟩ | ⟨_, a, r, e, rfl⟩
    · exact hext _ hm _ hm2 a (by rw [e]; simp)
    · exact hext _ hm _ hm2 a (by rw [e]; simp)
  · intro he
    subst he
    have e : spotBox ext [] = (ext.right, ext.left, ext.top, ext.bottom) := rfl
    unfold pinsAmong
    dsimp only
    rw [e, if_neg (by dsimp only; omega)]

/-! ## concrete cases -/

/-- layers 2 and 6 run horizontally, layer 4 vertically, tracks every 20 -/
def exApTech (g : Int) : ApTech where
  bottom := 2
  top := 6
  routing := fun l => l == 2 || l == 4 || l == 6
  horz := fun l => l != 4
  rectOnly := fun _ => false
  width := fun _ => 4
  minArea := fun _ => some 50
  pats := fun l => [(l == 4, ⟨10, 100, 20⟩)]
  manuGrid := g
  viaAccess := 2
  marFix := true

def exRegion : Box := ⟨⟨0, 0⟩, ⟨200, 200⟩⟩

/-- an instance placed at (40, 60) with a pin of one rectangle and two access points, the second of them chosen -/
def exInstTerm : NetTerm where
  inst := some ⟨⟨40, 60, .R0⟩, ⟨40, 60, .R0⟩, some 0, [some 1]⟩
  pins := [⟨[(2, ⟨⟨0, 0⟩, ⟨40, 8⟩⟩)], [[⟨0, 2, ⟨10, 4⟩, ⟨true, true, true, true, true, false⟩, [5]⟩,
    ⟨1, 2, ⟨30, 4⟩, ⟨false, false, false, false, true, false⟩, [5, 6]⟩]]⟩]

/-- the same pin, without access points -/
def exBareTerm : NetTerm where
  inst := some ⟨⟨40, 60, .R0⟩, ⟨40, 60, .R0⟩, some 0, [none]⟩
  pins := [⟨[(2, ⟨⟨0, 0⟩, ⟨40, 12⟩⟩)], [[]]⟩]

/-- a terminal of the design -/
def exDesignTerm : NetTerm := ⟨none, [⟨[(2, ⟨⟨20, 40⟩, ⟨100, 52⟩⟩)], []⟩]⟩

theorem exApInput (g : Int) (n : NetTerm) (h : ∀ pin ∈ n.pins, ∀ s ∈ pin.shapes, s.2.Proper) : ApInput (exApTech g) n :=
  ⟨fun l p hp => by simp only [exApTech, List.mem_singleton] at hp; subst hp; show (0 : Int) < 20; decide, fun _ => by show (0 : Int) ≤ 4; decide, h⟩

/-- C135 is not vacuous: both points are used, the chosen one at cost 0 -/
example : (exInstTerm.Served (exApTech 2) exRegion true) ∧ (∀ pin ∈ exInstTerm.pins, pin.access ≠ []) ∧
    (match termAps (exApTech 2) exRegion true exInstTerm with
      | .aps l => l.map fun d => (d.pt.x, d.pt.y, d.cost)
      | _ => []) = [(50, 64, 1), (70, 64, 0)] := by
  refine ⟨?_, by decide, by decide +kernel⟩
  rw [served_iff]
  decide +kernel

/-- C133 is not vacuous: a point where tracks cross (50, 70), and once more as the point of the second loop -/
example : ApInput (exApTech 2) exBareTerm ∧ exRegion.Proper ∧ ¬ exBareTerm.Served (exApTech 2) exRegion true ∧
    (match termAps (exApTech 2) exRegion true exBareTerm with
      | .aps l => l.map fun d => (d.pt.x, d.pt.y, d.cost)
      | _ => []) = [(50, 70, 7), (60, 66, 7)] := by
  refine ⟨exApInput _ _ (by unfold Box.Proper; decide), by unfold Box.Proper; decide, ?_, by decide +kernel⟩
  rw [served_iff]
  decide +kernel

example : ApInput (exApTech 2) exDesignTerm ∧ OnGrid (exApTech 2) exDesignTerm ∧
    (match termAps (exApTech 2) exRegion true exDesignTerm with
      | .aps l => l.map fun d => (d.pt.x, d.pt.y, d.dirs.e, d.dirs.n)
      | _ => []) = [(30, 46, true, false), (50, 46, true, false), (70, 46, true, false), (90, 46, true, false)] := by
  refine ⟨exApInput _ _ (by unfold Box.Proper; decide), ⟨by decide, ?_⟩, by decide +kernel⟩
  intro pin hp s hs
  simp only [exDesignTerm, List.mem_singleton] at hp
  subst hp
  simp only [List.mem_singleton] at hs
  subst hs
  exact ⟨⟨10, rfl⟩, ⟨50, rfl⟩, ⟨20, rfl⟩, ⟨26, rfl⟩⟩

/-- C134 is not vacuous: a terminal with metal in the region, one without, and one that touches the corner only -/
example : (match termAps (exApTech 2) exRegion true ⟨none, [⟨[(2, ⟨⟨200, 200⟩, ⟨300, 300⟩⟩)], []⟩]⟩ with | .exit => true | _ => false) = true ∧
    (match termAps (exApTech 2) exRegion false ⟨none, [⟨[(2, ⟨⟨200, 200⟩, ⟨300, 300⟩⟩)], []⟩]⟩ with | .exit => true | _ => false) = false ∧
    (match termAps (exApTech 2) exRegion false ⟨none, [⟨[(3, ⟨⟨20, 20⟩, ⟨30, 30⟩⟩)], []⟩]⟩ with | .exit => true | _ => false) = true := by
  decide +kernel

/-- C133: without the manufacturing grid a temporary point may lie beside the terminal. -/
theorem c133_off_grid : ∃ T n l a, ApInput T n ∧ ¬ n.Served T exRegion true ∧ termAps T exRegion true n = .aps l ∧ a ∈ l ∧
    ¬ n.OnMetal T a.layer a.pt := by
  let n : NetTerm := ⟨none, [⟨[(2, ⟨⟨20, 42⟩, ⟨100, 48⟩⟩)], []⟩]⟩
  have h : tempAps (exApTech 10) exRegion true n =
      [⟨2, ⟨30, 40⟩, 0, 50, ⟨true, false, true, false, false, false⟩, none⟩, ⟨2, ⟨50, 40⟩, 0, 50, ⟨true, false, true, false, false, false⟩, none⟩,
       ⟨2, ⟨70, 40⟩, 0, 50, ⟨true, false, true, false, false, false⟩, none⟩, ⟨2, ⟨90, 40⟩, 0, 50, ⟨true, false, true, false, false, false⟩, none⟩] := by
    decide +kernel
  refine ⟨exApTech 10, n, tempAps (exApTech 10) exRegion true n, ⟨2, ⟨30, 40⟩, 0, 50, ⟨true, false, true, false, false, false⟩, none⟩,
    exApInput _ _ (by unfold Box.Proper; decide), ?_, ?_, by rw [h]; simp, ?_⟩
  · rintro ⟨I, k, a, ⟨hI, _⟩, _⟩
    cases hI
  · unfold termAps
    rw [if_neg (by decide), if_neg (by decide), if_pos (by rw [h]; simp)]
  · rintro ⟨_, pin, hp, b, hb, q, hq, he⟩
    simp only [n, List.mem_singleton] at hp
    subst hp
    simp only [List.mem_singleton, Prod.mk.injEq, true_and] at hb
    subst hb
    have : q = ⟨30, 40⟩ := he
    subst this
    exact absurd hq.2.2.1 (by decide)

/-- C134: at negative coordinates the program also ends for a terminal with metal in the region: the middle of the rectangle is rounded up to the
corner. -/
theorem c134_negative_corner : ∃ T route n, ApInput T n ∧ route.Proper ∧ T.manuGrid ≠ 0 ∧ n.InRegion T route true ∧
    termAps T route true n = .exit := by
  refine ⟨exApTech 2, ⟨⟨-400, -400⟩, ⟨0, 0⟩⟩, ⟨some ⟨⟨-1, -1, .R0⟩, ⟨-1, -1, .R0⟩, none, []⟩, [⟨[(2, ⟨⟨0, 0⟩, ⟨30, 30⟩⟩)], []⟩]⟩,
    exApInput _ _ (by unfold Box.Proper; decide), by unfold Box.Proper; decide, by decide, ?_, ?_⟩
  · exact ⟨2, ⟨-1, -1⟩, ⟨by decide, ⟨[(2, ⟨⟨0, 0⟩, ⟨30, 30⟩⟩)], []⟩, by simp, ⟨⟨0, 0⟩, ⟨30, 30⟩⟩, by simp, ⟨0, 0⟩, by unfold Box.Has; decide, by decide⟩,
      by unfold Box.Has; decide, fun _ => by decide⟩
  · have h : tempAps (exApTech 2) ⟨⟨-400, -400⟩, ⟨0, 0⟩⟩ true
      ⟨some ⟨⟨-1, -1, .R0⟩, ⟨-1, -1, .R0⟩, none, []⟩, [⟨[(2, ⟨⟨0, 0⟩, ⟨30, 30⟩⟩)], []⟩]⟩ = [] := by decide +kernel
    unfold termAps
    rw [if_neg (by decide), if_neg (by decide), if_neg (by rw [h]; simp)]

/-- C135: if a pin before it has no access points, the chosen point of a pin is not recognised. -/
theorem c135_choice_lost : ∃ T route n I k a, n.Found I k a ∧ I.pref[k]? = some (some a.id) ∧ Usable T route false a.layer (I.spot a) ∧
    (match termAps T route false n with
      | .aps l => l.map fun d => (d.pt, d.cost)
      | _ => []) = [(I.spot a, 1)] := by
  refine ⟨exApTech 2, exRegion, ⟨some ⟨⟨40, 60, .R0⟩, ⟨40, 60, .R0⟩, some 0, [none, some 1]⟩,
      [⟨[], []⟩, ⟨[], [[⟨1, 2, ⟨30, 4⟩, ⟨false, false, false, false, true, false⟩, []⟩]]⟩]⟩,
    ⟨⟨40, 60, .R0⟩, ⟨40, 60, .R0⟩, some 0, [none, some 1]⟩, 1, ⟨1, 2, ⟨30, 4⟩, ⟨false, false, false, false, true, false⟩, []⟩,
    ⟨rfl, _, 0, _, rfl, rfl, rfl, by simp⟩, rfl, ?_, by decide +kernel⟩
  rw [← apKept_iff]
  decide

/-- C136 is not vacuous: two nets, the box of the first holds a pin of the second -/
example :
    let ap := fun (x y c : Int) => (⟨2, ⟨x, y⟩, c, 0, ⟨true, true, true, true, true, true⟩, none⟩ : DrAp)
    numPinsIn exRegion [[[ap 10 10 1, ap 20 30 0], [ap 80 70 1]], [[ap 50 50 0], [ap 150 150 1]], []] =
      some [(3, ⟨⟨20, 30⟩, ⟨80, 70⟩⟩), (3, ⟨⟨50, 50⟩, ⟨150, 150⟩⟩), (99999, exRegion)] := by
  decide +kernel

end TR
