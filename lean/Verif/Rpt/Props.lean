import Verif.Rpt.Spec
/-! C151, C152: the summary and the report. -/
namespace TR

/-! ## C151 -/

theorem addU64_small {a : Nat} {x : Int} (h0 : 0 ≤ x) (h : (a : Int) + x < 2 ^ 64) : (addU64 a x : Int) = a + x := by
  show ((((a : Int) + x) % 2 ^ 64).toNat : Int) = a + x
  rw [Int.emod_eq_of_lt (by omega) h]
  omega

/-- the sums after some nets, as long as they fit -/
structure Sums.Ok (s : Sums) (ws : List (Nat × Point × Point)) (vs : List (Nat × Bool)) : Prop where
  w : ∀ l, s.wlen l = ((ws.filter fun w => w.1 == l).map wireLen).sum
  sc : ∀ l, s.sCut l = vs.countP fun v => v.1 == l && v.2 == false
  mc : ∀ l, s.mCut l = vs.countP fun v => v.1 == l && v.2 == true
  tw : s.totW = (ws.map wireLen).sum
  ts : s.totS = vs.countP fun v => v.2 == false
  tm : s.totM = vs.countP fun v => v.2 == true

theorem sum_filter_le {α : Type} (p : α → Bool) (f : α → Nat) (l : List α) : ((l.filter p).map f).sum ≤ (l.map f).sum := by
  induction l with
  | nil => simp
  | cons a l ih =>
    rw [List.filter_cons]
    split
    · simp only [List.map_cons, List.sum_cons]; omega
    · simp only [List.map_cons, List.sum_cons]; omega

theorem Sums.Ok.wire {s : Sums} {ws : List (Nat × Point × Point)} {vs : List (Nat × Bool)} (h : s.Ok ws vs) (w : Nat × Point × Point)
    (hw : WireOrdered w) (hf : ((ws ++ [w]).map wireLen).sum < 2 ^ 64) : (s.wire w).Ok (ws ++ [w]) vs := by
  have h0 : 0 ≤ segLen w.2.1 w.2.2 := by unfold WireOrdered at hw; unfold segLen; omega
  have h1 : (wireLen w : Int) = segLen w.2.1 w.2.2 := by unfold WireOrdered at hw; unfold segLen wireLen; omega
  simp only [List.map_append, List.map_cons, List.map_nil, List.sum_append, List.sum_cons, List.sum_nil, Nat.add_zero] at hf
  refine ⟨fun l => ?_, h.sc, h.mc, ?_, h.ts, h.tm⟩
  · show (if l = w.1 then addU64 (s.wlen l) (segLen w.2.1 w.2.2) else s.wlen l) = _
    have le := sum_filter_le (fun w => w.1 == l) wireLen ws
    rw [List.filter_append, List.map_append, List.sum_append, ← h.w l]
    rw [← h.w l] at le
    split
    · next q =>
      subst q
      have := addU64_small (a := s.wlen w.1) h0 (by omega)
      simp only [List.filter_cons, beq_self_eq_true, if_true, List.filter_nil, List.map_cons, List.map_nil, List.sum_cons, List.sum_nil]
      omega
    · next q =>
      have : (w.1 == l) = false := beq_eq_false_iff_ne.2 fun e => q e.symm
      simp [this]
  · show addU64 s.totW (segLen w.2.1 w.2.2) = _
    simp only [List.map_append, List.map_cons, List.map_nil, List.sum_append, List.sum_cons, List.sum_nil, Nat.add_zero]
    rw [← h.tw] at hf ⊢
    have := addU64_small (a := s.totW) h0 (by omega)
    omega

theorem Sums.Ok.via {s : Sums} {ws : List (Nat × Point × Point)} {vs : List (Nat × Bool)} (h : s.Ok ws vs) (v : Nat × Bool)
    (hf : (vs ++ [v]).length < 2 ^ 64) : (s.via v).Ok ws (vs ++ [v]) := by
  simp only [List.length_append, List.length_singleton] at hf
  obtain ⟨l, b⟩ := v
  have bound : ∀ p : Nat × Bool → Bool, vs.countP p < vs.length + 1 := fun p => by have := List.countP_le_length (p := p) (l := vs); omega
  cases b
  · refine ⟨h.w, fun k => ?_, fun k => ?_, h.tw, ?_, ?_⟩
    · show (if k = l then addU64 (s.sCut k) 1 else s.sCut k) = _
      rw [List.countP_append, ← h.sc k]
      have := bound fun v => v.1 == k && v.2 == false
      rw [← h.sc k] at this
      split
      · next q => subst q; have := addU64_small (a := s.sCut k) (x := 1) (by omega) (by omega); simp; omega
      · next q => have : (l == k) = false := beq_eq_false_iff_ne.2 fun e => q e.symm
                  simp [this]
    · show s.mCut k = _
      rw [List.countP_append, ← h.mc k]; simp
    · show addU64 s.totS 1 = _
      rw [List.countP_append, ← h.ts]
      have := bound fun v => v.2 == false
      rw [← h.ts] at this
      have := addU64_small (a := s.totS) (x := 1) (by omega) (by omega); simp; omega
    · show s.totM = _
      rw [List.countP_append, ← h.tm]; simp
  · refine ⟨h.w, fun k => ?_, fun k => ?_, h.tw, ?_, ?_⟩
    · show s.sCut k = _
      rw [List.countP_append, ← h.sc k]; simp
    · show (if k = l then addU64 (s.mCut k) 1 else s.mCut k) = _
      rw [List.countP_append, ← h.mc k]
      have := bound fun v => v.1 == k && v.2 == true
      rw [← h.mc k] at this
      split
      · next q => subst q; have := addU64_small (a := s.mCut k) (x := 1) (by omega) (by omega); simp; omega
      · next q => have : (l == k) = false := beq_eq_false_iff_ne.2 fun e => q e.symm
                  simp [this]
    · show s.totS = _
      rw [List.countP_append, ← h.ts]; simp
    · show addU64 s.totM 1 = _
      rw [List.countP_append, ← h.tm]
      have := bound fun v => v.2 == true
      rw [← h.tm] at this
      have := addU64_small (a := s.totM) (x := 1) (by omega) (by omega); simp; omega

theorem Sums.Ok.wires (l : List (Nat × Point × Point)) : ∀ {s : Sums} {ws vs}, s.Ok ws vs → (∀ w ∈ l, WireOrdered w) →
    ((ws ++ l).map wireLen).sum < 2 ^ 64 → (l.foldl Sums.wire s).Ok (ws ++ l) vs := by
  induction l with
  | nil => intro s ws vs h _ _; simpa using h
  | cons w l ih =>
    intro s ws vs h hw hf
    have e : ws ++ w :: l = (ws ++ [w]) ++ l := by simp
    rw [e] at hf ⊢
    refine ih (h.wire w (hw w (by simp)) ?_) (fun x hx => hw x (by simp [hx])) hf
    rw [List.map_append, List.sum_append] at hf
    omega

theorem Sums.Ok.vias (l : List (Nat × Bool)) : ∀ {s : Sums} {ws vs}, s.Ok ws vs → (vs ++ l).length < 2 ^ 64 →
    (l.foldl Sums.via s).Ok ws (vs ++ l) := by
  induction l with
  | nil => intro s ws vs h _; simpa using h
  | cons v l ih =>
    intro s ws vs h hf
    have e : vs ++ v :: l = (vs ++ [v]) ++ l := by simp
    rw [e] at hf ⊢
    refine ih (h.via v ?_) hf
    simp only [List.length_append] at hf ⊢
    omega

theorem wireLength_all (nets : List SumNet) :
    wireLength (fun _ => true) nets = ((allWires nets).map wireLen).sum := by
  unfold wireLength
  rw [List.filter_eq_self.2 (fun _ _ => rfl)]

theorem sumNets_ok (nets : List SumNet) (hw : ∀ w ∈ allWires nets, WireOrdered w) (hl : wireLength (fun _ => true) nets < 2 ^ 64)
    (hv : (allVias nets).length < 2 ^ 64) : (sumNets nets).Ok (allWires nets) (allVias nets) := by
  have key : ∀ (nets : List SumNet) (s : Sums) ws vs, s.Ok ws vs → (∀ w ∈ allWires nets, WireOrdered w) →
      ((ws ++ allWires nets).map wireLen).sum < 2 ^ 64 → (vs ++ allVias nets).length < 2 ^ 64 →
      (nets.foldl (fun s n => n.vias.foldl Sums.via (n.wires.foldl Sums.wire s)) s).Ok (ws ++ allWires nets) (vs ++ allVias nets) := by
    intro nets
    induction nets with
    | nil => intro s ws vs h _ _ _; simpa [allWires, allVias] using h
    | cons n nets ih =>
      intro s ws vs h h1 h2 h3
      have e1 : ws ++ allWires (n :: nets) = (ws ++ n.wires) ++ allWires nets := by simp [allWires]
      have e2 : vs ++ allVias (n :: nets) = (vs ++ n.vias) ++ allVias nets := by simp [allVias]
      rw [e1] at h2 ⊢
      rw [e2] at h3 ⊢
      refine ih _ _ _ ((h.wires n.wires (fun w hw => h1 w (by simp [allWires, hw])) ?_).vias n.vias ?_) (fun w hw => h1 w ?_) h2 h3
      · rw [List.map_append, List.sum_append] at h2; omega
      · rw [List.length_append] at h3; omega
      · simp only [allWires, List.flatMap_cons, List.mem_append]; exact .inr hw
  have z : Sums.zero.Ok [] [] := ⟨fun _ => rfl, fun _ => rfl, fun _ => rfl, rfl, rfl, rfl⟩
  rw [wireLength_all] at hl
  have := key nets _ _ _ z hw (by rw [List.nil_append]; exact hl) (by rw [List.nil_append]; exact hv)
  rw [List.nil_append, List.nil_append] at this
  exact this

theorem mem_layers (T : RptTech) (l : Nat) : l ∈ T.layers ↔ T.bottom ≤ l ∧ l ≤ T.top := by
  unfold RptTech.layers
  simp only [List.mem_map, List.mem_range]
  constructor
  · rintro ⟨k, h, rfl⟩; omega
  · rintro ⟨h, h'⟩; exact ⟨l - T.bottom, by omega, by omega⟩

/-- C151: the summary tells the truth: the total length is that of all wires, each routing layer has its line with the length of its wires,
the number of vias is that of all vias, each cut layer has its line with its vias of one cut, and if there are vias of several cuts, with
these and their sum. -/
theorem c151_summary (T : RptTech) (hd : T.dbu ≠ 0) (nets : List SumNet) (hw : ∀ w ∈ allWires nets, WireOrdered w)
    (hl : wireLength (fun _ => true) nets < 2 ^ 64) (hv : (allVias nets).length < 2 ^ 64) :
    ∃ lines, summary T nets = some lines ∧
      (∀ x, .total x ∈ lines ↔ x = wireLength (fun _ => true) nets / T.dbu) ∧
      (∀ s x, .layer s x ∈ lines ↔ ∃ l, T.InStack .routing l ∧ s = T.name l ∧ x = wireLength (· == l) nets / T.dbu) ∧
      (∀ x, .vias x ∈ lines ↔ x = (allVias nets).length) ∧
      (∀ s x y, .up s x y ∈ lines ↔ ∃ l, T.InStack .cut l ∧ s = T.name (l - 1) ∧ x = viaCount (· == l) false nets ∧
        y = if ∃ v ∈ allVias nets, v.2 = true then some (viaCount (· == l) true nets, (allVias nets).countP (·.1 == l)) else none) := by
  have ok := sumNets_ok nets hw hl hv
  have split2 : ∀ (p : Nat × Bool → Bool), (allVias nets).countP (fun v => p v && v.2 == false) + (allVias nets).countP (fun v => p v && v.2 == true) =
      (allVias nets).countP p := by
    intro p
    generalize allVias nets = vs
    induction vs with
    | nil => rfl
    | cons v vs ih =>
      rw [List.countP_cons, List.countP_cons, List.countP_cons, ← ih]
      rcases v with ⟨a, _ | _⟩
      · cases h : p (a, false) <;> simp [h] <;> omega
      · cases h : p (a, true) <;> simp [h] <;> omega
  have add : ∀ p : Nat × Bool → Bool, addU64 ((allVias nets).countP fun v => p v && v.2 == false) ((allVias nets).countP fun v => p v && v.2 == true) =
      (allVias nets).countP p := by
    intro p
    have h1 := split2 p
    have h2 := List.countP_le_length (p := p) (l := allVias nets)
    have := addU64_small (a := (allVias nets).countP fun v => p v && v.2 == false) (x := ((allVias nets).countP fun v => p v && v.2 == true : Nat)) (by omega) (by omega)
    omega
  have htot := add fun _ => true
  simp only [Bool.true_and] at htot
  have hall : (allVias nets).countP (fun _ => true) = (allVias nets).length := by simp
  rw [hall, ← ok.ts, ← ok.tm] at htot
  have hm : (sumNets nets).totM ≠ 0 ↔ ∃ v ∈ allVias nets, v.2 = true := by
    rw [ok.tm, ← Nat.pos_iff_ne_zero, List.countP_pos_iff]
    simp
  have hlay : ∀ l, (sumNets nets).wlen l = wireLength (· == l) nets := ok.w
  have htw : (sumNets nets).totW = wireLength (fun _ => true) nets := by rw [ok.tw, wireLength_all]
  refine ⟨_, by unfold summary; dsimp only; rw [if_neg hd], fun x => ?_, fun s x => ?_, fun x => ?_, fun s x y => ?_⟩
  · rw [← htw]
    simp only [List.mem_append, List.mem_cons, List.mem_map, SumLine.total.injEq, reduceCtorEq, and_false, exists_false, or_false, List.not_mem_nil]
    split <;> simp
  · simp only [List.mem_append, List.mem_cons, List.mem_map, SumLine.layer.injEq, reduceCtorEq, and_false, exists_false, or_false, false_or,
      List.not_mem_nil, List.mem_filter, mem_layers, decide_eq_true_eq]
    have no : SumLine.layer s x ∉ (if (sumNets nets).totM > 0 then [SumLine.multi (sumNets nets).totM, SumLine.single (sumNets nets).totS] else []) := by
      split <;> simp
    simp only [no, or_false]
    constructor
    · rintro ⟨l, ⟨⟨h1, h2⟩, h3⟩, rfl, rfl⟩; exact ⟨l, ⟨h1, h2, h3⟩, rfl, by rw [hlay]⟩
    · rintro ⟨l, ⟨h1, h2, h3⟩, rfl, rfl⟩; exact ⟨l, ⟨⟨h1, h2⟩, h3⟩, rfl, by rw [hlay]⟩
  · rw [htot]
    simp only [List.mem_append, List.mem_cons, List.mem_map, SumLine.vias.injEq, reduceCtorEq, and_false, exists_false, or_false, false_or,
      List.not_mem_nil]
    split <;> simp
  · simp only [List.mem_append, List.mem_cons, List.mem_map, SumLine.up.injEq, reduceCtorEq, and_false, exists_false, or_false, false_or,
      List.not_mem_nil, List.mem_filter, mem_layers, decide_eq_true_eq]
    have no : SumLine.up s x y ∉ (if (sumNets nets).totM > 0 then [SumLine.multi (sumNets nets).totM, SumLine.single (sumNets nets).totS] else []) := by
      split <;> simp
    simp only [no, or_false, false_or]
    have hb : ∀ l, (if (sumNets nets).totM ≠ 0 then some ((sumNets nets).mCut l, addU64 ((sumNets nets).sCut l) ((sumNets nets).mCut l)) else none) =
        if ∃ v ∈ allVias nets, v.2 = true then some (viaCount (· == l) true nets, (allVias nets).countP (·.1 == l)) else none := by
      intro l
      have a1 := add fun v => v.1 == l
      rw [← ok.sc l, ← ok.mc l] at a1
      by_cases q : ∃ v ∈ allVias nets, v.2 = true
      · rw [if_pos (hm.2 q), if_pos q, a1, ok.mc l]; rfl
      · rw [if_neg (fun z => q (hm.1 z)), if_neg q]
    constructor
    · rintro ⟨l, ⟨⟨h1, h2⟩, h3⟩, rfl, rfl, rfl⟩; exact ⟨l, ⟨h1, h2, h3⟩, rfl, ok.sc l, hb l⟩
    · rintro ⟨l, ⟨h1, h2, h3⟩, rfl, rfl, rfl⟩; exact ⟨l, ⟨⟨h1, h2⟩, h3⟩, rfl, ok.sc l, hb l⟩

theorem div_sums (d : Nat) (hd : 0 < d) (xs : List Nat) :
    (xs.map (· / d)).sum * d ≤ xs.sum ∧ xs.sum ≤ (xs.map (· / d)).sum * d + xs.length * d := by
  induction xs with
  | nil => simp
  | cons x xs ih =>
    simp only [List.map_cons, List.sum_cons, List.length_cons, Nat.add_mul, Nat.one_mul]
    have h1 := Nat.div_mul_le_self x d
    have h2 := Nat.lt_div_mul_add hd (a := x)
    omega

theorem layer_sums (L : List Nat) (hn : L.Nodup) (ws : List (Nat × Point × Point)) (f : Nat × Point × Point → Nat) (h : ∀ w ∈ ws, w.1 ∈ L) :
    (L.map fun l => ((ws.filter fun w => w.1 == l).map f).sum).sum = (ws.map f).sum := by
  induction ws with
  | nil =>
    have : ∀ L : List Nat, (L.map fun _ => 0).sum = 0 := by intro L; induction L with
      | nil => rfl
      | cons a L ih => rw [List.map_cons, List.sum_cons, ih]
    simp [this]
  | cons w ws ih =>
    rw [List.map_cons, List.sum_cons, ← ih fun x hx => h x (by simp [hx])]
    have hw := h w (by simp)
    clear ih h
    induction L with
    | nil => cases hw
    | cons l L ih =>
      obtain ⟨h1, h2⟩ := List.nodup_cons.1 hn
      simp only [List.map_cons, List.sum_cons]
      by_cases q : w.1 = l
      · have e : (L.map fun l => (((w :: ws).filter fun w => w.1 == l).map f).sum) = L.map fun l => ((ws.filter fun w => w.1 == l).map f).sum := by
          apply List.map_congr_left
          intro k hk
          have : (w.1 == k) = false := beq_eq_false_iff_ne.2 fun e => h1 (by rw [← q, e]; exact hk)
          simp [List.filter_cons, this]
        rw [e]
        simp [List.filter_cons, q]
        omega
      · have : (w.1 == l) = false := beq_eq_false_iff_ne.2 q
        have hw' : w.1 ∈ L := by
          rcases List.mem_cons.1 hw with h | h
          · exact absurd h q
          · exact h
        rw [ih h2 hw']
        simp [List.filter_cons, this]
        omega

theorem layers_nodup (T : RptTech) : T.layers.Nodup := by
  unfold RptTech.layers
  refine List.Pairwise.map (S := fun a b => a ≠ b) _ ?_ List.nodup_range
  intro a b h; omega

/-- C151: if all wires are on routing layers, the lengths printed for the layers add up to the total printed, up to the microns lost in
rounding each down. -/
theorem c151_adds_up (T : RptTech) (hd : T.dbu ≠ 0) (nets : List SumNet) (hw : ∀ w ∈ allWires nets, T.InStack .routing w.1)
    (L : List Nat) (hn : L.Nodup) (hL : ∀ l, l ∈ L ↔ T.InStack .routing l) :
    (L.map fun l => wireLength (· == l) nets / T.dbu).sum ≤ wireLength (fun _ => true) nets / T.dbu ∧
    wireLength (fun _ => true) nets / T.dbu ≤ (L.map fun l => wireLength (· == l) nets / T.dbu).sum + L.length := by
  have e := layer_sums L hn (allWires nets) wireLen fun w h => (hL _).2 (hw w h)
  obtain ⟨h1, h2⟩ := div_sums T.dbu (by omega) (L.map fun l => wireLength (· == l) nets)
  have e' : (L.map fun l => wireLength (· == l) nets).sum = wireLength (fun _ => true) nets := by rw [wireLength_all]; exact e
  rw [List.map_map, e', List.length_map] at h2
  rw [List.map_map, e'] at h1
  refine ⟨(Nat.le_div_iff_mul_le (by omega)).2 h1, ?_⟩
  rw [← Nat.add_mul] at h2
  have := Nat.div_le_div_right (c := T.dbu) h2
  rw [Nat.mul_div_cancel _ (by omega)] at this
  exact this

/-! ## C152 -/

theorem roundDiv_spec (a b : Nat) (hb : 0 < b) : 2 * roundDiv a b * b ≤ 2 * a + b ∧ 2 * a < (2 * roundDiv a b + 1) * b := by
  unfold roundDiv
  have h1 := Nat.div_mul_le_self (2 * a + b) (2 * b)
  have h2 := Nat.lt_div_mul_add (a := 2 * a + b) (b := 2 * b) (by omega)
  generalize (2 * a + b) / (2 * b) = q at *
  have e1 : q * (2 * b) = 2 * q * b := by rw [Nat.mul_left_comm, Nat.mul_assoc]
  rw [e1] at h1 h2
  rw [Nat.add_mul, Nat.one_mul]
  omega

theorem le_roundDiv {a b q : Nat} (hb : 0 < b) : q ≤ roundDiv a b ↔ 2 * q * b ≤ 2 * a + b := by
  unfold roundDiv
  rw [Nat.le_div_iff_mul_le (by omega), show q * (2 * b) = 2 * q * b by rw [Nat.mul_left_comm, Nat.mul_assoc]]

theorem scaled_units (c : Int) (d : Nat) (e : Int) : scaled c.natAbs d e = roundDiv (inUnits c d e).1 (inUnits c d e).2 := by
  unfold scaled inUnits
  split <;> rfl

theorem units_pos (c : Int) (d : Nat) (hd : d ≠ 0) (e : Int) : 0 < (inUnits c d e).2 := by
  unfold inUnits
  split
  · exact Nat.mul_pos (by omega) (Nat.pow_pos (by omega))
  · exact Nat.pos_of_ne_zero hd

theorem units_shift (c : Int) (d : Nat) (j k : Int) (h : j ≤ k) :
    (inUnits c d j).1 * (inUnits c d k).2 = 10 ^ (k - j).toNat * ((inUnits c d k).1 * (inUnits c d j).2) := by
  unfold inUnits
  by_cases hj : 0 ≤ j
  · have hk : 0 ≤ k := by omega
    rw [if_pos hj, if_pos hk]
    dsimp only
    rw [show k.toNat = (k - j).toNat + j.toNat by omega, Nat.pow_add]
    ac_rfl
  · by_cases hk : 0 ≤ k
    · rw [if_neg hj, if_pos hk]
      dsimp only
      rw [show (k - j).toNat = (-j).toNat + k.toNat by omega, Nat.pow_add]
      ac_rfl
    · rw [if_neg hj, if_neg hk]
      dsimp only
      rw [show (-j).toNat = (k - j).toNat + (-k).toNat by omega, Nat.pow_add]
      ac_rfl

theorem sixFrom_spec (n d : Nat) (f : Nat) : ∀ e, 10 ^ 6 ≤ scaled n d (e - 1) → scaled n d (e + f) < 10 ^ 6 →
    (sixFrom n d f e).1 = scaled n d (sixFrom n d f e).2 ∧ (sixFrom n d f e).1 < 10 ^ 6 ∧ 10 ^ 6 ≤ scaled n d ((sixFrom n d f e).2 - 1) := by
  induction f with
  | zero =>
    intro e h1 h2
    refine ⟨rfl, ?_, h1⟩
    have : e + ((0 : Nat) : Int) = e := by omega
    rw [this] at h2
    exact h2
  | succ f ih =>
    intro e h1 h2
    unfold sixFrom
    split
    · next q => exact ⟨rfl, q, h1⟩
    · next q =>
      refine ih (e + 1) ?_ ?_
      · rw [show e + 1 - 1 = e by omega]; omega
      · rw [show e + 1 + (f : Int) = e + ((f + 1 : Nat) : Int) by omega]; exact h2

theorem pow_le_ten (k : Nat) : 2 ^ k ≤ 10 ^ k := Nat.pow_le_pow_left (by omega) k

theorem sixDigits_spec (n d : Nat) (hn : n ≠ 0) (hd : d ≠ 0) :
    (sixDigits n d).1 = scaled n d (sixDigits n d).2 ∧ (sixDigits n d).1 < 10 ^ 6 ∧ 10 ^ 6 ≤ scaled n d ((sixDigits n d).2 - 1) := by
  have dl := Nat.lt_log2_self (n := d)
  have nl := Nat.lt_log2_self (n := n)
  unfold sixDigits
  rw [if_neg hn]
  refine sixFrom_spec n d _ _ ?_ ?_
  · unfold scaled
    rw [if_neg (by omega), show (-(-((Nat.log2 d : Int) + 7) - 1)).toNat = Nat.log2 d + 8 by omega]
    rw [le_roundDiv (Nat.pos_of_ne_zero hd)]
    have p := pow_le_ten (Nat.log2 d)
    rw [Nat.pow_succ] at dl
    have e8 : 10 ^ (Nat.log2 d + 8) = 10 ^ Nat.log2 d * 10 ^ 8 := Nat.pow_add ..
    have m : 1 * 10 ^ (Nat.log2 d + 8) ≤ n * 10 ^ (Nat.log2 d + 8) := Nat.mul_le_mul_right _ (by omega)
    generalize 10 ^ (Nat.log2 d + 8) = z at *
    generalize n * z = z' at *
    generalize 10 ^ Nat.log2 d = y at *
    generalize 2 ^ Nat.log2 d = y' at *
    omega
  · unfold scaled
    rw [if_pos (by omega), show (-((Nat.log2 d : Int) + 7) + ((Nat.log2 n + Nat.log2 d + 8 : Nat) : Int)).toNat = Nat.log2 n + 1 by omega]
    have p := pow_le_ten (Nat.log2 n + 1)
    have hp : 0 < d * 10 ^ (Nat.log2 n + 1) := Nat.mul_pos (by omega) (Nat.pow_pos (by omega))
    have : ¬ 10 ^ 6 ≤ roundDiv n (d * 10 ^ (Nat.log2 n + 1)) := by
      rw [le_roundDiv hp]
      have m : 1 * 10 ^ (Nat.log2 n + 1) ≤ d * 10 ^ (Nat.log2 n + 1) := Nat.mul_le_mul_right _ (by omega)
      generalize d * 10 ^ (Nat.log2 n + 1) = z at *
      omega
    omega

/-- C152: a coordinate is printed with six digits, rounded at the last; and if it has no more, exactly. -/
theorem c152_coordinates (c : Int) (d : Nat) (hd : d ≠ 0) :
    (printCoord c d).Rounds c d ∧ (c ≠ 0 → 10 ^ 5 ≤ (printCoord c d).digits ∧ (printCoord c d).digits < 10 ^ 6) ∧
    (SixDigits c d → (printCoord c d).Exactly c d) := by
  by_cases hc : c = 0
  · subst hc
    refine ⟨⟨by simp [printCoord], by simp [inUnits, printCoord, sixDigits], by simp [inUnits, printCoord, sixDigits]⟩, fun h => absurd rfl h, fun _ => ⟨by simp [printCoord], by simp [inUnits, printCoord, sixDigits]⟩⟩
  obtain ⟨h1, h2, h3⟩ := sixDigits_spec c.natAbs d (by omega) hd
  have ed : (printCoord c d).digits = (sixDigits c.natAbs d).1 := rfl
  have ee : (printCoord c d).exp = (sixDigits c.natAbs d).2 := rfl
  have en : (printCoord c d).neg = true ↔ c < 0 := decide_eq_true_iff
  generalize printCoord c d = p at *
  rw [← ed, ← ee] at h1
  rw [← ee] at h3
  rw [← ed] at h2
  rw [scaled_units] at h1 h3
  have bp := units_pos c d hd p.exp
  have bq := units_pos c d hd (p.exp - 1)
  have r := roundDiv_spec (inUnits c d p.exp).1 (inUnits c d p.exp).2 bp
  rw [← h1] at r
  rw [le_roundDiv bq] at h3
  refine ⟨⟨en, by omega, r.1⟩, fun _ => ⟨?_, h2⟩, ?_⟩
  · rw [h1, le_roundDiv bp]
    have s := units_shift c d (p.exp - 1) p.exp (by omega)
    rw [show (p.exp - (p.exp - 1)).toNat = 1 by omega, Nat.pow_one] at s
    generalize (inUnits c d (p.exp - 1)).1 = a0 at *
    generalize (inUnits c d (p.exp - 1)).2 = b0 at *
    generalize (inUnits c d p.exp).1 = a1 at *
    generalize (inUnits c d p.exp).2 = b1 at *
    have m : (2 * 10 ^ 6 * b0) * b1 ≤ (2 * a0 + b0) * b1 := Nat.mul_le_mul_right _ h3
    have e1 : (2 * 10 ^ 6 * b0) * b1 = 2 * 10 ^ 6 * b1 * b0 := by ac_rfl
    have e2 : (2 * a0 + b0) * b1 = (20 * a1 + b1) * b0 := by
      rw [Nat.add_mul, Nat.mul_assoc, s, Nat.add_mul, ← Nat.mul_assoc, ← Nat.mul_assoc]
      congr 1
      exact Nat.mul_comm ..
    rw [e1, e2] at m
    have := Nat.le_of_mul_le_mul_right m ‹0 < b0›
    omega
  · rintro ⟨m, k, hm, hk⟩
    refine ⟨en, ?_⟩
    have bk := units_pos c d hd k
    by_cases q : p.exp ≤ k
    · have s := units_shift c d p.exp k q
      have : (inUnits c d p.exp).1 = 10 ^ (k - p.exp).toNat * m * (inUnits c d p.exp).2 := by
        apply Nat.eq_of_mul_eq_mul_right bk
        rw [s, hk]; ac_rfl
      rw [h1, this]
      congr 1
      generalize 10 ^ (k - p.exp).toNat * m = x
      generalize (inUnits c d p.exp).2 = b at bp
      unfold roundDiv
      rw [show 2 * (x * b) + b = b + x * (2 * b) by rw [Nat.mul_left_comm x]; omega, Nat.add_mul_div_right _ _ (by omega),
        Nat.div_eq_of_lt (by omega), Nat.zero_add]
    · exfalso
      have s := units_shift c d k (p.exp - 1) (by omega)
      generalize (inUnits c d (p.exp - 1)).1 = a0 at *
      generalize (inUnits c d (p.exp - 1)).2 = b0 at *
      have s' : m * b0 = 10 ^ (p.exp - 1 - k).toNat * a0 := by
        apply Nat.eq_of_mul_eq_mul_right bk
        rw [Nat.mul_assoc (10 ^ _), ← s, hk]; ac_rfl
      have : 1 * a0 ≤ 10 ^ (p.exp - 1 - k).toNat * a0 := Nat.mul_le_mul_right _ (Nat.pow_pos (by omega))
      have mm : m * b0 ≤ (10 ^ 6 - 1) * b0 := Nat.mul_le_mul_right _ (by omega)
      omega

/-- numbers printed alike are equal if they were printed exactly -/
theorem printed_inj {p : Printed} {c c' : Int} {d : Nat} (h : p.Exactly c d) (h' : p.Exactly c' d) : c = c' := by
  obtain ⟨s, e⟩ := h
  obtain ⟨s', e'⟩ := h'
  have n : c.natAbs = c'.natAbs := by
    unfold inUnits at e e'
    split at e
    · next q => rw [if_pos q] at e'; dsimp only at e e'; omega
    · next q =>
      rw [if_neg q] at e'
      dsimp only at e e'
      exact Nat.eq_of_mul_eq_mul_right (Nat.pow_pos (by omega) : 0 < 10 ^ (-p.exp).toNat) (e.trans e'.symm)
  have : c < 0 ↔ c' < 0 := s.symm.trans s'
  omega

theorem srcWord_names {s : RptSrc} {w : String} (h : srcWord s = some w) : SrcNamed s w := by
  cases s <;> simp only [srcWord, Option.some.injEq, reduceCtorEq] at h <;> subst h
  · exact .net _
  · exact .pin _ _
  · exact .port _
  · exact .obs _
  · exact .block

/-- C152: the report has one entry for each violation, in order, and is empty exactly if there are none. An entry names each source that is a
net, pin or obstruction. From an entry the box of a violation can be read off if its coordinates have at most six digits. -/
theorem c152_report (T : RptTech) (hd : T.dbu ≠ 0) (ms : List RptMarker) :
    (reportDRC T ms).length = ms.length ∧
    (∀ (k : Nat) m, ms[k]? = some m → ∃ e, (reportDRC T ms)[k]? = some e ∧
      (∀ s, some s ∈ m.srcs → s ≠ .other → ∃ w ∈ e.srcs, SrcNamed s w) ∧
      (∀ w ∈ e.srcs, ∃ s, some s ∈ m.srcs ∧ SrcNamed s w) ∧
      e.srcs.length = m.srcs.countP (fun s => s ≠ none ∧ s ≠ some .other) ∧
      e.layer = T.name (if T.kind m.layer = .cut ∧ T.bottom < m.layer then m.layer - 1 else m.layer) ∧
      ∀ b : Box, (∀ c ∈ [b.left, b.bottom, b.right, b.top, m.box.left, m.box.bottom, m.box.right, m.box.top], SixDigits c T.dbu) →
        (printCoord b.left T.dbu = e.left ∧ printCoord b.bottom T.dbu = e.bottom ∧ printCoord b.right T.dbu = e.right ∧ printCoord b.top T.dbu = e.top) →
        b = m.box) := by
  refine ⟨by simp [reportDRC], fun k m hk => ⟨rptEntry T m, by simp [reportDRC, hk], fun s hs ho => ?_, fun w hw => ?_, ?_, ?_, fun b hb h => ?_⟩⟩
  · have : ∃ w, srcWord s = some w := by cases s <;> simp [srcWord] at ho ⊢
    obtain ⟨w, hw⟩ := this
    exact ⟨w, List.mem_filterMap.2 ⟨s, List.mem_filterMap.2 ⟨some s, hs, rfl⟩, hw⟩, srcWord_names hw⟩
  · obtain ⟨s, hs, hw⟩ := List.mem_filterMap.1 hw
    obtain ⟨o, ho, e⟩ := List.mem_filterMap.1 hs
    exact ⟨s, by rw [← show o = some s from e]; exact ho, srcWord_names hw⟩
  · show ((m.srcs.filterMap id).filterMap srcWord).length = _
    generalize m.srcs = l
    induction l with
    | nil => rfl
    | cons s l ih =>
      rcases s with _ | s
      · simpa using ih
      · cases s <;> simp [srcWord] at ih ⊢ <;> exact ih
  · show T.name (rptLayer T m.layer) = _
    unfold rptLayer
    congr 1
    have : ((T.bottom : Int) ≤ (m.layer : Int) - 1) ↔ T.bottom < m.layer := by omega
    simp only [this]
  · have key : ∀ c c', c ∈ [b.left, b.bottom, b.right, b.top, m.box.left, m.box.bottom, m.box.right, m.box.top] →
        c' ∈ [b.left, b.bottom, b.right, b.top, m.box.left, m.box.bottom, m.box.right, m.box.top] → printCoord c T.dbu = printCoord c' T.dbu → c = c' := by
      intro c c' hc hc' e
      have e1 := (c152_coordinates c T.dbu hd).2.2 (hb c hc)
      have e2 := (c152_coordinates c' T.dbu hd).2.2 (hb c' hc')
      rw [← e] at e2
      exact printed_inj e1 e2
    have a1 := key b.left m.box.left (by simp) (by simp) h.1
    have a2 := key b.bottom m.box.bottom (by simp) (by simp) h.2.1
    have a3 := key b.right m.box.right (by simp) (by simp) h.2.2.1
    have a4 := key b.top m.box.top (by simp) (by simp) h.2.2.2
    rcases b with ⟨⟨_, _⟩, ⟨_, _⟩⟩
    rcases e : m.box with ⟨⟨_, _⟩, ⟨_, _⟩⟩
    rw [e] at a1 a2 a3 a4
    simp only [Box.left, Box.right, Box.bottom, Box.top] at a1 a2 a3 a4
    subst a1; subst a2; subst a3; subst a4
    rfl

/-- C152: the word of every rule; shorts on cut layers have a word of their own. -/
theorem c152_words (k : LayerKind) : (∀ rw ∈ rptWords, ruleWord k (some rw.1) = rw.2) ∧ ruleWord .routing (some .short) = "Short" ∧
    ruleWord .cut (some .short) = "CShort" ∧ ruleWord k none = "nullptr" ∧ ruleWord k (some .other) = "unknown" ∧
    ∀ r, r = .short ∨ r = .other ∨ ∃ w, (r, w) ∈ rptWords := by
  refine ⟨?_, rfl, rfl, rfl, rfl, ?_⟩
  · intro rw h
    simp only [rptWords, List.mem_cons, List.not_mem_nil, or_false] at h
    rcases h with h | h | h | h | h | h | h | h | h | h | h | h | h | h | h | h <;> subst h <;> rfl
  · intro r
    cases r <;> simp [rptWords]

/-- C152: which rules are told apart. -/
theorem c152_rule_words (k : LayerKind) (hk : k ≠ .other) (a b : RuleKind) : ruleWord k (some a) = ruleWord k (some b) ↔ SameWord a b := by
  cases k
  · unfold SameWord; cases a <;> cases b <;> simp [ruleWord]
  · unfold SameWord; cases a <;> cases b <;> simp [ruleWord]
  · exact absurd rfl hk

/-- C152: beyond a millimetre the report does not tell violations apart that are four thousandths of a micron apart. -/
theorem c152_digits_lost : ∃ (T : RptTech) (m m' : RptMarker), T.dbu = 1000 ∧ m.box.left + 4 = m'.box.left ∧ m.box.right + 4 = m'.box.right ∧
    rptEntry T m = rptEntry T m' :=
  ⟨⟨fun _ => .routing, fun _ => "m2", 0, 12, 1000⟩, ⟨some .short, [some (.net "a"), some (.net "b")], ⟨⟨1234566, 0⟩, ⟨1234576, 100⟩⟩, 2⟩,
    ⟨some .short, [some (.net "a"), some (.net "b")], ⟨⟨1234570, 0⟩, ⟨1234580, 100⟩⟩, 2⟩, rfl, by decide, by decide, by decide +kernel⟩

/-! ### examples -/

def exRptTech : RptTech := ⟨fun l => if l % 2 = 0 then .routing else .cut, fun l => if l = 2 then "m1" else if l = 4 then "m2" else "x", 2, 4, 1000⟩

def exSumNets : List SumNet := [⟨[(2, ⟨0, 0⟩, ⟨2500, 0⟩), (4, ⟨0, 0⟩, ⟨0, 1700⟩)], [(3, false)]⟩, ⟨[(2, ⟨0, 500⟩, ⟨1400, 500⟩)], [(3, true), (3, false)]⟩]

example : (∀ w ∈ allWires exSumNets, WireOrdered w) ∧ wireLength (fun _ => true) exSumNets < 2 ^ 64 ∧ (allVias exSumNets).length < 2 ^ 64 ∧
    (∀ w ∈ allWires exSumNets, exRptTech.InStack .routing w.1) ∧
    summary exRptTech exSumNets = some [.total 5, .layer "m1" 3, .layer "m2" 1, .vias 3, .multi 1, .single 2, .up "m1" 2 (some (1, 3)), .upTotal 2 (some (1, 3))] := by
  refine ⟨?_, by decide, by decide, ?_, by decide⟩
  · intro w hw; simp [allWires, exSumNets] at hw; rcases hw with rfl | rfl | rfl <;> (unfold WireOrdered; decide)
  · intro w hw; simp [allWires, exSumNets] at hw; rcases hw with rfl | rfl | rfl <;> (unfold RptTech.InStack; decide)

/-- 123.456 is printed exactly, -1234.567 is not -/
example : SixDigits 123456 1000 ∧ printCoord 123456 1000 = ⟨false, 123456, -3⟩ ∧ printCoord (-1234567) 1000 = ⟨true, 123457, -2⟩ :=
  ⟨⟨123456, -3, by decide, by decide⟩, by decide +kernel, by decide +kernel⟩

end TR
