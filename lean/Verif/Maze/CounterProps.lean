import Verif.Maze.GridProps
/-! Property theorems C10 and C44: cost counters. -/
namespace TR

theorem upd_add_attr (g : Grid) (n : MIdx) (a : Attr) (k : Nat) :
    (g.upd (g.idx n) (addToBits · a.field.1 a.field.2 k)).attr n a =
      (if g.attr n a + k > 2 ^ a.field.2 then 2 ^ a.field.2 else g.attr n a + k) % 2 ^ a.field.2 := by
  rw [attr_eq, attr_eq, upd_idx]
  simp only [Grid.upd, if_true]
  exact addToBits_val _ _ _ _ (field_ok a).1 (field_ok a).2

theorem upd_sub_attr (g : Grid) (n : MIdx) (a : Attr) (k : Nat) :
    (g.upd (g.idx n) (subToBits · a.field.1 a.field.2 k)).attr n a = g.attr n a - k := by
  rw [attr_eq, attr_eq, upd_idx]
  simp only [Grid.upd, if_true]
  exact subToBits_val _ _ _ _ (field_ok a).1 (field_ok a).2

theorem attr_lt (g : Grid) (n : MIdx) (a : Attr) : g.attr n a < 2 ^ a.field.2 := by
  rw [attr_eq]; exact getBits_lt _ _ _ (field_ok a).1 (field_ok a).2

theorem decay_attr (g : Grid) (n : MIdx) (a : Attr) (ha : a.field.2 = 8) :
    (g.upd (g.idx n) (setBits · a.field.1 8
      (max 0 ((getBits (g.bits (g.idx n)) a.field.1 8 : Int) - 1)).toNat)).attr n a = g.attr n a - 1 := by
  have hlt := attr_lt g n a
  have hok := field_ok a
  rw [attr_eq] at hlt ⊢
  rw [attr_eq, upd_idx]
  rw [ha] at *
  simp only [Grid.upd, if_true]
  rw [getBits_setBits_same _ _ _ _ hok.1 hok.2]
  have : (max 0 ((getBits (g.bits (g.idx n)) a.field.1 8 : Int) - 1)).toNat =
      getBits (g.bits (g.idx n)) a.field.1 8 - 1 := by omega
  rw [this]; exact Nat.mod_eq_of_lt (by omega)

theorem byAxis_none (e n u : Attr) (h) : byAxis e n u none = some h → False := by simp [byAxis]

/-- Exact effect of a call on a counter. -/
theorem counter_step (g : Grid) (op : GOp) (hl : op.Legal g) (m : MIdx) (a : Attr) (hm : g.On m) :
    match op.effect m a with
    | .none => (g.step op).attr m a = g.attr m a
    | .add k => (g.step op).attr m a =
        (if g.attr m a + k > 256 then 256 else g.attr m a + k) % 256
    | .sub k => (g.step op).attr m a = g.attr m a - k
    | .other => True := by
  by_cases ht : op.target = some (m, a)
  · have hv := (on_iff g m).1 hm
    have A := fun a k => upd_add_attr g m a k
    have S := fun a k => upd_sub_attr g m a k
    cases op <;> simp only [GOp.effect, ht, if_true]
    case addDRCPlanar n => simp [GOp.target] at ht; obtain ⟨rfl, rfl⟩ := ht; exact A .drcP 1
    case addDRCVia n => simp [GOp.target] at ht; obtain ⟨rfl, rfl⟩ := ht; exact A .drcV 1
    case subDRCPlanar n => simp [GOp.target] at ht; obtain ⟨rfl, rfl⟩ := ht; exact S .drcP 1
    case subDRCVia n => simp [GOp.target] at ht; obtain ⟨rfl, rfl⟩ := ht; exact S .drcV 1
    case addMarkerPlanar n => simp [GOp.target] at ht; obtain ⟨rfl, rfl⟩ := ht; exact A .markP 10
    case addMarkerVia n => simp [GOp.target] at ht; obtain ⟨rfl, rfl⟩ := ht; exact A .markV 10
    case decayMarkerPlanar n =>
      simp [GOp.target] at ht; obtain ⟨rfl, rfl⟩ := ht; exact decay_attr g n .markP rfl
    case decayMarkerVia n =>
      simp [GOp.target] at ht; obtain ⟨rfl, rfl⟩ := ht; exact decay_attr g n .markV rfl
    case addShapePlanar n =>
      simp [GOp.target] at ht; obtain ⟨rfl, rfl⟩ := ht
      simp only [Grid.step, Grid.addShapePlanar, hv, if_true]; exact A .shapeP 1
    case addShapeVia n =>
      simp [GOp.target] at ht; obtain ⟨rfl, rfl⟩ := ht
      simp only [Grid.step, Grid.addShapeVia, hv, if_true]; exact A .shapeV 1
    case subShapePlanar n =>
      simp [GOp.target] at ht; obtain ⟨rfl, rfl⟩ := ht
      simp only [Grid.step, Grid.subShapePlanar, hv, if_true]; exact S .shapeP 1
    case subShapeVia n =>
      simp [GOp.target] at ht; obtain ⟨rfl, rfl⟩ := ht
      simp only [Grid.step, Grid.subShapeVia, hv, if_true]; exact S .shapeV 1
    case addMarker n d =>
      cases d <;> simp [GOp.target, edgeHome, byAxis] at ht <;> obtain ⟨rfl, rfl⟩ := ht <;>
        simp only [Grid.step, Grid.addMarker, correct, hv, if_true]
      · exact A .markV 10
      · exact A .markP 10
      · exact A .markP 10
      · exact A .markP 10
      · exact A .markP 10
      · exact A .markV 10
  · simp only [GOp.effect, ht, if_false]
    exact c08_single_attribute g op hl m a hm ht

theorem effect_addCost (m a) (x : MIdx × CostKind) : (addCost x).effect m a =
    if (addCost x).target = some (m, a) then .add 1 else .none := by
  rcases x with ⟨n, k⟩; cases k <;> rfl

theorem effect_subCost (m a) (x : MIdx × CostKind) : (subCost x).effect m a =
    if (addCost x).target = some (m, a) then .sub 1 else .none := by
  rcases x with ⟨n, k⟩; cases k <;> rfl

theorem netChange_append (m a) (l1 l2 : List GOp) :
    netChange m a (l1 ++ l2) = netChange m a l1 + netChange m a l2 := by
  induction l1 with
  | nil => simp [netChange]
  | cons x xs ih => simp only [List.cons_append, netChange, ih]; omega

/-- C10 (partial: while the counter stays representable, i.e. at most 255): after any history of
legal calls the stored counter is the number of additions minus removals. The full property is
false of the code, see `c10_overflow_vanishes`. -/
theorem c10_counter_exact_partial (ops : List GOp) : ∀ (g : Grid), (∀ op ∈ ops, op.Legal g) →
    ∀ (m : MIdx) (a : Attr), g.On m → OnlyCounts m a ops → NeverSaturates m a (g.attr m a) ops →
    ((g.run ops).attr m a : Int) = g.attr m a + netChange m a ops := by
  induction ops with
  | nil => intro g _ m a _ _ _; simp [Grid.run, netChange]
  | cons op ops ih =>
    intro g hl m a hm hc hs
    have h1 := hl op (by simp)
    have hstep : (((g.step op).attr m a : Nat) : Int) = g.attr m a + netChange m a [op] := by
      have hcs := counter_step g op h1 m a hm
      have hno := hc op (by simp)
      have hb := hs 1 (by simp)
      simp only [List.take_succ_cons, List.take_zero] at hb
      revert hcs hno hb
      simp only [netChange]
      cases op.effect m a with
      | none => intro h _ _; simp [h, CounterEffect.delta]
      | add k =>
        intro h _ hb
        simp only [CounterEffect.delta] at h hb ⊢
        rw [h]
        have : ¬ (g.attr m a + k > 256) := by omega
        simp only [this, if_false]
        rw [Nat.mod_eq_of_lt (by omega)]; omega
      | sub k =>
        intro h _ hb
        simp only [CounterEffect.delta] at h hb ⊢
        rw [h]; omega
      | other => intro _ h; exact absurd rfl h
    have hrun : (g.run (op :: ops)) = (g.step op).run ops := rfl
    rw [hrun]
    have e : netChange m a (op :: ops) = netChange m a [op] + netChange m a ops :=
      netChange_append m a [op] ops
    have := ih (g.step op) (fun o ho => legal_step g op o h1 (hl o (by simp [ho]))) m a
      ((on_iff _ _).2 (by rw [step_isValid g op h1]; exact (on_iff _ _).1 hm))
      (fun o ho => hc o (by simp [ho])) (by
        intro k hk
        have := hs (k + 1) (by simp; omega)
        rw [List.take_succ_cons] at this
        have e2 : netChange m a (op :: ops.take k) = netChange m a [op] + netChange m a (ops.take k) :=
          netChange_append m a [op] (ops.take k)
        omega)
    omega

/-- C10 (partial, same proviso): the counter reads as present exactly when it was added more often
than removed, counting from a counter that was absent. -/
theorem c10_present_iff_partial (g : Grid) (ops : List GOp) (hl : ∀ op ∈ ops, op.Legal g)
    (m : MIdx) (a : Attr) (hm : g.On m) (h0 : g.attr m a = 0) (hc : OnlyCounts m a ops)
    (hs : NeverSaturates m a 0 ops) :
    ((g.run ops).attr m a ≠ 0 ↔ netChange m a ops > 0) := by
  have := c10_counter_exact_partial ops g hl m a hm hc (by rw [h0]; exact hs)
  omega

/-- C10 is false of the code: once a DRC counter of any node reads 255, one more addition makes
it read 0, i.e. the cost disappears; 256 additions to an absent cost leave it absent. The same
holds of the shape counters. -/
theorem c10_overflow_vanishes (g : Grid) (n : MIdx) (k : CostKind) (a : Attr) (hn : g.On n)
    (ht : (addCost (n, k)).target = some (n, a)) :
    (g.attr n a = 255 → (g.step (addCost (n, k))).attr n a = 0) ∧
    (g.attr n a = 0 → (g.run (List.replicate 256 (addCost (n, k)))).attr n a = 0) := by
  have hl : ∀ g : Grid, g.On n → (addCost (n, k)).Legal g := by
    intro g hn; right; intro m b e
    rw [ht] at e; cases e; exact (on_iff _ _).1 hn
  have he : (addCost (n, k)).effect n a = .add 1 := by
    rw [effect_addCost, if_pos ht]
  have one : ∀ g : Grid, g.On n → (g.step (addCost (n, k))).attr n a =
      (if g.attr n a + 1 > 256 then 256 else g.attr n a + 1) % 256 := by
    intro g hn
    have := counter_step g (addCost (n, k)) (hl g hn) n a hn
    rw [he] at this; exact this
  have many : ∀ j, j ≤ 255 → ∀ g : Grid, g.On n → g.attr n a + j ≤ 255 →
      (g.run (List.replicate j (addCost (n, k)))).On n ∧
      (g.run (List.replicate j (addCost (n, k)))).attr n a = g.attr n a + j := by
    intro j
    induction j with
    | zero => intro _ g hn _; exact ⟨hn, rfl⟩
    | succ j ih =>
      intro hj g hn hb
      have hon : (g.step (addCost (n, k))).On n :=
        (on_iff _ _).2 (by rw [step_isValid g _ (hl g hn)]; exact (on_iff _ _).1 hn)
      have h1 := one g hn
      rw [if_neg (by omega), Nat.mod_eq_of_lt (by omega)] at h1
      have := ih (by omega) (g.step (addCost (n, k))) hon (by omega)
      rw [List.replicate_succ]
      refine ⟨this.1, ?_⟩
      have h2 := this.2
      rw [h1] at h2
      have e : (g.run (addCost (n, k) :: List.replicate j (addCost (n, k)))) =
        ((g.step (addCost (n, k))).run (List.replicate j (addCost (n, k)))) := rfl
      rw [e, h2]; omega
  refine ⟨?_, ?_⟩
  · intro h; rw [one g hn, h]; rfl
  · intro h
    have hm := many 255 (by omega) g hn (by omega)
    rw [h] at hm
    have e : g.run (List.replicate 256 (addCost (n, k))) =
        (g.run (List.replicate 255 (addCost (n, k)))).step (addCost (n, k)) := by
      have : List.replicate 256 (addCost (n, k)) = List.replicate 255 (addCost (n, k)) ++ [addCost (n, k)] := by
        rw [← List.replicate_succ']
      rw [this, Grid.run, List.foldl_append]; rfl
    rw [e, one _ hm.1, hm.2]; rfl

example : (addCost (⟨1, 1, 0⟩, .drcPlanar)).target = some (⟨1, 1, 0⟩, .drcP) ∧ demoGrid.On ⟨1, 1, 0⟩ := by
  decide

/-! ## C44 -/

theorem netChange_perm (m a) {l1 l2 : List GOp} (h : l1.Perm l2) : netChange m a l1 = netChange m a l2 := by
  induction h with
  | nil => rfl
  | cons x _ ih => simp only [netChange, ih]
  | swap x y l => simp only [netChange]; omega
  | trans _ _ ih1 ih2 => exact ih1.trans ih2

theorem netChange_shape (m a) (S : List (MIdx × CostKind)) :
    netChange m a (S.map addCost ++ S.map subCost) = 0 := by
  rw [netChange_append]
  induction S with
  | nil => rfl
  | cons x S ih =>
    simp only [List.map_cons, netChange]
    have : ∀ x : MIdx × CostKind,
        ((addCost x).effect m a).delta +
        ((subCost x).effect m a).delta = 0 := by
      intro x
      rw [effect_addCost, effect_subCost]
      by_cases h : (addCost x).target = some (m, a) <;> simp [h, CounterEffect.delta]
    have := this x
    omega

/-- C44: take any schedule `ops` that interleaves the additions and the removals of a shape's
costs with other cost updates `rest`. As long as the counter in question stays representable, it
ends with the value it would have had if the shape had never been there. -/
theorem c44_ripup_restores (g : Grid) (S : List (MIdx × CostKind)) (rest ops : List GOp)
    (hperm : ops.Perm (S.map addCost ++ S.map subCost ++ rest)) (hl : ∀ op ∈ ops, op.Legal g)
    (m : MIdx) (a : Attr) (hm : g.On m) (hc : OnlyCounts m a ops)
    (hs : NeverSaturates m a (g.attr m a) ops) (hs' : NeverSaturates m a (g.attr m a) rest) :
    (g.run ops).attr m a = (g.run rest).attr m a := by
  have hmem : ∀ op ∈ rest, op ∈ ops := fun op h => hperm.mem_iff.2 (by simp [h])
  have h1 := c10_counter_exact_partial ops g hl m a hm hc hs
  have h2 := c10_counter_exact_partial rest g (fun o ho => hl o (hmem o ho)) m a hm
    (fun o ho => hc o (hmem o ho)) hs'
  rw [netChange_perm m a hperm, netChange_append, netChange_shape] at h1
  omega

/-- C44, the simple case: add the whole shape then remove it. -/
theorem c44_add_then_remove (g : Grid) (S : List (MIdx × CostKind))
    (hl : ∀ x ∈ S, g.On x.1) (m : MIdx) (a : Attr) (hm : g.On m)
    (hs : (g.attr m a : Int) + netChange m a (S.map addCost) ≤ 255) :
    (g.run (S.map addCost ++ S.map subCost)).attr m a = g.attr m a := by
  have pos : ∀ l : List (MIdx × CostKind), 0 ≤ netChange m a (l.map addCost) := by
    intro l; induction l with
    | nil => simp [netChange]
    | cons x l ih =>
      simp only [List.map_cons, netChange]
      have : 0 ≤ ((addCost x).effect m a).delta := by
        rw [effect_addCost]
        by_cases h : (addCost x).target = some (m, a) <;> simp [h, CounterEffect.delta]
      omega
  have neg : ∀ l : List (MIdx × CostKind), netChange m a (l.map subCost) = - netChange m a (l.map addCost) := by
    intro l
    have := netChange_shape m a l
    rw [netChange_append] at this; omega
  have pre : ∀ (k : Nat), netChange m a ((S.map addCost).take k) ≤ netChange m a (S.map addCost) := by
    intro k
    rw [← List.map_take]
    have e := netChange_append m a ((S.take k).map addCost) ((S.drop k).map addCost)
    rw [← List.map_append, List.take_append_drop] at e
    have := pos (S.drop k); omega
  have hs' : NeverSaturates m a (g.attr m a) (S.map addCost ++ S.map subCost) := by
    intro k hk
    rw [List.take_append]
    rw [netChange_append]
    rw [← List.map_take, ← List.map_take, neg, List.length_map]
    have p1 := pos (S.take k)
    have p2 := pos (S.take (k - S.length))
    have p3 := pre k
    rw [← List.map_take] at p3
    by_cases h : k ≤ S.length
    · have : S.take (k - S.length) = [] := by
        have : k - S.length = 0 := by omega
        rw [this]; rfl
      rw [this]; simp only [List.map_nil, netChange]; omega
    · have e : S.take k = S := List.take_of_length_le (by omega)
      rw [e] at p1 ⊢
      have p4 := pre (k - S.length)
      rw [← List.map_take] at p4
      omega
  have hlegal : ∀ op ∈ S.map addCost ++ S.map subCost, op.Legal g := by
    intro op ho
    rcases List.mem_append.1 ho with ho | ho <;> obtain ⟨⟨n, k⟩, hx, rfl⟩ := List.mem_map.1 ho <;>
      have := (on_iff _ _).1 (hl _ hx) <;> right <;> intro n' a' e <;>
      cases k <;> simp [addCost, subCost, GOp.target] at e <;> obtain ⟨rfl, _⟩ := e <;> exact this
  have hcnt : OnlyCounts m a (S.map addCost ++ S.map subCost) := by
    intro op ho
    rcases List.mem_append.1 ho with ho | ho <;> obtain ⟨x, hx, rfl⟩ := List.mem_map.1 ho
    · rw [effect_addCost]; by_cases h : (addCost x).target = some (m, a) <;> simp [h, CounterEffect.delta]
    · rw [effect_subCost]; by_cases h : (addCost x).target = some (m, a) <;> simp [h, CounterEffect.delta]
  have := c10_counter_exact_partial _ g hlegal m a hm hcnt hs'
  rw [netChange_shape] at this; omega

example : demoGrid.On ⟨1, 1, 0⟩ ∧
    (demoGrid.attr ⟨1, 1, 0⟩ .drcP : Int) +
      netChange ⟨1, 1, 0⟩ .drcP ([(⟨1, 1, 0⟩, .drcPlanar), (⟨2, 1, 0⟩, .drcPlanar), (⟨1, 1, 0⟩, .drcPlanar)].map addCost) = 2 := by
  decide

end TR
