import Verif.NetCost.Spec
import Verif.Cost.History
/-! Lemmas on lists of cost updates. -/
namespace TR

theorem grun_append (g : Grid) (a b : List GOp) : g.run (a ++ b) = (g.run a).run b := by
  unfold Grid.run; rw [List.foldl_append]

/-- the counter of a cost update -/
def CostMod.ctr : CostMod → Bool → Attr
  | .addDRC, b => ctrAttr b
  | .subDRC, b => ctrAttr b
  | .addShape, b => fixAttr b
  | .subShape, b => fixAttr b

theorem target_cost (ty : CostMod) (t : CTgt) : (costOp ty t).target = some (t.1, ty.ctr t.2) := by
  obtain ⟨n, b⟩ := t
  cases ty <;> cases b <;> rfl

theorem ctr_inj (ty : CostMod) {a b : Bool} (h : ty.ctr a = ty.ctr b) : a = b := by
  cases ty <;> cases a <;> cases b <;> first | rfl | (exact absurd h (by decide))

/-- is it an addition? -/
def CostMod.plus : CostMod → Bool
  | .addDRC => true
  | .addShape => true
  | _ => false

theorem legal_cost {g : Grid} {t : CTgt} (ty : CostMod) (h : g.On t.1 ∨ ty = .addShape ∨ ty = .subShape) : (costOp ty t).Legal g := by
  rcases h with h | h | h
  · right
    intro n a e
    rw [target_cost] at e
    simp only [Option.some.injEq, Prod.mk.injEq] at e
    rw [← e.1]
    exact (on_iff g _).1 h
  · left; subst h; obtain ⟨n, b⟩ := t; cases b <;> rfl
  · left; subst h; obtain ⟨n, b⟩ := t; cases b <;> rfl

theorem effect_cost (ty : CostMod) (u t : CTgt) : (costOp ty u).effect t.1 (ty.ctr t.2) =
    if u = t then (if ty.plus then .add 1 else .sub 1) else .none := by
  unfold GOp.effect
  rw [target_cost]
  obtain ⟨n, b⟩ := u
  obtain ⟨m, c⟩ := t
  by_cases h : ((n, b) : CTgt) = (m, c)
  · cases h
    rw [if_pos rfl, if_pos rfl]
    cases ty <;> cases b <;> rfl
  · rw [if_neg h, if_neg]
    simp only [Option.some.injEq, Prod.mk.injEq, not_and]
    intro h1 h2
    exact h (by rw [h1, ctr_inj ty h2])

theorem attr_ctr_le (g : Grid) (m : MIdx) (ty : CostMod) (b : Bool) : g.attr m (ty.ctr b) ≤ 255 := by
  have h := attr_lt g m (ty.ctr b)
  have e : (ty.ctr b).field.2 = 8 := by cases ty <;> cases b <;> rfl
  rw [e] at h
  omega

theorem cost_step (ty : CostMod) (g : Grid) (u t : CTgt) (hl : (costOp ty u).Legal g) (ht : g.On t.1) :
    (ty.plus = true → g.attr t.1 (ty.ctr t.2) + 1 ≤ 255 →
      (g.step (costOp ty u)).attr t.1 (ty.ctr t.2) = g.attr t.1 (ty.ctr t.2) + (if u = t then 1 else 0)) ∧
    (ty.plus = true → u ≠ t → (g.step (costOp ty u)).attr t.1 (ty.ctr t.2) = g.attr t.1 (ty.ctr t.2)) ∧
    (ty.plus = false → (g.step (costOp ty u)).attr t.1 (ty.ctr t.2) = g.attr t.1 (ty.ctr t.2) - (if u = t then 1 else 0)) := by
  have h := counter_step g _ hl t.1 (ty.ctr t.2) ht
  rw [effect_cost] at h
  by_cases e : u = t
  · simp only [if_pos e] at h ⊢
    refine ⟨?_, fun _ hne => absurd e hne, ?_⟩
    · intro hp hb
      rw [if_pos hp] at h
      simp only at h
      rw [h]
      have : ¬ (g.attr t.1 (ty.ctr t.2) + 1 > 256) := by omega
      simp only [this, if_false]
      omega
    · intro hp
      rw [hp] at h
      simpa using h
  · simp only [if_neg e] at h ⊢
    exact ⟨fun _ _ => h, fun _ _ => h, fun _ => h⟩

/-- adding a list of charges -/
theorem addRun (ty : CostMod) (hp : ty.plus = true) (t : CTgt) (l : List CTgt) : ∀ (g : Grid), (∀ u ∈ l, g.On u.1 ∨ ty = .addShape ∨ ty = .subShape) →
    g.On t.1 → g.attr t.1 (ty.ctr t.2) + l.count t ≤ 255 →
    (g.run (costOps ty l)).attr t.1 (ty.ctr t.2) = g.attr t.1 (ty.ctr t.2) + l.count t := by
  induction l with
  | nil => intro g _ _ _; rfl
  | cons u l ih =>
    intro g hl ht hb
    have hu := legal_cost ty (hl u (by simp))
    have hs := sameGrid_step g _ hu
    rw [List.count_cons] at hb ⊢
    have e : (if (u == t) = true then 1 else 0 : Nat) = if u = t then 1 else 0 := by simp
    rw [e] at hb ⊢
    show ((g.step (costOp ty u)).run (costOps ty l)).attr t.1 (ty.ctr t.2) = _
    have h1 : (g.step (costOp ty u)).attr t.1 (ty.ctr t.2) = g.attr t.1 (ty.ctr t.2) + (if u = t then 1 else 0) := by
      by_cases hut : u = t
      · exact (cost_step ty g u t hu ht).1 hp (by rw [if_pos hut] at hb; omega)
      · rw [if_neg hut]; exact (cost_step ty g u t hu ht).2.1 hp hut
    rw [ih _ (fun v hv => (hl v (by simp [hv])).imp_left (sameGrid_on hs _).2) ((sameGrid_on hs _).2 ht) (by rw [h1]; omega), h1]
    omega

/-- taking a list of charges off; a counter does not go below zero -/
theorem subRun (ty : CostMod) (hp : ty.plus = false) (t : CTgt) (l : List CTgt) : ∀ (g : Grid), (∀ u ∈ l, g.On u.1 ∨ ty = .addShape ∨ ty = .subShape) →
    g.On t.1 → (g.run (costOps ty l)).attr t.1 (ty.ctr t.2) = g.attr t.1 (ty.ctr t.2) - l.count t := by
  induction l with
  | nil => intro g _ _; rfl
  | cons u l ih =>
    intro g hl ht
    have hu := legal_cost ty (hl u (by simp))
    have hs := sameGrid_step g _ hu
    rw [List.count_cons]
    have e : (if (u == t) = true then 1 else 0 : Nat) = if u = t then 1 else 0 := by simp
    rw [e]
    show ((g.step (costOp ty u)).run (costOps ty l)).attr t.1 (ty.ctr t.2) = _
    rw [ih _ (fun v hv => (hl v (by simp [hv])).imp_left (sameGrid_on hs _).2) ((sameGrid_on hs _).2 ht), (cost_step ty g u t hu ht).2.2 hp]
    omega

theorem flat_costOps {α : Type} (ty : CostMod) (f : α → List CTgt) (l : List α) :
    (l.flatMap fun x => costOps ty (f x)) = costOps ty (l.flatMap f) := by
  unfold costOps; rw [List.map_flatMap]

theorem count_flat {α : Type} (t : CTgt) (f : α → List CTgt) (l : List α) : (l.flatMap f).count t = (l.map fun x => (f x).count t).sum := by
  induction l with
  | nil => rfl
  | cons x l ih => rw [List.flatMap_cons, List.count_append, ih, List.map_cons, List.sum_cons]

theorem figOps_eq (T : CTech) (g : Grid) (sv : MIdx → Option MzVia) (add : Bool) (fs : List CFig) :
    figOps T g sv add fs = costOps (if add then .addDRC else .subDRC) (fs.flatMap (pathTargets T g sv)) := flat_costOps _ _ _

theorem termOps_eq (T : CTech) (g : Grid) (sv : MIdx → Option MzVia) (add skip : Bool) (ss : List TermRect) :
    termOps T g sv add skip ss = costOps (if add then .addShape else .subShape) (ss.flatMap (termTargets T g sv skip)) := flat_costOps _ _ _

theorem chargeOf_flat (T : CTech) (g : Grid) (sv : MIdx → Option MzVia) (t : CTgt) (fs : List CFig) :
    (fs.flatMap (pathTargets T g sv)).count t = chargeOf T g sv t fs := count_flat _ _ _

theorem termCharge_flat (T : CTech) (g : Grid) (sv : MIdx → Option MzVia) (skip : Bool) (t : CTgt) (ss : List TermRect) :
    (ss.flatMap (termTargets T g sv skip)).count t = termCharge T g sv skip t ss := count_flat _ _ _

theorem chargeOf_append (T : CTech) (g : Grid) (sv : MIdx → Option MzVia) (t : CTgt) (a b : List CFig) :
    chargeOf T g sv t (a ++ b) = chargeOf T g sv t a + chargeOf T g sv t b := by
  unfold chargeOf; rw [List.map_append, List.sum_append]

/-! ### which bits an update touches -/

/-- no update in the list is to bit field `a` -/
def Spares (a : Attr) (ops : List GOp) : Prop := ∀ op ∈ ops, ∀ m, op.target ≠ some (m, a)

theorem Spares.append {a : Attr} {x y : List GOp} (hx : Spares a x) (hy : Spares a y) : Spares a (x ++ y) := by
  intro op hop
  rcases List.mem_append.1 hop with h | h
  · exact hx op h
  · exact hy op h

theorem spares_nil (a : Attr) : Spares a [] := by intro op h; cases h

theorem Spares.flatMap {α : Type} {a : Attr} {l : List α} {f : α → List GOp} (h : ∀ x ∈ l, Spares a (f x)) : Spares a (l.flatMap f) := by
  intro op hop
  obtain ⟨x, hx, hop⟩ := List.mem_flatMap.1 hop
  exact h x hx op hop

theorem spares_costOps {a : Attr} (ty : CostMod) (l : List CTgt) (h : ∀ b, ty.ctr b ≠ a) : Spares a (costOps ty l) := by
  intro op hop m e
  obtain ⟨t, _, rfl⟩ := List.mem_map.1 hop
  rw [target_cost] at e
  simp only [Option.some.injEq, Prod.mk.injEq] at e
  exact h _ e.2

theorem run_spared (g : Grid) (ops : List GOp) (hl : ∀ op ∈ ops, op.Legal g) (m : MIdx) (a : Attr) (hm : g.On m) (h : Spares a ops) :
    (g.run ops).attr m a = g.attr m a := c08_history ops g hl m a hm (fun op hop => h op hop m)

theorem legal_same {g g' : Grid} (h : SameGrid g g') {op : GOp} (hl : op.Legal g) : op.Legal g' := by
  rcases hl with hl | hl
  · exact Or.inl hl
  · right
    intro n a e
    exact (on_iff g' n).1 ((sameGrid_on h n).2 ((on_iff g n).2 (hl n a e)))

theorem sameGrid_trans {a b c : Grid} (h : SameGrid a b) (h' : SameGrid b c) : SameGrid a c :=
  ⟨h'.1.trans h.1, h'.2.1.trans h.2.1, h'.2.2.trans h.2.2⟩

theorem sameGrid_refl (g : Grid) : SameGrid g g := ⟨rfl, rfl, rfl⟩

/-- list of costs of routed shapes with all its counters on the grid -/
theorem legal_costOps {g : Grid} {ty : CostMod} {l : List CTgt} (h : ∀ u ∈ l, g.On u.1 ∨ ty = .addShape ∨ ty = .subShape) :
    ∀ op ∈ costOps ty l, op.Legal g := by
  intro op hop
  obtain ⟨u, hu, rfl⟩ := List.mem_map.1 hop
  exact legal_cost ty (h u hu)

/-! ### what depends on the grid's shape only -/

theorem sameGrid_ops {g g' : Grid} (h : SameGrid g g') (E : WEnv) (add : Bool) (n : WNet) (sv : MIdx → Option MzVia) (fs : List CFig) :
    E.netOps g' add n = E.netOps g add n ∧ figOps E.T g' sv add fs = figOps E.T g sv add fs := by
  obtain ⟨h1, h2, h3⟩ := h
  rcases g with ⟨⟩
  rcases g' with ⟨⟩
  simp only at h1 h2 h3
  subst h1; subst h2; subst h3
  exact ⟨rfl, rfl⟩

/-! ### sums over nets -/

theorem sum_range_update (f f' : Nat → Nat) (n k : Nat) (hk : k < n) (h : ∀ i, i ≠ k → f' i = f i) :
    ((List.range n).map f').sum + f k = ((List.range n).map f).sum + f' k := by
  induction n with
  | zero => omega
  | succ n ih =>
    rw [List.range_succ, List.map_append, List.map_append, List.sum_append, List.sum_append]
    simp only [List.map_cons, List.map_nil, List.sum_cons, List.sum_nil]
    by_cases hkn : k = n
    · subst hkn
      have : (List.range k).map f' = (List.range k).map f := by
        apply List.map_congr_left
        intro i hi
        exact h i (by rw [List.mem_range] at hi; omega)
      rw [this]; omega
    · have := ih (by omega)
      rw [h n (by omega)]
      omega

theorem sum_range_le (f f' : Nat → Nat) (n : Nat) (h : ∀ i, f i ≤ f' i) : ((List.range n).map f).sum ≤ ((List.range n).map f').sum := by
  induction n with
  | zero => exact Nat.le_refl _
  | succ n ih =>
    rw [List.range_succ, List.map_append, List.map_append, List.sum_append, List.sum_append]
    simp only [List.map_cons, List.map_nil, List.sum_cons, List.sum_nil]
    have := h n
    omega

end TR
