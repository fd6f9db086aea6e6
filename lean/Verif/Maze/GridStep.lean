import Verif.Maze.GridSpec
import Verif.Maze.GridLemmas
/-! Normal form of one grid operation: at most one field of one word is replaced. -/
namespace TR

theorem attr_eq (g : Grid) (n : MIdx) (a : Attr) :
    g.attr n a = getBits (g.bits (g.idx n)) a.field.1 a.field.2 := by
  apply Nat.eq_of_testBit_eq
  intro i
  have h : a.field.2 < 64 ∧ a.field.1 + a.field.2 ≤ 64 := by cases a <;> simp [Attr.field]
  rw [getBits_testBit _ _ _ h.1 h.2, Grid.attr, Nat.testBit_mod_two_pow, ← Nat.shiftRight_eq_div_pow,
    Nat.testBit_shiftRight]
  rfl

theorem field_ok (a : Attr) : a.field.2 < 64 ∧ a.field.1 + a.field.2 ≤ 64 := by
  cases a <;> simp [Attr.field]

theorem field_disj (a b : Attr) (h : a ≠ b) :
    a.field.1 + a.field.2 ≤ b.field.1 ∨ b.field.1 + b.field.2 ≤ a.field.1 := by
  cases a <;> cases b <;> simp [Attr.field] at h ⊢

/-- `g` with field `a` of node `n` replaced by value `v` -/
def Grid.put (g : Grid) (n : MIdx) (a : Attr) (v : Nat) : Grid :=
  g.upd (g.idx n) (fun w => setBits w a.field.1 a.field.2 v)

theorem upd_congr (g : Grid) (i : Int) (f f' : Word → Word) (h : f (g.bits i) = f' (g.bits i)) :
    g.upd i f = g.upd i f' := by
  simp only [Grid.upd, h]

@[simp] theorem upd_idx (g : Grid) (i : Int) (f : Word → Word) (n : MIdx) : (g.upd i f).idx n = g.idx n := rfl
@[simp] theorem upd_isValid (g : Grid) (i : Int) (f : Word → Word) (n : MIdx) :
    (g.upd i f).isValid n = g.isValid n := rfl

theorem put_attr (g : Grid) (n m : MIdx) (a b : Attr) (v : Nat)
    (hn : g.isValid n = true) (hm : g.isValid m = true) :
    (g.put n a v).attr m b = if m = n ∧ b = a then v % 2 ^ a.field.2 else g.attr m b := by
  rw [attr_eq, attr_eq]
  simp only [Grid.put, upd_idx]
  simp only [Grid.upd]
  by_cases h : m = n
  · subst h
    simp only [if_true]
    by_cases hb : b = a
    · subst hb
      simp only [and_self, if_true]
      exact getBits_setBits_same _ _ _ _ (field_ok b).1 (field_ok b).2
    · simp only [hb, and_false, if_false]
      exact getBits_setBits_disj _ _ _ _ _ _ (field_ok a).1 (field_ok a).2 (field_ok b).1
        (field_ok b).2 (field_disj a b (fun h => hb h.symm))
  · have : g.idx m ≠ g.idx n := fun e => h (idx_inj g hm hn e)
    simp [this, h]

/-- Every call either does nothing or replaces its target attribute on an in-range node
(for a legal call). -/
theorem step_normal (g : Grid) (op : GOp) (hl : op.Legal g) :
    g.step op = g ∨
    ∃ n a v, op.target = some (n, a) ∧ g.isValid n = true ∧ g.step op = g.put n a v := by
  have S : ∀ (n : MIdx) (a : Attr) (f : Word → Word) (v : Nat),
      (∀ w, f w = setBits w a.field.1 a.field.2 v) →
      g.upd (g.idx n) f = g.put n a v := by
    intro n a f v h
    exact upd_congr _ _ _ _ (h _)
  have Sadd : ∀ (n : MIdx) (a : Attr) (k : Nat), ∃ v,
      g.upd (g.idx n) (addToBits · a.field.1 a.field.2 k) = g.put n a v := by
    intro n a k; exact ⟨_, upd_congr _ _ _ _ rfl⟩
  have Ssub : ∀ (n : MIdx) (a : Attr) (k : Nat), ∃ v,
      g.upd (g.idx n) (subToBits · a.field.1 a.field.2 k) = g.put n a v := by
    intro n a k; exact ⟨_, upd_congr _ _ _ _ rfl⟩
  have bit1 : ∀ p, p < 64 → ∀ w, setBit w p = setBits w p 1 1 := fun p hp w => setBit_eq w p hp
  have bit0 : ∀ p, p < 64 → ∀ w, resetBit w p = setBits w p 1 0 := fun p hp w => resetBit_eq w p hp
  cases op with
  | addEdge n d b i =>
    simp only [Grid.step, Grid.addEdge]
    by_cases h1 : g.isEdgeInBox n d b i = true
    · simp only [h1, Bool.not_true, Bool.false_eq_true, if_false]
      by_cases h2 : g.isValidD (correct n d).1 (correct n d).2 = true
      · have h3 : g.isValid (correct n d).1 = true := by
          simp only [Grid.isValidD, Bool.and_eq_true] at h2; exact h2.1
        simp only [h2, if_true]
        cases d <;> simp only [correct, GOp.target, edgeHome, byAxis] at h3 ⊢
        · left; trivial
        all_goals right
        · exact ⟨_, _, 1, rfl, h3, S _ .edgeU _ _ (bit1 2 (by omega))⟩
        · exact ⟨_, _, 1, rfl, h3, S _ .edgeN _ _ (bit1 1 (by omega))⟩
        · exact ⟨_, _, 1, rfl, h3, S _ .edgeE _ _ (bit1 0 (by omega))⟩
        · exact ⟨_, _, 1, rfl, h3, S _ .edgeE _ _ (bit1 0 (by omega))⟩
        · exact ⟨_, _, 1, rfl, h3, S _ .edgeN _ _ (bit1 1 (by omega))⟩
        · exact ⟨_, _, 1, rfl, h3, S _ .edgeU _ _ (bit1 2 (by omega))⟩
      · left; simp [h2]
    · left; simp [h1]
  | removeEdge n d =>
    simp only [Grid.step, Grid.removeEdge]
    by_cases h2 : g.isValidD (correct n d).1 (correct n d).2 = true
    · have h3 : g.isValid (correct n d).1 = true := by
        simp only [Grid.isValidD, Bool.and_eq_true] at h2; exact h2.1
      simp only [h2, if_true]
      cases d <;> simp only [correct, GOp.target, edgeHome, byAxis] at h3 ⊢
      · left; trivial
      all_goals right
      · exact ⟨_, _, 0, rfl, h3, S _ .edgeU _ _ (bit0 2 (by omega))⟩
      · exact ⟨_, _, 0, rfl, h3, S _ .edgeN _ _ (bit0 1 (by omega))⟩
      · exact ⟨_, _, 0, rfl, h3, S _ .edgeE _ _ (bit0 0 (by omega))⟩
      · exact ⟨_, _, 0, rfl, h3, S _ .edgeE _ _ (bit0 0 (by omega))⟩
      · exact ⟨_, _, 0, rfl, h3, S _ .edgeN _ _ (bit0 1 (by omega))⟩
      · exact ⟨_, _, 0, rfl, h3, S _ .edgeU _ _ (bit0 2 (by omega))⟩
    · left; simp [h2]
  | setBlocked n d =>
    simp only [Grid.step, Grid.setBlocked]
    by_cases h3 : g.isValid (correct n d).1 = true
    · simp only [h3, if_true]
      cases d <;> simp only [correct, GOp.target, edgeHome, byAxis] at h3 ⊢
      · left; trivial
      all_goals right
      · exact ⟨_, _, 1, rfl, h3, S _ .blockU _ _ (bit1 5 (by omega))⟩
      · exact ⟨_, _, 1, rfl, h3, S _ .blockN _ _ (bit1 4 (by omega))⟩
      · exact ⟨_, _, 1, rfl, h3, S _ .blockE _ _ (bit1 3 (by omega))⟩
      · exact ⟨_, _, 1, rfl, h3, S _ .blockE _ _ (bit1 3 (by omega))⟩
      · exact ⟨_, _, 1, rfl, h3, S _ .blockN _ _ (bit1 4 (by omega))⟩
      · exact ⟨_, _, 1, rfl, h3, S _ .blockU _ _ (bit1 5 (by omega))⟩
    · left; simp [h3]
  | resetBlocked n d =>
    simp only [Grid.step, Grid.resetBlocked]
    by_cases h3 : g.isValid (correct n d).1 = true
    · simp only [h3, if_true]
      cases d <;> simp only [correct, GOp.target, edgeHome, byAxis] at h3 ⊢
      · left; trivial
      all_goals right
      · exact ⟨_, _, 0, rfl, h3, S _ .blockU _ _ (bit0 5 (by omega))⟩
      · exact ⟨_, _, 0, rfl, h3, S _ .blockN _ _ (bit0 4 (by omega))⟩
      · exact ⟨_, _, 0, rfl, h3, S _ .blockE _ _ (bit0 3 (by omega))⟩
      · exact ⟨_, _, 0, rfl, h3, S _ .blockE _ _ (bit0 3 (by omega))⟩
      · exact ⟨_, _, 0, rfl, h3, S _ .blockN _ _ (bit0 4 (by omega))⟩
      · exact ⟨_, _, 0, rfl, h3, S _ .blockU _ _ (bit0 5 (by omega))⟩
    · left; simp [h3]
  | setGridCost n d =>
    simp only [Grid.step, Grid.setGridCost]
    by_cases h3 : g.isValid (correct n d).1 = true
    · simp only [h3, if_true]
      cases d <;> simp only [correct, GOp.target, edgeHome, byAxis] at h3 ⊢
      · left; trivial
      all_goals right
      · exact ⟨_, _, 1, rfl, h3, S _ .gridU _ _ (bit1 14 (by omega))⟩
      · exact ⟨_, _, 1, rfl, h3, S _ .gridN _ _ (bit1 13 (by omega))⟩
      · exact ⟨_, _, 1, rfl, h3, S _ .gridE _ _ (bit1 12 (by omega))⟩
      · exact ⟨_, _, 1, rfl, h3, S _ .gridE _ _ (bit1 12 (by omega))⟩
      · exact ⟨_, _, 1, rfl, h3, S _ .gridN _ _ (bit1 13 (by omega))⟩
      · exact ⟨_, _, 1, rfl, h3, S _ .gridU _ _ (bit1 14 (by omega))⟩
    · left; simp [h3]
  | resetGridCost n d =>
    simp only [Grid.step, Grid.resetGridCost]
    by_cases h3 : g.isValid (correct n d).1 = true
    · simp only [h3, if_true]
      cases d <;> simp only [correct, GOp.target, edgeHome, byAxis] at h3 ⊢
      · left; trivial
      all_goals right
      · exact ⟨_, _, 0, rfl, h3, S _ .gridU _ _ (bit0 14 (by omega))⟩
      · exact ⟨_, _, 0, rfl, h3, S _ .gridN _ _ (bit0 13 (by omega))⟩
      · exact ⟨_, _, 0, rfl, h3, S _ .gridE _ _ (bit0 12 (by omega))⟩
      · exact ⟨_, _, 0, rfl, h3, S _ .gridE _ _ (bit0 12 (by omega))⟩
      · exact ⟨_, _, 0, rfl, h3, S _ .gridN _ _ (bit0 13 (by omega))⟩
      · exact ⟨_, _, 0, rfl, h3, S _ .gridU _ _ (bit0 14 (by omega))⟩
    · left; simp [h3]
  | addMarker n d =>
    simp only [Grid.step, Grid.addMarker]
    by_cases h3 : g.isValid (correct n d).1 = true
    · simp only [h3, if_true]
      cases d <;> simp only [correct, GOp.target, edgeHome, byAxis] at h3 ⊢
      · left; trivial
      all_goals right
      · obtain ⟨v, hv⟩ := Sadd ⟨n.x, n.y, n.z - 1⟩ .markV 10; exact ⟨_, _, v, rfl, h3, hv⟩
      · obtain ⟨v, hv⟩ := Sadd ⟨n.x, n.y - 1, n.z⟩ .markP 10; exact ⟨_, _, v, rfl, h3, hv⟩
      · obtain ⟨v, hv⟩ := Sadd ⟨n.x - 1, n.y, n.z⟩ .markP 10; exact ⟨_, _, v, rfl, h3, hv⟩
      · obtain ⟨v, hv⟩ := Sadd n .markP 10; exact ⟨_, _, v, rfl, h3, hv⟩
      · obtain ⟨v, hv⟩ := Sadd n .markP 10; exact ⟨_, _, v, rfl, h3, hv⟩
      · obtain ⟨v, hv⟩ := Sadd n .markV 10; exact ⟨_, _, v, rfl, h3, hv⟩
    · left; simp [h3]
  | addShapePlanar n =>
    simp only [Grid.step, Grid.addShapePlanar]
    by_cases h3 : g.isValid n = true
    · simp only [h3, if_true]; right
      obtain ⟨v, hv⟩ := Sadd n .shapeP 1; exact ⟨_, _, v, rfl, h3, hv⟩
    · left; simp [h3]
  | addShapeVia n =>
    simp only [Grid.step, Grid.addShapeVia]
    by_cases h3 : g.isValid n = true
    · simp only [h3, if_true]; right
      obtain ⟨v, hv⟩ := Sadd n .shapeV 1; exact ⟨_, _, v, rfl, h3, hv⟩
    · left; simp [h3]
  | subShapePlanar n =>
    simp only [Grid.step, Grid.subShapePlanar]
    by_cases h3 : g.isValid n = true
    · simp only [h3, if_true]; right
      obtain ⟨v, hv⟩ := Ssub n .shapeP 1; exact ⟨_, _, v, rfl, h3, hv⟩
    · left; simp [h3]
  | subShapeVia n =>
    simp only [Grid.step, Grid.subShapeVia]
    by_cases h3 : g.isValid n = true
    · simp only [h3, if_true]; right
      obtain ⟨v, hv⟩ := Ssub n .shapeV 1; exact ⟨_, _, v, rfl, h3, hv⟩
    · left; simp [h3]
  | setGridCostE n =>
    right; rcases hl with h | h
    · simp [GOp.guarded] at h
    · exact ⟨n, _, 1, rfl, h _ _ rfl, S n .gridE _ _ (bit1 12 (by omega))⟩
  | setGridCostN n =>
    right; rcases hl with h | h
    · simp [GOp.guarded] at h
    · exact ⟨n, _, 1, rfl, h _ _ rfl, S n .gridN _ _ (bit1 13 (by omega))⟩
  | setGridCostU n =>
    right; rcases hl with h | h
    · simp [GOp.guarded] at h
    · exact ⟨n, _, 1, rfl, h _ _ rfl, S n .gridU _ _ (bit1 14 (by omega))⟩
  | setSVia n =>
    right; rcases hl with h | h
    · simp [GOp.guarded] at h
    · exact ⟨n, _, 1, rfl, h _ _ rfl, S n .svia _ _ (bit1 9 (by omega))⟩
  | setOverride n =>
    right; rcases hl with h | h
    · simp [GOp.guarded] at h
    · exact ⟨n, _, 1, rfl, h _ _ rfl, S n .override _ _ (bit1 11 (by omega))⟩
  | resetOverride n =>
    right; rcases hl with h | h
    · simp [GOp.guarded] at h
    · exact ⟨n, _, 0, rfl, h _ _ rfl, S n .override _ _ (bit0 11 (by omega))⟩
  | addDRCPlanar n =>
    right; rcases hl with h | h
    · simp [GOp.guarded] at h
    · obtain ⟨v, hv⟩ := Sadd n .drcP 1; exact ⟨n, _, v, rfl, h _ _ rfl, hv⟩
  | addDRCVia n =>
    right; rcases hl with h | h
    · simp [GOp.guarded] at h
    · obtain ⟨v, hv⟩ := Sadd n .drcV 1; exact ⟨n, _, v, rfl, h _ _ rfl, hv⟩
  | subDRCPlanar n =>
    right; rcases hl with h | h
    · simp [GOp.guarded] at h
    · obtain ⟨v, hv⟩ := Ssub n .drcP 1; exact ⟨n, _, v, rfl, h _ _ rfl, hv⟩
  | subDRCVia n =>
    right; rcases hl with h | h
    · simp [GOp.guarded] at h
    · obtain ⟨v, hv⟩ := Ssub n .drcV 1; exact ⟨n, _, v, rfl, h _ _ rfl, hv⟩
  | resetDRCPlanar n =>
    right; rcases hl with h | h
    · simp [GOp.guarded] at h
    · exact ⟨n, _, 0, rfl, h _ _ rfl, rfl⟩
  | resetDRCVia n =>
    right; rcases hl with h | h
    · simp [GOp.guarded] at h
    · exact ⟨n, _, 0, rfl, h _ _ rfl, rfl⟩
  | addMarkerPlanar n =>
    right; rcases hl with h | h
    · simp [GOp.guarded] at h
    · obtain ⟨v, hv⟩ := Sadd n .markP 10; exact ⟨n, _, v, rfl, h _ _ rfl, hv⟩
  | addMarkerVia n =>
    right; rcases hl with h | h
    · simp [GOp.guarded] at h
    · obtain ⟨v, hv⟩ := Sadd n .markV 10; exact ⟨n, _, v, rfl, h _ _ rfl, hv⟩
  | decayMarkerPlanar n =>
    right; rcases hl with h | h
    · simp [GOp.guarded] at h
    · exact ⟨n, .markP, _, rfl, h _ _ rfl, rfl⟩
  | decayMarkerVia n =>
    right; rcases hl with h | h
    · simp [GOp.guarded] at h
    · exact ⟨n, .markV, _, rfl, h _ _ rfl, rfl⟩
  | decayMarkerPlanarF n f =>
    right; rcases hl with h | h
    · simp [GOp.guarded] at h
    · exact ⟨n, .markP, _, rfl, h _ _ rfl, rfl⟩
  | decayMarkerViaF n f =>
    right; rcases hl with h | h
    · simp [GOp.guarded] at h
    · exact ⟨n, .markV, _, rfl, h _ _ rfl, rfl⟩

end TR
