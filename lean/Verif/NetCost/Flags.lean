import Verif.NetCost.Run
import Verif.NetCost.Stretch
import Verif.Cost.Blocked
/-! Flags of the grid while nets are routed. -/
namespace TR

def gridKey (n : MIdx) (d : Dir) : Option (MIdx × Attr) := byAxis .gridE .gridN .gridU (edgeHome n d)

theorem hasGridCost_key (g : Grid) (n : MIdx) (d : Dir) (h : MIdx) (a : Attr) (hk : gridKey n d = some (h, a)) : g.hasGridCost n d = (g.attr h a != 0) := by
  have gb : ∀ (m : MIdx) (p : Nat), p < 64 → getBit (g.bits (g.idx m)) p = (getBits (g.bits (g.idx m)) p 1 != 0) :=
    fun m p hp => getBit_eq _ p hp
  cases d
  · cases hk
  all_goals
    simp only [gridKey, edgeHome, byAxis, Option.some.injEq, Prod.mk.injEq] at hk
    obtain ⟨rfl, rfl⟩ := hk
    simp only [Grid.hasGridCost, correct, attr_eq, Attr.field]
    rw [gb _ _ (by omega)]

theorem gridKey_edge (n m : MIdx) (d e : Dir) : gridKey m e = gridKey n d ↔ edgeKey m e = edgeKey n d := by
  rcases n with ⟨a, b, c⟩; rcases m with ⟨a', b', c'⟩
  cases d <;> cases e <;> simp [gridKey, edgeKey, edgeHome, byAxis]

/-- call that sets or resets the cost of an edge off the tracks -/
def gridOp (set : Bool) (x : MIdx × Dir) : GOp := if set then .setGridCost x.1 x.2 else .resetGridCost x.1 x.2

theorem gridOp_legal (g : Grid) (set : Bool) (x : MIdx × Dir) : (gridOp set x).Legal g := by
  left; unfold gridOp; cases set <;> rfl

theorem gridOp_step (g : Grid) (set : Bool) (n : MIdx) (d : Dir) :
    g.step (gridOp set (n, d)) = g ∧ (∀ k a, gridKey n d = some (k, a) → g.isValid k = false) ∨
      ∃ k a, gridKey n d = some (k, a) ∧ g.isValid k = true ∧ g.step (gridOp set (n, d)) = g.put k a (if set then 1 else 0) := by
  have S1 : ∀ (m : MIdx) (a : Attr) (p : Nat), p < 64 → a.field = (p, 1) → g.upd (g.idx m) (setBit · p) = g.put m a 1 := by
    intro m a p hp ha
    apply upd_congr
    rw [ha]; exact setBit_eq _ p hp
  have S0 : ∀ (m : MIdx) (a : Attr) (p : Nat), p < 64 → a.field = (p, 1) → g.upd (g.idx m) (resetBit · p) = g.put m a 0 := by
    intro m a p hp ha
    apply upd_congr
    rw [ha]; exact resetBit_eq _ p hp
  unfold gridOp
  by_cases h3 : g.isValid (correct n d).1 = true
  · cases set
    · simp only [Bool.false_eq_true, if_false, Grid.step, Grid.resetGridCost, h3, if_true]
      cases d <;> simp only [correct] at h3 ⊢
      · left; exact ⟨trivial, fun k a e => by cases e⟩
      all_goals right
      · exact ⟨_, .gridU, rfl, h3, S0 _ _ 14 (by omega) rfl⟩
      · exact ⟨_, .gridN, rfl, h3, S0 _ _ 13 (by omega) rfl⟩
      · exact ⟨_, .gridE, rfl, h3, S0 _ _ 12 (by omega) rfl⟩
      · exact ⟨_, .gridE, rfl, h3, S0 _ _ 12 (by omega) rfl⟩
      · exact ⟨_, .gridN, rfl, h3, S0 _ _ 13 (by omega) rfl⟩
      · exact ⟨_, .gridU, rfl, h3, S0 _ _ 14 (by omega) rfl⟩
    · simp only [if_true, Grid.step, Grid.setGridCost, h3]
      cases d <;> simp only [correct] at h3 ⊢
      · left; exact ⟨trivial, fun k a e => by cases e⟩
      all_goals right
      · exact ⟨_, .gridU, rfl, h3, S1 _ _ 14 (by omega) rfl⟩
      · exact ⟨_, .gridN, rfl, h3, S1 _ _ 13 (by omega) rfl⟩
      · exact ⟨_, .gridE, rfl, h3, S1 _ _ 12 (by omega) rfl⟩
      · exact ⟨_, .gridE, rfl, h3, S1 _ _ 12 (by omega) rfl⟩
      · exact ⟨_, .gridN, rfl, h3, S1 _ _ 13 (by omega) rfl⟩
      · exact ⟨_, .gridU, rfl, h3, S1 _ _ 14 (by omega) rfl⟩
  · left
    have h3' : g.isValid (correct n d).1 = false := by simpa using h3
    refine ⟨?_, ?_⟩
    · cases set
      · simp only [Bool.false_eq_true, if_false, Grid.step, Grid.resetGridCost, h3']
      · simp only [Bool.false_eq_true, if_true, if_false, Grid.step, Grid.setGridCost, h3']
    · intro k a e
      cases d <;> simp only [gridKey, edgeHome, byAxis, correct, Option.some.injEq, Prod.mk.injEq, reduceCtorEq] at e h3'
      all_goals (rw [← e.1]; exact h3')

theorem gridKey_some (n : MIdx) (d : Dir) (hd : d ≠ .UNKNOWN) : ∃ k a, gridKey n d = some (k, a) := by
  cases d <;> simp_all [gridKey, edgeHome, byAxis]

theorem nbr_unknown (m : MIdx) (e : Dir) (h : SameEdge n d m e) (hd : d ≠ .UNKNOWN) : e ≠ .UNKNOWN := by
  rintro rfl
  rcases h with ⟨_, h⟩ | ⟨_, h⟩
  · exact hd h.symm
  · cases d <;> cases h; exact hd rfl

theorem gridOp_cost (g : Grid) (set : Bool) (n : MIdx) (d : Dir) (hd : d ≠ .UNKNOWN) (m : MIdx) (e : Dir) (he : e ≠ .UNKNOWN) (hm : g.On m) (hme : g.On (m.nbr e)) :
    (g.step (gridOp set (n, d))).hasGridCost m e = if SameEdge n d m e then set else g.hasGridCost m e := by
  obtain ⟨h, b, hb⟩ := gridKey_some m e he
  rw [hasGridCost_key _ m e h b hb, hasGridCost_key _ m e h b hb]
  have hvalid : g.isValid h = true := by
    rw [← on_iff]
    rcases m with ⟨x, y, z⟩
    cases e <;> simp only [gridKey, edgeHome, byAxis, Option.some.injEq, Prod.mk.injEq, reduceCtorEq] at hb
    all_goals (rw [← hb.1]; simp only [MIdx.nbr, Dir.delta, Grid.On] at *; omega)
  by_cases hs : SameEdge n d m e
  · rw [if_pos hs]
    have hk := (gridKey_edge n m d e).2 ((sameEdge_key n d m e hd).1 hs)
    rcases gridOp_step g set n d with ⟨_, h2⟩ | ⟨k, a, h1, h2, h3⟩
    · have := h2 h b (hk.symm.trans hb)
      rw [hvalid] at this; cases this
    · rw [hb, h1] at hk
      cases hk
      have ha : b.field.2 = 1 := by
        cases d <;> simp [gridKey, edgeHome, byAxis] at h1 hd <;> obtain ⟨_, rfl⟩ := h1 <;> rfl
      rw [h3, put_attr g h h b b _ h2 h2]
      simp only [ha, and_self, if_true]
      cases set <;> rfl
  · rw [if_neg hs]
    rcases gridOp_step g set n d with ⟨h1, _⟩ | ⟨k, a, h1, h2, h3⟩
    · rw [h1]
    · rw [h3, put_attr g k h a b _ h2 hvalid]
      have : ¬ (h = k ∧ b = a) := by
        rintro ⟨rfl, rfl⟩
        exact hs ((sameEdge_key n d m e hd).2 ((gridKey_edge n m d e).1 (hb.trans h1.symm)))
      simp [this]

theorem gridOps_cost (set : Bool) (xs : List (MIdx × Dir)) : ∀ (g : Grid), (∀ x ∈ xs, x.2 ≠ .UNKNOWN) → ∀ (m : MIdx) (e : Dir), e ≠ .UNKNOWN → g.On m → g.On (m.nbr e) →
    (g.run (xs.map (gridOp set))).hasGridCost m e = if xs.any (fun x => decide (SameEdge x.1 x.2 m e)) then set else g.hasGridCost m e := by
  induction xs with
  | nil => intro g _ m e _ _ _; simp [Grid.run]
  | cons x xs ih =>
    intro g hx m e he hm hme
    have hsg := sameGrid_step g _ (gridOp_legal g set x)
    have h1 : g.run ((x :: xs).map (gridOp set)) = (g.step (gridOp set x)).run (xs.map (gridOp set)) := by simp [Grid.run]
    rw [h1, ih _ (fun y hy => hx y (by simp [hy])) m e he ((sameGrid_on hsg _).2 hm) ((sameGrid_on hsg _).2 hme),
      gridOp_cost g set x.1 x.2 (hx x (by simp)) m e he hm hme, List.any_cons]
    by_cases hs : SameEdge x.1 x.2 m e
    · simp [hs]
    · rw [if_neg hs, decide_eq_false hs, Bool.false_or]

theorem sorted_coordsOf {g : Grid} (hs : g.Sorted) (d : Dir) : StrictInc (g.coordsOf d) := by
  unfold Grid.coordsOf
  split
  · exact hs.1
  · exact hs.2.1

/-- the edges of a walk -/
theorem stretchOps_eq {g : Grid} (hs : g.Sorted) {set : Bool} {m0 : MIdx} {d : Dir} (hd : d = .E ∨ d = .W ∨ d = .N ∨ d = .S) {b : Int} {ops : List GOp}
    (h : stretchOps g set m0 d b = some ops) : ∃ xs : List (MIdx × Dir), ops = xs.map (gridOp set) ∧
      ∀ x, x ∈ xs ↔ OnStretch g m0 d b x.1 ∧ (x.2 = d ∨ x.2 = .D ∨ x.2 = .U) := by
  unfold stretchOps at h
  dsimp only at h
  rw [Option.map_eq_some_iff] at h
  obtain ⟨l, hl, rfl⟩ := h
  have hmem : ∀ k, k ∈ l ↔ beyond (decide (d = .E ∨ d = .N)) (alongOf d m0) k ∧ ∃ a c, coordIf (g.coordsOf d) (onward (decide (d = .E ∨ d = .N)) k) = some a ∧
      coordIf (g.coordsOf d) (onward (decide (d = .E ∨ d = .N)) (alongOf d m0)) = some c ∧ way (decide (d = .E ∨ d = .N)) c a ≤ b := by
    intro k
    have e1 : (if decide (d = .E ∨ d = .W) = true then g.xs else g.ys) = g.coordsOf d := by unfold Grid.coordsOf; simp
    have e2 : (if decide (d = .E ∨ d = .W) = true then m0.x else m0.y) = alongOf d m0 := by unfold alongOf; simp
    rw [e1, e2] at hl
    have hso := sorted_coordsOf hs d
    cases hc : coordIf (g.coordsOf d) (onward (decide (d = .E ∨ d = .N)) (alongOf d m0)) with
    | none =>
      by_cases hb : 0 ≤ b
      · rw [stretch_border _ b hb _ _ hc] at hl; cases hl
      · rw [stretch, if_pos (by omega)] at hl
        cases hl
        constructor
        · intro h; cases h
        · rintro ⟨_, a, c, _, h, _⟩; cases h
    | some c =>
      rw [stretch_mem hso _ b _ _ _ c l hc hl k]
      constructor
      · rintro ⟨h1, a, h2, h3⟩; exact ⟨h1, a, c, h2, rfl, by omega⟩
      · rintro ⟨h1, a, c', h2, h3, h4⟩; cases h3; exact ⟨h1, a, h2, by omega⟩
  refine ⟨l.flatMap fun k => [d, .D, .U].map fun e => ((if decide (d = .E ∨ d = .W) = true then ⟨k, m0.y, m0.z⟩ else ⟨m0.x, k, m0.z⟩ : MIdx), e), ?_, ?_⟩
  · rw [List.map_flatMap]
    congr 1
  · intro x
    have hx : (x ∈ l.flatMap fun k => [d, .D, .U].map fun e => ((if decide (d = .E ∨ d = .W) = true then ⟨k, m0.y, m0.z⟩ else ⟨m0.x, k, m0.z⟩ : MIdx), e)) ↔
        alongOf d x.1 ∈ l ∧ x.1.z = m0.z ∧ acrossOf d x.1 = acrossOf d m0 ∧ (x.2 = d ∨ x.2 = .D ∨ x.2 = .U) := by
      rw [List.mem_flatMap]
      constructor
      · rintro ⟨k, hk, hx⟩
        obtain ⟨e, he, rfl⟩ := List.mem_map.1 hx
        dsimp only
        have hee : e = d ∨ e = .D ∨ e = .U := by simpa using he
        rcases hd with rfl | rfl | rfl | rfl <;> simp [alongOf, acrossOf, hk, hee]
      · rintro ⟨h1, h2, h3, h4⟩
        refine ⟨_, h1, List.mem_map.2 ⟨x.2, by simpa using h4, ?_⟩⟩
        obtain ⟨⟨a, b', c⟩, e⟩ := x
        rcases hd with rfl | rfl | rfl | rfl <;> simp [alongOf, acrossOf] at * <;> simp_all
    rw [hx, hmem]
    have hnb : ∀ m : MIdx, alongOf d (m.nbr d) = onward (decide (d = .E ∨ d = .N)) (alongOf d m) := by
      intro m
      rcases hd with rfl | rfl | rfl | rfl <;> simp [alongOf, onward, MIdx.nbr, Dir.delta] <;> omega
    constructor
    · rintro ⟨⟨h1, a, c, h2, h3, h4⟩, h5, h6, h7⟩
      refine ⟨⟨h5, h6, ?_, a, c, ?_, ?_, ?_⟩, h7⟩
      · rcases hd with rfl | rfl | rfl | rfl <;> simpa [beyond] using h1
      · rw [hnb]; exact h2
      · rw [hnb]; exact h3
      · have hso := sorted_coordsOf hs d
        have h8 := coordIf_lt hso h2 h3
        have h9 := coordIf_lt hso h3 h2
        rcases hd with rfl | rfl | rfl | rfl <;> simp [beyond, way, onward] at * <;> omega
    · rintro ⟨⟨h5, h6, h1, a, c, h2, h3, h4⟩, h7⟩
      rw [hnb] at h2 h3
      refine ⟨⟨?_, a, c, h2, h3, ?_⟩, h5, h6, h7⟩
      · rcases hd with rfl | rfl | rfl | rfl <;> simpa [beyond] using h1
      · rcases hd with rfl | rfl | rfl | rfl <;> simp [way] <;> omega

end TR
