import Verif.GC.ShapeSpec
import Verif.GC.Lemmas
import Verif.Geom.Lemmas
/-! # Shape rules: theorems (C59, C60) -/
namespace TR

theorem mod_lt_two {x n : Nat} (h : x < 2 * n) : x % n = if x < n then x else x - n := by
  split
  · rename_i hx; exact Nat.mod_eq_of_lt hx
  · rename_i hx
    rw [Nat.mod_eq_sub_mod (by omega)]
    exact Nat.mod_eq_of_lt (by omega)

theorem ring_mod (es : List OEdge) (i j : Nat) : Ring es (i % es.length + j) = Ring es (i + j) := by
  simp [Ring, Nat.mod_add_mod]

theorem ring_full (es : List OEdge) (i : Nat) : Ring es (i + es.length) = Ring es i := by
  simp [Ring]

/-- the group of short edges after edge `i` -/
def runOf (es : List OEdge) (i : Nat) : Nat → StepRun
  | 0 => StepRun.start (Ring es i)
  | k + 1 => (runOf es i k).add (Ring es (i + (k + 1)))

theorem runOf_edges (es : List OEdge) (i k : Nat) : (runOf es i k).edges = k := by
  induction k with
  | zero => simp [runOf, StepRun.start]
  | succ k ih => simp [runOf, StepRun.add, ih]

theorem runOf_route (es : List OEdge) (i k : Nat) : (runOf es i k).route = true ↔ ∃ j, j ≤ k ∧ (Ring es (i + j)).fixed = false := by
  induction k with
  | zero =>
    simp [runOf, StepRun.start]
  | succ k ih =>
    simp only [runOf, StepRun.add, Bool.or_eq_true, ih, Bool.not_eq_true']
    constructor
    · rintro (⟨j, h1, h2⟩ | h)
      · exact ⟨j, by omega, h2⟩
      · exact ⟨k + 1, Nat.le_refl _, h⟩
    · rintro ⟨j, h1, h2⟩
      rcases Nat.lt_or_ge j (k + 1) with h | h
      · exact Or.inl ⟨j, by omega, h2⟩
      · have : j = k + 1 := by omega
        subst this; exact Or.inr h2

theorem runOf_hull (es : List OEdge) (i k : Nat) : StepHull es i k (runOf es i k).box := by
  induction k with
  | zero =>
    refine ⟨?_, ⟨0, Nat.le_refl _, rfl⟩, ⟨0, Nat.le_refl _, rfl⟩, ⟨0, Nat.le_refl _, rfl⟩, ⟨0, Nat.le_refl _, rfl⟩⟩
    intro j hj
    have : j = 0 := by omega
    subst this
    simp [runOf, StepRun.start, Box.Has, Box.left, Box.right, Box.bottom, Box.top]
  | succ k ih =>
    obtain ⟨h, ⟨jl, l1, l2⟩, ⟨jr, r1, r2⟩, ⟨jb, b1, b2⟩, ⟨jt, t1, t2⟩⟩ := ih
    simp only [runOf, StepRun.add]
    refine ⟨?_, ?_, ?_, ?_, ?_⟩
    · intro j hj
      simp only [Box.Has, Box.left, Box.right, Box.bottom, Box.top]
      rcases Nat.lt_or_ge j (k + 1) with hk | hk
      · have := h j (by omega)
        simp only [Box.Has, Box.left, Box.right, Box.bottom, Box.top] at this
        omega
      · have : j = k + 1 := by omega
        subst this; omega
    · by_cases hc : (runOf es i k).box.left ≤ (Ring es (i + (k + 1))).hi.x
      · refine ⟨jl, by omega, ?_⟩; simp only [Box.left] at *; omega
      · refine ⟨k + 1, by omega, ?_⟩; simp only [Box.left] at *; omega
    · by_cases hc : (Ring es (i + (k + 1))).hi.x ≤ (runOf es i k).box.right
      · refine ⟨jr, by omega, ?_⟩; simp only [Box.right] at *; omega
      · refine ⟨k + 1, by omega, ?_⟩; simp only [Box.right] at *; omega
    · by_cases hc : (runOf es i k).box.bottom ≤ (Ring es (i + (k + 1))).hi.y
      · refine ⟨jb, by omega, ?_⟩; simp only [Box.bottom] at *; omega
      · refine ⟨k + 1, by omega, ?_⟩; simp only [Box.bottom] at *; omega
    · by_cases hc : (Ring es (i + (k + 1))).hi.y ≤ (runOf es i k).box.top
      · refine ⟨jt, by omega, ?_⟩; simp only [Box.top] at *; omega
      · refine ⟨k + 1, by omega, ?_⟩; simp only [Box.top] at *; omega

theorem stepHull_unique {es : List OEdge} {i k : Nat} {a b : Box} (ha : StepHull es i k a) (hb : StepHull es i k b) : a = b := by
  obtain ⟨h, ⟨jl, l1, l2⟩, ⟨jr, r1, r2⟩, ⟨jb, b1, b2⟩, ⟨jt, t1, t2⟩⟩ := ha
  obtain ⟨h', ⟨jl', l1', l2'⟩, ⟨jr', r1', r2'⟩, ⟨jb', b1', b2'⟩, ⟨jt', t1', t2'⟩⟩ := hb
  obtain ⟨⟨ax, ay⟩, ⟨aX, aY⟩⟩ := a
  obtain ⟨⟨bx, by'⟩, ⟨bX, bY⟩⟩ := b
  simp only [Box.Has, Box.left, Box.right, Box.bottom, Box.top] at *
  have e1 := h jl' l1'; have e2 := h jr' r1'; have e3 := h jb' b1'; have e4 := h jt' t1'
  have f1 := h' jl l1; have f2 := h' jr r1; have f3 := h' jb b1; have f4 := h' jt t1
  simp only [Box.mk.injEq, Point.mk.injEq]
  omega

/-- what the loop hands to the helper for the group `k` short edges long after edge `i` -/
def closedRun (es : List OEdge) (i k : Nat) : StepRun :=
  { runOf es i k with route := (runOf es i k).route || !(Ring es (i + k + 1)).fixed }

/-- walking on from time `t` after the first long edge, the last long edge being at time `b` -/
theorem stepLoop_spec (es : List OEdge) (msl : Int) (f : Nat) (hf : f < es.length) (hlong : msl ≤ (Ring es f).len) :
    ∀ (d t b : Nat), d + t = es.length → 0 < d → b ≤ t → msl ≤ (Ring es (f + b)).len →
      (∀ j, b < j → j ≤ t → (Ring es (f + j)).len < msl) →
      ∃ rs, stepLoop es msl f d ((f + t) % es.length) ((f + b) % es.length) (runOf es (f + b) (t - b)) = some rs ∧
        ∀ r, r ∈ rs ↔ ∃ p k, b ≤ p ∧ p + k + 1 ≤ es.length ∧ msl ≤ (Ring es (f + p)).len ∧
          (∀ j, 1 ≤ j → j ≤ k → (Ring es (f + p + j)).len < msl) ∧ msl ≤ (Ring es (f + p + k + 1)).len ∧
          ¬ (p = 0 ∧ k + 1 = es.length) ∧ r = closedRun es (f + p) k := by
  intro d
  induction d with
  | zero => intro t b _ h; omega
  | succ d ih =>
    intro t b hd _ hbt hb hs
    have hn : 0 < es.length := by omega
    have hnx : ((f + t) % es.length + 1) % es.length = (f + (t + 1)) % es.length := by rw [Nat.mod_add_mod]; rfl
    have hge : es.getD ((f + (t + 1)) % es.length) default = Ring es (f + (t + 1)) := rfl
    simp only [stepLoop, hnx, hge]
    by_cases hsh : (Ring es (f + (t + 1))).len < msl
    · rw [if_pos hsh]
      have ht : t + 1 < es.length := by
        rcases Nat.lt_or_ge (t + 1) es.length with h | h
        · exact h
        · exfalso
          have : t + 1 = es.length := by omega
          rw [this, ring_full] at hsh; omega
      have hr : (runOf es (f + b) (t - b)).add (Ring es (f + (t + 1))) = runOf es (f + b) (t + 1 - b) := by
        have : t + 1 - b = (t - b) + 1 := by omega
        rw [this, runOf]
        have : f + b + (t - b + 1) = f + (t + 1) := by omega
        rw [this]
      rw [hr]
      exact ih (t + 1) b (by omega) (by omega) (by omega) hb (fun j h1 h2 => by
        rcases Nat.lt_or_ge j (t + 1) with h | h
        · exact hs j h1 (by omega)
        · have : j = t + 1 := by omega
          subst this; exact hsh)
    · rw [if_neg hsh]
      have hlt : msl ≤ (Ring es (f + (t + 1))).len := by omega
      have hbe : (f + (t + 1)) % es.length = (f + b) % es.length ↔ t + 1 = es.length ∧ b = 0 := by
        rw [mod_lt_two (by omega : f + (t + 1) < 2 * es.length), mod_lt_two (by omega : f + b < 2 * es.length)]
        split <;> split <;> omega
      have hfi : (f + (t + 1)) % es.length = f ↔ t + 1 = es.length := by
        rw [mod_lt_two (by omega : f + (t + 1) < 2 * es.length)]
        split <;> omega
      have hme : closedRun es (f + b) (t - b) =
          { runOf es (f + b) (t - b) with route := (runOf es (f + b) (t - b)).route || !(Ring es (f + (t + 1))).fixed } := by
        simp only [closedRun]
        rw [show f + b + (t - b) + 1 = f + (t + 1) by omega]
      -- a run that starts at the last long edge ends at `t + 1`
      have huniq : ∀ p k, b ≤ p → p ≤ t → msl ≤ (Ring es (f + p)).len → (∀ j, 1 ≤ j → j ≤ k → (Ring es (f + p + j)).len < msl) →
          msl ≤ (Ring es (f + p + k + 1)).len → p = b ∧ k = t - b := by
        intro p k h1 h2 h3 h4 h5
        have hp : p = b := by
          rcases Nat.lt_or_ge b p with h | h
          · have := hs p h h2; omega
          · omega
        subst hp
        refine ⟨rfl, ?_⟩
        rcases Nat.lt_trichotomy k (t - p) with h | h | h
        · have := hs (p + k + 1) (by omega) (by omega)
          rw [show f + (p + k + 1) = f + p + k + 1 by omega] at this
          omega
        · exact h
        · have := h4 (t + 1 - p) (by omega) (by omega)
          rw [show f + p + (t + 1 - p) = f + (t + 1) by omega] at this
          omega
      by_cases h1 : (f + (t + 1)) % es.length = (f + b) % es.length
      · rw [if_pos h1]
        refine ⟨[], rfl, fun r => ⟨fun h => (by simp at h), ?_⟩⟩
        rintro ⟨p, k, p1, p2, p3, p4, p5, p6, rfl⟩
        obtain ⟨ht, hb0⟩ := hbe.1 h1
        obtain ⟨rfl, rfl⟩ := huniq p k p1 (by omega) p3 p4 p5
        exact absurd ⟨hb0, by omega⟩ p6
      · rw [if_neg h1]
        by_cases h2 : (f + (t + 1)) % es.length = f
        · rw [if_pos h2]
          have ht := hfi.1 h2
          refine ⟨_, rfl, fun r => ?_⟩
          rw [List.mem_singleton]
          constructor
          · intro h
            refine ⟨b, t - b, Nat.le_refl _, by omega, hb, ?_, ?_, ?_, h.trans hme.symm⟩
            · intro j j1 j2
              rw [Nat.add_assoc]; exact hs (b + j) (by omega) (by omega)
            · rw [show f + b + (t - b) + 1 = f + (t + 1) by omega]; exact hlt
            · rintro ⟨q1, q2⟩; exact h1 (hbe.2 ⟨ht, q1⟩)
          · rintro ⟨p, k, p1, p2, p3, p4, p5, p6, rfl⟩
            obtain ⟨rfl, rfl⟩ := huniq p k p1 (by omega) p3 p4 p5
            exact hme
        · rw [if_neg h2]
          have ht : t + 1 < es.length := by
            rcases Nat.lt_or_ge (t + 1) es.length with h | h
            · exact h
            · exact absurd (hfi.2 (by omega)) h2
          obtain ⟨rs, e, hrs⟩ := ih (t + 1) (t + 1) (by omega) (by omega) (Nat.le_refl _) hlt (fun j h1 h2 => by omega)
          rw [Nat.sub_self] at e
          simp only [runOf] at e
          rw [e]
          refine ⟨_, rfl, fun r => ?_⟩
          rw [List.mem_cons, hrs r]
          constructor
          · rintro (h | ⟨p, k, p1, p2, p3, p4, p5, p6, rfl⟩)
            · refine ⟨b, t - b, Nat.le_refl _, by omega, hb, ?_, ?_, ?_, h.trans hme.symm⟩
              · intro j j1 j2
                rw [Nat.add_assoc]; exact hs (b + j) (by omega) (by omega)
              · rw [show f + b + (t - b) + 1 = f + (t + 1) by omega]; exact hlt
              · rintro ⟨q1, q2⟩; omega
            · exact ⟨p, k, by omega, p2, p3, p4, p5, p6, rfl⟩
          · rintro ⟨p, k, p1, p2, p3, p4, p5, p6, rfl⟩
            rcases Nat.lt_or_ge t p with hp | hp
            · exact Or.inr ⟨p, k, hp, p2, p3, p4, p5, p6, rfl⟩
            · obtain ⟨rfl, rfl⟩ := huniq p k p1 hp p3 p4 p5
              exact Or.inl hme

theorem stepOutline_spec (es : List OEdge) (msl : Int) :
    ∃ rs, stepOutline es msl = some rs ∧ ∀ r, r ∈ rs ↔ ∃ i k, ShortRun es msl i k ∧ r = closedRun es i k := by
  unfold stepOutline
  cases hf : es.findIdx? (fun e => decide (e.len ≥ msl)) with
  | none =>
    refine ⟨[], rfl, fun r => ⟨fun h => (by simp at h), ?_⟩⟩
    rintro ⟨i, k, h, -⟩
    rw [List.findIdx?_eq_none_iff] at hf
    have hb := h.before
    have hi := h.start
    have : Ring es i = es[i] := by
      simp only [Ring, Nat.mod_eq_of_lt hi, List.getD_eq_getElem?_getD, List.getElem?_eq_getElem hi, Option.getD_some]
    rw [this] at hb
    have := hf _ (List.getElem_mem hi)
    simp only [decide_eq_false_iff_not] at this
    exact absurd hb this
  | some f =>
    rw [List.findIdx?_eq_some_iff_getElem] at hf
    obtain ⟨hfl, hfl2, -⟩ := hf
    have hRf : Ring es f = es[f] := by
      simp only [Ring, Nat.mod_eq_of_lt hfl, List.getD_eq_getElem?_getD, List.getElem?_eq_getElem hfl, Option.getD_some]
    have hlong : msl ≤ (Ring es f).len := by rw [hRf]; exact of_decide_eq_true hfl2
    obtain ⟨rs, e, hrs⟩ := stepLoop_spec es msl f hfl hlong es.length 0 0 rfl (by omega) (Nat.le_refl _) hlong (fun j h1 h2 => by omega)
    have hf0 : (f + 0) % es.length = f := Nat.mod_eq_of_lt hfl
    have hg : es.getD f default = Ring es (f + 0) := by
      simp only [Ring, Nat.add_zero, Nat.mod_eq_of_lt hfl]
    simp only [hf0, Nat.sub_self, runOf] at e
    refine ⟨rs, ?_, fun r => ?_⟩
    · simp only [hg]; exact e
    · rw [hrs r]
      constructor
      · rintro ⟨p, k, p1, p2, p3, p4, p5, p6, rfl⟩
        refine ⟨(f + p) % es.length, k, ⟨Nat.mod_lt _ (by omega), ?_, ?_, ?_, ?_⟩, ?_⟩
        · have := ring_mod es (f + p) 0
          simp only [Nat.add_zero] at this
          rw [this]; exact p3
        · intro j j1 j2; rw [ring_mod]; exact p4 j j1 j2
        · rw [Nat.add_assoc, ring_mod]; exact p5
        · have hx : (f + p) % es.length < es.length := Nat.mod_lt _ (by omega)
          intro hh
          rw [mod_lt_two (by omega : (f + p) % es.length + k + 1 < 2 * es.length)] at hh
          split at hh <;> omega
        · have hr : ∀ k, runOf es ((f + p) % es.length) k = runOf es (f + p) k := by
            intro k
            induction k with
            | zero => have := ring_mod es (f + p) 0; simp only [Nat.add_zero] at this; simp only [runOf, this]
            | succ k ih => simp only [runOf, ih, ring_mod]
          simp only [closedRun, hr, Nat.add_assoc, ring_mod]
      · rintro ⟨i, k, ⟨h1, h2, h3, h4, h5⟩, rfl⟩
        -- time since the first long edge
        obtain ⟨p, hp, hpi⟩ : ∃ p, p < es.length ∧ (f + p) % es.length = i := by
          rcases Nat.lt_or_ge i f with h | h
          · refine ⟨i + es.length - f, by omega, ?_⟩
            rw [mod_lt_two (by omega)]; split <;> omega
          · refine ⟨i - f, by omega, ?_⟩
            rw [mod_lt_two (by omega)]; split <;> omega
        subst hpi
        have hr : ∀ k, runOf es ((f + p) % es.length) k = runOf es (f + p) k := by
          intro k
          induction k with
          | zero => have := ring_mod es (f + p) 0; simp only [Nat.add_zero] at this; simp only [runOf, this]
          | succ k ih => simp only [runOf, ih, ring_mod]
        have hle : p + k + 1 ≤ es.length := by
          rcases Nat.lt_or_ge es.length (p + k + 1) with h | h
          · exfalso
            have := h3 (es.length - p) (by omega) (by omega)
            rw [ring_mod, show f + p + (es.length - p) = f + es.length by omega, ring_full] at this
            omega
          · exact h
        refine ⟨p, k, by omega, hle, ?_, ?_, ?_, ?_, ?_⟩
        · have := ring_mod es (f + p) 0
          simp only [Nat.add_zero] at this
          rw [← this]; exact h2
        · intro j j1 j2; rw [← ring_mod]; exact h3 j j1 j2
        · have := ring_mod es (f + p) (k + 1)
          rw [Nat.add_assoc, ← this]; rw [Nat.add_assoc] at h4; exact h4
        · rintro ⟨q1, q2⟩
          apply h5
          subst q1
          rw [Nat.add_assoc, q2]
          simp
        · have e3 := ring_mod es (f + p) (k + 1)
          simp only [closedRun, hr]
          rw [Nat.add_assoc ((f + p) % es.length), e3, Nat.add_assoc (f + p)]

theorem closedRun_route (es : List OEdge) (i k : Nat) : (closedRun es i k).route = true ↔ ∃ j, j ≤ k + 1 ∧ (Ring es (i + j)).fixed = false := by
  simp only [closedRun, Bool.or_eq_true, runOf_route, Bool.not_eq_true']
  constructor
  · rintro (⟨j, h1, h2⟩ | h)
    · exact ⟨j, by omega, h2⟩
    · exact ⟨k + 1, Nat.le_refl _, h⟩
  · rintro ⟨j, h1, h2⟩
    rcases Nat.lt_or_ge j (k + 1) with h | h
    · exact Or.inl ⟨j, by omega, h2⟩
    · have : j = k + 1 := by omega
      subst this; exact Or.inr h2

theorem mk4_hull {es : List OEdge} {i k : Nat} {b : Box} (h : StepHull es i k b) : Box.mk4 b.left b.bottom b.right b.top = b := by
  have := h.holds 0 (Nat.zero_le _)
  obtain ⟨⟨bx, by'⟩, ⟨bX, bY⟩⟩ := b
  simp only [Box.Has, Box.left, Box.right, Box.bottom, Box.top] at this
  rw [Box.mk4_eq]
  simp only [Box.left, Box.right, Box.bottom, Box.top, Box.mk.injEq, Point.mk.injEq]
  omega

/-- **C59** the minimum-step check of an outline always ends and reports, for a rule without a corner type, exactly the groups of short
edges between two different long edges that are longer than allowed and not all fixed -/
theorem c59_min_step_iff (c : StepRule) (es : List OEdge) (ht : c.type = none) :
    ∃ bs, minStepCheck c es = some bs ∧ ∀ b, b ∈ bs ↔ StepViolation c es b := by
  obtain ⟨rs, e, hrs⟩ := stepOutline_spec es c.len
  refine ⟨_, by simp only [minStepCheck, e]; rfl, fun b => ?_⟩
  simp only [List.mem_map, List.mem_filter, hrs]
  have hrep : ∀ i k, stepReported c false false false (closedRun es i k) = true ↔ 1 ≤ k ∧ (∀ m, c.maxEdges = some m → m < (k : Int)) ∧
      (∃ j, j ≤ k + 1 ∧ (Ring es (i + j)).fixed = false) := by
    intro i k
    rw [← closedRun_route]
    have hed : (closedRun es i k).edges = k := runOf_edges es i k
    simp only [stepReported, ht, hed]
    by_cases hk : (k : Int) = 0
    · rw [if_pos hk]; simp; omega
    · rw [if_neg hk]
      cases hr : (closedRun es i k).route with
      | false => simp
      | true =>
        simp only [Bool.not_true, Bool.false_eq_true, if_false]
        cases hm : c.maxEdges with
        | none => simp; omega
        | some m =>
          have : (∀ m', some m = some m' → m' < (k : Int)) ↔ m < (k : Int) :=
            ⟨fun h => h m rfl, fun h m' e => by cases e; exact h⟩
          simp only [this]
          by_cases hmk : (k : Int) ≤ m
          · rw [if_pos hmk]; simp; omega
          · rw [if_neg hmk]; simp; omega
  constructor
  · rintro ⟨r, ⟨⟨i, k, hsr, rfl⟩, hR⟩, rfl⟩
    obtain ⟨a1, a2, a3⟩ := (hrep i k).1 hR
    refine ⟨i, k, hsr, a1, a2, a3, ?_⟩
    have hh : StepHull es i k (closedRun es i k).box := runOf_hull es i k
    rw [mk4_hull hh]; exact hh
  · rintro ⟨i, k, hsr, a1, a2, a3, hb⟩
    refine ⟨closedRun es i k, ⟨⟨i, k, hsr, rfl⟩, (hrep i k).2 ⟨a1, a2, a3⟩⟩, ?_⟩
    have hh : StepHull es i k (closedRun es i k).box := runOf_hull es i k
    rw [mk4_hull hh]; exact stepHull_unique hh hb

/-- **C59** a minimum-step rule with a corner type (INSIDECORNER, OUTSIDECORNER, STEP) never reports anything -/
theorem c59_typed_never (c : StepRule) (es : List OEdge) (t : StepType) (ht : c.type = some t) : minStepCheck c es = some [] := by
  obtain ⟨rs, e, -⟩ := stepOutline_spec es c.len
  simp only [minStepCheck, e, Option.map_some, Option.some.injEq, List.map_eq_nil_iff, List.filter_eq_nil_iff]
  intro r _
  simp only [stepReported, ht]
  cases t <;> (split <;> simp)

/-- **C59** the helper itself, whatever corner flags it is given: it reports a group iff it has an edge, is routed in part, and exceeds
the limit of the rule, which for a typed rule is the length and needs the flag of its type -/
theorem c59_helper_iff (c : StepRule) (hi ho hs : Bool) (r : StepRun) :
    stepReported c hi ho hs r = true ↔ r.edges ≠ 0 ∧ r.route = true ∧
      (∀ t, c.type = some t → (match t with | .inside => hi | .outside => ho | .step => hs) = true ∧ c.maxLength < r.length) ∧
      (c.type = none → ∀ k, c.maxEdges = some k → k < r.edges) := by
  unfold stepReported
  by_cases h0 : r.edges = 0
  · simp [h0]
  · rw [if_neg h0]
    cases hr : r.route with
    | false => simp
    | true =>
      cases ht : c.type with
      | none =>
        cases hm : c.maxEdges with
        | none => simp [h0]
        | some k => simp [h0]
      | some t =>
        cases t <;> cases hi <;> cases ho <;> cases hs <;> simp [h0] <;> omega

/-! ### minimum width -/

theorem covered_eq_iff {b : Box} {fixed : List Box} :
    coveredArea b fixed ≠ (unitCells b).length ↔ ∃ c, CellOf b c ∧ ¬ ∃ s ∈ fixed, CellOf s c := by
  unfold coveredArea
  constructor
  · intro h
    have hlt : (unitCells b).countP (fun c => fixed.any (fun s => cellIn s c)) < (unitCells b).length :=
      Nat.lt_of_le_of_ne List.countP_le_length h
    have : ¬ ∀ c ∈ unitCells b, (fixed.any (fun s => cellIn s c)) = true := by
      intro hall
      exact h (List.countP_eq_length.2 hall)
    rw [Classical.not_forall] at this
    obtain ⟨c, hc⟩ := this
    rw [Classical.not_imp] at hc
    refine ⟨c, mem_unitCells.1 hc.1, ?_⟩
    rintro ⟨s, hs, hcs⟩
    exact hc.2 (List.any_eq_true.2 ⟨s, hs, cellIn_iff.2 hcs⟩)
  · rintro ⟨c, hc, hn⟩ h
    have := List.countP_eq_length.1 h c (mem_unitCells.2 hc)
    obtain ⟨s, hs, hcs⟩ := List.any_eq_true.1 this
    exact hn ⟨s, hs, cellIn_iff.1 hcs⟩

theorem minWidthReported_iff {w : Nat} {fixed : List Box} {isH : Bool} {b : Box} :
    minWidthReported w fixed isH b = true ↔ (if isH then b.right - b.left < w else b.top - b.bottom < w) ∧
      ∃ c, CellOf b c ∧ ¬ ∃ s ∈ fixed, CellOf s c := by
  unfold minWidthReported
  rw [← covered_eq_iff]
  cases isH
  · by_cases h : b.top - b.bottom ≥ (w : Int)
    · simp [h]; omega
    · by_cases h2 : coveredArea b fixed = (unitCells b).length
      · simp [h2]
      · simp [h2, h]; omega
  · by_cases h : b.right - b.left ≥ (w : Int)
    · simp [h]; omega
    · by_cases h2 : coveredArea b fixed = (unitCells b).length
      · simp [h2]
      · simp [h2, h]; omega

theorem runH_unique {metal : Point → Prop} {x y l x' l' u : Int} (h : RunH metal x y l) (h' : RunH metal x' y l')
    (hu : x ≤ u ∧ u < x + l) (hu' : x' ≤ u ∧ u < x' + l') : x = x' ∧ l = l' := by
  have a : x = x' := by
    rcases Int.lt_trichotomy x x' with g | g | g
    · exact absurd (h.inside (x' - 1) (by omega) (by omega)) h'.left
    · exact g
    · exact absurd (h'.inside (x - 1) (by omega) (by omega)) h.left
  subst a
  refine ⟨rfl, ?_⟩
  rcases Int.lt_trichotomy l l' with g | g | g
  · exact absurd (h'.inside (x + l) (by omega) (by omega)) h.right
  · exact g
  · exact absurd (h.inside (x + l') (by omega) (by omega)) h'.right

theorem runV_unique {metal : Point → Prop} {x y l y' l' u : Int} (h : RunV metal x y l) (h' : RunV metal x y' l')
    (hu : y ≤ u ∧ u < y + l) (hu' : y' ≤ u ∧ u < y' + l') : y = y' ∧ l = l' := by
  have a : y = y' := by
    rcases Int.lt_trichotomy y y' with g | g | g
    · exact absurd (h.inside (y' - 1) (by omega) (by omega)) h'.below
    · exact g
    · exact absurd (h'.inside (y - 1) (by omega) (by omega)) h.below
  subst a
  refine ⟨rfl, ?_⟩
  rcases Int.lt_trichotomy l l' with g | g | g
  · exact absurd (h'.inside (y + l) (by omega) (by omega)) h.above
  · exact g
  · exact absurd (h.inside (y + l') (by omega) (by omega)) h'.above

theorem slice_runH {metal : Point → Prop} {bs : List Box} (hs : SlicesH metal bs) {b : Box} (hb : b ∈ bs) {c : Point} (hc : CellOf b c) :
    RunH metal b.left c.y (b.right - b.left) := by
  obtain ⟨c1, c2, c3, c4⟩ := hc
  refine ⟨?_, hs.left b hb _ c3 c4, ?_⟩
  · intro u h1 h2
    exact (hs.covers _).2 ⟨b, hb, h1, by show u < b.right; omega, c3, c4⟩
  · have := hs.right b hb _ c3 c4
    rwa [show b.left + (b.right - b.left) = b.right by omega]

theorem slice_runV {metal : Point → Prop} {bs : List Box} (hs : SlicesV metal bs) {b : Box} (hb : b ∈ bs) {c : Point} (hc : CellOf b c) :
    RunV metal c.x b.bottom (b.top - b.bottom) := by
  obtain ⟨c1, c2, c3, c4⟩ := hc
  refine ⟨?_, hs.below b hb _ c1 c2, ?_⟩
  · intro u h1 h2
    exact (hs.covers _).2 ⟨b, hb, c1, c2, h1, by show u < b.top; omega⟩
  · have := hs.above b hb _ c1 c2
    rwa [show b.bottom + (b.top - b.bottom) = b.top by omega]

/-- **C60** the minimum-width check reports something iff some cell of the metal that is not fixed metal lies in a place narrower than the
minimum width, measured along its row or along its column -/
theorem c60_min_width_iff (metal : Point → Prop) (w : Nat) (fixed hS vS : List Box) (hh : SlicesH metal hS) (hv : SlicesV metal vS) :
    minWidthCheck w fixed hS vS ≠ [] ↔ ∃ c, metal c ∧ (¬ ∃ s ∈ fixed, CellOf s c) ∧ Narrow metal w c := by
  unfold minWidthCheck
  constructor
  · intro h
    obtain ⟨b, hb⟩ := List.exists_mem_of_ne_nil _ h
    rw [List.mem_append, List.mem_filter, List.mem_filter, minWidthReported_iff, minWidthReported_iff] at hb
    rcases hb with ⟨hb, hw, c, hc, hf⟩ | ⟨hb, hw, c, hc, hf⟩
    · have h1 := hc.1; have h2 := hc.2.1
      exact ⟨c, (hh.covers c).2 ⟨b, hb, hc⟩, hf, Or.inl ⟨b.left, b.right - b.left, h1, by omega, slice_runH hh hb hc, by simpa using hw⟩⟩
    · have h1 := hc.2.2.1; have h2 := hc.2.2.2
      exact ⟨c, (hv.covers c).2 ⟨b, hb, hc⟩, hf, Or.inr ⟨b.bottom, b.top - b.bottom, h1, by omega, slice_runV hv hb hc, by simpa using hw⟩⟩
  · rintro ⟨c, hm, hf, ⟨x, l, x1, x2, hr, hl⟩ | ⟨y, l, y1, y2, hr, hl⟩⟩ h
    · obtain ⟨b, hb, hc⟩ := (hh.covers c).1 hm
      have h1 := hc.1; have h2 := hc.2.1
      obtain ⟨rfl, rfl⟩ := runH_unique hr (slice_runH hh hb hc) ⟨x1, x2⟩ ⟨h1, by omega⟩
      have : b ∈ hS.filter (minWidthReported w fixed true) ++ vS.filter (minWidthReported w fixed false) :=
        List.mem_append.2 (Or.inl (List.mem_filter.2 ⟨hb, minWidthReported_iff.2 ⟨by simpa using hl, c, hc, hf⟩⟩))
      rw [h] at this; simp at this
    · obtain ⟨b, hb, hc⟩ := (hv.covers c).1 hm
      have h1 := hc.2.2.1; have h2 := hc.2.2.2
      obtain ⟨rfl, rfl⟩ := runV_unique hr (slice_runV hv hb hc) ⟨y1, y2⟩ ⟨h1, by omega⟩
      have : b ∈ hS.filter (minWidthReported w fixed true) ++ vS.filter (minWidthReported w fixed false) :=
        List.mem_append.2 (Or.inr (List.mem_filter.2 ⟨hb, minWidthReported_iff.2 ⟨by simpa using hl, c, hc, hf⟩⟩))
      rw [h] at this; simp at this

/-- **C60** every reported rectangle is metal, all of it narrow, and some of it not fixed; and every narrow cell that is not fixed lies in
a reported rectangle -/
theorem c60_min_width_where (metal : Point → Prop) (w : Nat) (fixed hS vS : List Box) (hh : SlicesH metal hS) (hv : SlicesV metal vS) :
    (∀ b ∈ minWidthCheck w fixed hS vS, (∀ c, CellOf b c → metal c ∧ Narrow metal w c) ∧ ∃ c, CellOf b c ∧ ¬ ∃ s ∈ fixed, CellOf s c) ∧
    (∀ c, metal c → (¬ ∃ s ∈ fixed, CellOf s c) → Narrow metal w c → ∃ b ∈ minWidthCheck w fixed hS vS, CellOf b c) := by
  unfold minWidthCheck
  constructor
  · intro b hb
    rw [List.mem_append, List.mem_filter, List.mem_filter, minWidthReported_iff, minWidthReported_iff] at hb
    rcases hb with ⟨hb, hw, hx⟩ | ⟨hb, hw, hx⟩
    · refine ⟨fun c hc => ⟨(hh.covers c).2 ⟨b, hb, hc⟩, ?_⟩, hx⟩
      have h1 := hc.1; have h2 := hc.2.1
      exact Or.inl ⟨b.left, b.right - b.left, h1, by omega, slice_runH hh hb hc, by simpa using hw⟩
    · refine ⟨fun c hc => ⟨(hv.covers c).2 ⟨b, hb, hc⟩, ?_⟩, hx⟩
      have h1 := hc.2.2.1; have h2 := hc.2.2.2
      exact Or.inr ⟨b.bottom, b.top - b.bottom, h1, by omega, slice_runV hv hb hc, by simpa using hw⟩
  · rintro c hm hf (⟨x, l, x1, x2, hr, hl⟩ | ⟨y, l, y1, y2, hr, hl⟩)
    · obtain ⟨b, hb, hc⟩ := (hh.covers c).1 hm
      have h1 := hc.1; have h2 := hc.2.1
      obtain ⟨rfl, rfl⟩ := runH_unique hr (slice_runH hh hb hc) ⟨x1, x2⟩ ⟨h1, by omega⟩
      exact ⟨b, List.mem_append.2 (Or.inl (List.mem_filter.2 ⟨hb, minWidthReported_iff.2 ⟨by simpa using hl, c, hc, hf⟩⟩)), hc⟩
    · obtain ⟨b, hb, hc⟩ := (hv.covers c).1 hm
      have h1 := hc.2.2.1; have h2 := hc.2.2.2
      obtain ⟨rfl, rfl⟩ := runV_unique hr (slice_runV hv hb hc) ⟨y1, y2⟩ ⟨h1, by omega⟩
      exact ⟨b, List.mem_append.2 (Or.inr (List.mem_filter.2 ⟨hb, minWidthReported_iff.2 ⟨by simpa using hl, c, hc, hf⟩⟩)), hc⟩

/-! ### manufacturing grid -/

/-- **C60** on a grid of positive pitch a rectangle is reported iff one of its four coordinates, negative ones included, is no multiple of
the pitch and a cell of it is routed metal -/
theorem c60_off_grid_iff (grid : Int) (route rects : List Box) (hg : grid ≠ 0) :
    ∃ bs, offGridCheck grid route rects = some bs ∧ ∀ b, b ∈ bs ↔ b ∈ rects ∧
      ¬ (grid ∣ b.left ∧ grid ∣ b.right ∧ grid ∣ b.bottom ∧ grid ∣ b.top) ∧ ∃ c, CellOf b c ∧ ∃ s ∈ route, CellOf s c := by
  refine ⟨_, by simp only [offGridCheck, hg, false_and, if_false]; rfl, fun b => ?_⟩
  have hc : coveredArea b route ≠ 0 ↔ ∃ c, CellOf b c ∧ ∃ s ∈ route, CellOf s c := by
    rw [Ne, covered_zero, Classical.not_not]
  simp only [List.mem_filter, Bool.and_eq_true, Bool.or_eq_true, decide_eq_true_eq, hc, Int.dvd_iff_tmod_eq_zero, Ne]
  by_cases h1 : b.left.tmod grid = 0 <;> by_cases h2 : b.right.tmod grid = 0 <;> by_cases h3 : b.bottom.tmod grid = 0 <;>
    by_cases h4 : b.top.tmod grid = 0 <;> simp [h1, h2, h3, h4]

/-- **C60** a grid of pitch 0 (no MANUFACTURINGGRID in the technology) makes the check divide by zero as soon as there is a rectangle -/
theorem c60_grid_zero (route rects : List Box) : offGridCheck 0 route rects = none ↔ rects ≠ [] := by
  simp only [offGridCheck, true_and]
  by_cases h : rects = [] <;> simp [h]

/-! ### examples -/

/-- outline of a bar with a notch: edges of length 10, 2, 1, 2, 10 … -/
def exOutline : List OEdge :=
  [⟨⟨0, 0⟩, ⟨20, 0⟩, true⟩, ⟨⟨20, 0⟩, ⟨20, 10⟩, true⟩, ⟨⟨20, 10⟩, ⟨12, 10⟩, true⟩, ⟨⟨12, 10⟩, ⟨12, 8⟩, false⟩, ⟨⟨12, 8⟩, ⟨11, 8⟩, false⟩,
   ⟨⟨11, 8⟩, ⟨11, 10⟩, true⟩, ⟨⟨11, 10⟩, ⟨0, 10⟩, true⟩, ⟨⟨0, 10⟩, ⟨0, 0⟩, true⟩]

example : minStepCheck ⟨5, none, 0, some 1⟩ exOutline = some [⟨⟨11, 8⟩, ⟨12, 10⟩⟩] := by decide
example : minStepCheck ⟨5, none, 0, some 3⟩ exOutline = some [] := by decide
example : ShortRun exOutline 5 2 3 := by
  refine ⟨by decide, by decide, ?_, by decide, by decide⟩
  intro j h1 h2
  have : j = 1 ∨ j = 2 ∨ j = 3 := by omega
  rcases this with rfl | rfl | rfl <;> decide

/-- the same outline seen by a rule under which only one edge is long: nothing is reported, however many short edges there are -/
theorem c59_one_long_edge : minStepCheck ⟨15, none, 0, some 1⟩ exOutline = some [] ∧
    (∀ i, i < 8 → i ≠ 0 → (Ring exOutline i).len < 15) := by
  refine ⟨by decide, by decide⟩

/-- an L-shaped metal and its slices -/
def exMetal (c : Point) : Prop := (0 ≤ c.x ∧ c.x < 10 ∧ 0 ≤ c.y ∧ c.y < 4) ∨ (0 ≤ c.x ∧ c.x < 2 ∧ 4 ≤ c.y ∧ c.y < 10)

example : SlicesH exMetal [⟨⟨0, 0⟩, ⟨10, 4⟩⟩, ⟨⟨0, 4⟩, ⟨2, 10⟩⟩] ∧ SlicesV exMetal [⟨⟨0, 0⟩, ⟨2, 10⟩⟩, ⟨⟨2, 0⟩, ⟨10, 4⟩⟩] := by
  refine ⟨⟨?_, ?_, ?_⟩, ⟨?_, ?_, ?_⟩⟩ <;> simp [exMetal, CellOf, Box.left, Box.right, Box.bottom, Box.top] <;> omega

example : minWidthCheck 4 [] [⟨⟨0, 0⟩, ⟨10, 4⟩⟩, ⟨⟨0, 4⟩, ⟨2, 10⟩⟩] [⟨⟨0, 0⟩, ⟨2, 10⟩⟩, ⟨⟨2, 0⟩, ⟨10, 4⟩⟩] = [⟨⟨0, 4⟩, ⟨2, 10⟩⟩] := by decide

example : offGridCheck 5 [⟨⟨-10, 0⟩, ⟨0, 5⟩⟩] [⟨⟨-10, 0⟩, ⟨0, 5⟩⟩, ⟨⟨-7, 0⟩, ⟨0, 5⟩⟩] = some [⟨⟨-7, 0⟩, ⟨0, 5⟩⟩] := by decide

end TR
