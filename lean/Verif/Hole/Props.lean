import Verif.Hole.Area
import Verif.GC.ShapeProps
import Verif.GC.Rects.RectOnly
/-! # Steps at line ends, holes, all shape rules, patches -/
namespace TR

/-! ### steps at line ends -/

theorem tight_four (a b c d : Point) :
    Tight [a, b, c, d] (Box.mk4 (min (min (min a.x b.x) c.x) d.x) (min (min (min a.y b.y) c.y) d.y)
      (max (max (max a.x b.x) c.x) d.x) (max (max (max a.y b.y) c.y) d.y)) := by
  rw [Box.mk4_eq]
  have pick : ∀ (f : Point → Int) (w : Int), (w = f a ∨ w = f b ∨ w = f c ∨ w = f d) → ∃ p ∈ [a, b, c, d], f p = w := by
    rintro f w (rfl | rfl | rfl | rfl)
    · exact ⟨a, by simp, rfl⟩
    · exact ⟨b, by simp, rfl⟩
    · exact ⟨c, by simp, rfl⟩
    · exact ⟨d, by simp, rfl⟩
  constructor
  · intro p hp
    simp only [List.mem_cons, List.not_mem_nil, or_false] at hp
    unfold Box.Has
    simp only [Box.left, Box.right, Box.bottom, Box.top]
    rcases hp with rfl | rfl | rfl | rfl <;> omega
  · exact pick (·.x) _ (by simp only [Box.left]; omega)
  · exact pick (·.x) _ (by simp only [Box.right]; omega)
  · exact pick (·.y) _ (by simp only [Box.bottom]; omega)
  · exact pick (·.y) _ (by simp only [Box.top]; omega)

theorem step58At_iff {len eol : Int} {s n nn : OEdge} {b : Box} : step58At len eol s n nn = some b ↔
    s.len < len ∧ nn.len < len ∧ TurnsLeft s n ∧ TurnsLeft n nn ∧ n.len < eol ∧
      (s.fixed = false ∨ n.fixed = false ∨ nn.fixed = false) ∧ Tight [s.lo, s.hi, n.hi, nn.hi] b := by
  have ht := tight_four s.lo s.hi n.hi nn.hi
  unfold step58At
  have hc : ∀ a b : OEdge, convexAt a b = true ↔ TurnsLeft a b := fun a b => by unfold convexAt TurnsLeft; exact decide_eq_true_iff
  by_cases h1 : s.len < len
  · rw [if_neg (by simpa using h1)]
    by_cases h2 : nn.len ≥ len
    · rw [if_pos h2]; constructor
      · intro h; cases h
      · intro h; omega
    · rw [if_neg h2]
      by_cases h3 : TurnsLeft s n ∧ TurnsLeft n nn
      · have h3' : (!convexAt s n || !convexAt n nn) = false := by
          rw [(hc s n).2 h3.1, (hc n nn).2 h3.2]; rfl
        rw [h3', if_neg (by simp)]
        by_cases h4 : n.len ≥ eol
        · rw [if_pos h4]; constructor
          · intro h; cases h
          · intro h; omega
        · rw [if_neg h4]
          by_cases h5 : (s.fixed && n.fixed && nn.fixed) = true
          · rw [if_pos h5]
            simp only [Bool.and_eq_true] at h5
            constructor
            · intro h; cases h
            · intro h; simp [h5] at h
          · rw [if_neg h5]
            constructor
            · intro h
              cases h
              refine ⟨h1, by omega, h3.1, h3.2, by omega, ?_, ht⟩
              cases e1 : s.fixed <;> cases e2 : n.fixed <;> cases e3 : nn.fixed <;> simp [e1, e2, e3] at h5 ⊢
            · rintro ⟨-, -, -, -, -, -, hb⟩
              rw [tight_unique ht hb]
      · have h3' : (!convexAt s n || !convexAt n nn) = true := by
          cases e1 : convexAt s n with
          | false => rfl
          | true => cases e2 : convexAt n nn with
            | false => rfl
            | true => exact absurd ⟨(hc _ _).1 e1, (hc _ _).1 e2⟩ h3
        rw [h3', if_pos rfl]
        constructor
        · intro h; cases h
        · rintro ⟨-, -, a, b, -⟩; exact absurd ⟨a, b⟩ h3
  · rw [if_pos (by simpa using h1)]
    constructor
    · intro h; cases h
    · intro h; exact absurd h.1 h1

theorem mem_step58Outline {len eol : Int} {es : List OEdge} {b : Box} : b ∈ step58Outline len eol es ↔ EolStep len eol es b := by
  unfold step58Outline EolStep
  rw [List.mem_filterMap]
  constructor
  · rintro ⟨i, hi, h⟩
    rw [List.mem_range] at hi
    rw [step58At_iff] at h
    have e : es.getD i default = Ring es i := by unfold Ring; rw [Nat.mod_eq_of_lt hi]
    rw [e] at h
    exact ⟨i, hi, h⟩
  · rintro ⟨i, hi, h⟩
    refine ⟨i, List.mem_range.2 hi, ?_⟩
    rw [step58At_iff]
    have e : es.getD i default = Ring es i := by unfold Ring; rw [Nat.mod_eq_of_lt hi]
    rw [e]
    exact h

/-- **C159** the check of the steps at line ends reports, for every rule with NOBETWEENEOL, exactly the line ends narrower than that width
both of whose sides are too short, unless all of it is fixed; a rule without NOBETWEENEOL reports nothing -/
theorem c159_eol_step_iff (rules : List Step58) (rings : List (List OEdge)) (id : Nat) (b : Box) :
    (id, b) ∈ step58Check rules rings ↔ ∃ r ∈ rules, r.id = id ∧ ∃ w es, r.eol = some w ∧ es ∈ rings ∧ EolStep r.len w es b := by
  unfold step58Check
  rw [List.mem_flatMap]
  constructor
  · rintro ⟨r, hr, h⟩
    cases he : r.eol with
    | none => rw [he] at h; cases h
    | some w =>
      rw [he] at h
      simp only [List.mem_flatMap, List.mem_map] at h
      obtain ⟨es, hes, b', hb, e⟩ := h
      cases e
      exact ⟨r, hr, rfl, w, es, he, hes, mem_step58Outline.1 hb⟩
  · rintro ⟨r, hr, rfl, w, es, he, hes, hb⟩
    refine ⟨r, hr, ?_⟩
    rw [he]
    simp only [List.mem_flatMap, List.mem_map]
    exact ⟨es, hes, b, mem_step58Outline.2 hb, rfl⟩

/-- a short stub on a wide shape: width 2, sides of length 3, routed -/
def exStub : List OEdge :=
  [⟨⟨0, 0⟩, ⟨20, 0⟩, true⟩, ⟨⟨20, 0⟩, ⟨20, 10⟩, true⟩, ⟨⟨20, 10⟩, ⟨12, 10⟩, true⟩, ⟨⟨12, 10⟩, ⟨12, 13⟩, false⟩, ⟨⟨12, 13⟩, ⟨10, 13⟩, false⟩,
   ⟨⟨10, 13⟩, ⟨10, 10⟩, false⟩, ⟨⟨10, 10⟩, ⟨0, 10⟩, true⟩, ⟨⟨0, 10⟩, ⟨0, 0⟩, true⟩]

example : step58Check [⟨7, 4, some 3⟩, ⟨8, 4, none⟩, ⟨9, 4, some 2⟩, ⟨10, 3, some 3⟩] [exStub] = [(7, ⟨⟨10, 10⟩, ⟨12, 13⟩⟩)] := by decide
example : EolStep 4 3 exStub ⟨⟨10, 10⟩, ⟨12, 13⟩⟩ := mem_step58Outline.1 (by decide)
/-- a notch of the same size is not reported: the outline turns right -/
example : step58Check [⟨7, 4, some 3⟩]
    [[⟨⟨0, 0⟩, ⟨20, 0⟩, false⟩, ⟨⟨20, 0⟩, ⟨20, 10⟩, false⟩, ⟨⟨20, 10⟩, ⟨12, 10⟩, false⟩, ⟨⟨12, 10⟩, ⟨12, 7⟩, false⟩, ⟨⟨12, 7⟩, ⟨10, 7⟩, false⟩,
      ⟨⟨10, 7⟩, ⟨10, 10⟩, false⟩, ⟨⟨10, 10⟩, ⟨0, 10⟩, false⟩, ⟨⟨0, 10⟩, ⟨0, 0⟩, false⟩]] = [] := by decide

/-! ### holes -/

/-- **C160** the check of the holes reports, for every MINENCLOSEDAREA statement without a WIDTH, exactly the holes with fewer unit cells than
the statement asks for, in metal of which some is routed, each with the smallest rectangle around it -/
theorem c160_hole_iff (ss : List HoleStmt) (metal routed : List Box) (holes : List (List Point)) (hs : ∀ h ∈ holes, SimplePoly h)
    (id : Nat) (b : Box) : (id, b) ∈ holeCheck (holeRules ss) metal routed holes ↔ HoleViolation ss metal routed holes id b := by
  have hp : metal.all (fun m => coveredArea m routed = 0) = true ↔ ¬ PartRouted metal routed := by
    simp only [List.all_eq_true, decide_eq_true_eq]
    unfold PartRouted
    constructor
    · rintro h ⟨c, ⟨m, hm, hc⟩, r, hr, hrc⟩
      exact (covered_zero.1 (h m hm)) ⟨c, hc, r, hr, hrc⟩
    · intro h m hm
      rw [covered_zero]
      rintro ⟨c, hc, r, hr, hrc⟩
      exact h ⟨c, ⟨m, hm, hc⟩, r, hr, hrc⟩
  have hr : ∀ i a, (i, a) ∈ holeRules ss ↔ ∃ s ∈ ss, s.id = i ∧ s.area = a ∧ s.width = none := by
    intro i a
    unfold holeRules
    rw [List.mem_filterMap]
    constructor
    · rintro ⟨s, hs, e⟩
      cases hw : s.width with
      | none => rw [hw] at e; cases e; exact ⟨s, hs, rfl, rfl, hw⟩
      | some w => rw [hw] at e; cases e
    · rintro ⟨s, hs, rfl, rfl, hw⟩
      exact ⟨s, hs, by rw [hw]⟩
  unfold holeCheck HoleViolation
  simp only [List.mem_flatMap, List.mem_filterMap]
  constructor
  · rintro ⟨h, hh, ⟨i, a⟩, hra, e⟩
    simp only at e
    split at e
    · rename_i hlt
      split at e
      · cases e
      · rename_i hn
        cases e
        obtain ⟨s, hs1, e1, e2, e3⟩ := (hr _ _).1 hra
        refine ⟨s, hs1, e1, e3, h, hh, ⟨_, c160_area h (hs h hh), by omega⟩, ?_, extents_tight (hs h hh).ne⟩
        apply Classical.not_not.1
        intro hc
        exact hn (hp.2 hc)
    · cases e
  · rintro ⟨s, hs1, rfl, hw, h, hh, ⟨n, hn, hlt⟩, hpr, ht⟩
    refine ⟨h, hh, (s.id, s.area), (hr _ _).2 ⟨s, hs1, rfl, rfl, hw⟩, ?_⟩
    have := hasSize_unique hn (c160_area h (hs h hh))
    subst this
    simp only
    rw [if_pos hlt, if_neg (fun hc => hp.1 hc hpr), tight_unique (extents_tight (hs h hh).ne) ht]

/-- a MINENCLOSEDAREA statement with a WIDTH is never checked -/
theorem c160_width_skipped (metal routed : List Box) (holes : List (List Point)) (ss : List HoleStmt) (h : ∀ s ∈ ss, s.width ≠ none) :
    holeCheck (holeRules ss) metal routed holes = [] := by
  have : holeRules ss = [] := by
    unfold holeRules
    rw [List.filterMap_eq_nil_iff]
    intro s hs
    cases hw : s.width with
    | none => exact absurd hw (h s hs)
    | some w => rfl
  rw [this]
  unfold holeCheck
  simp

/-- a hole in the form of an L: 3 × 3 cells less one -/
def exEll : List Point := [⟨0, 0⟩, ⟨0, 3⟩, ⟨2, 3⟩, ⟨2, 1⟩, ⟨3, 1⟩, ⟨3, 0⟩]

theorem exEll_winding (c : Point) : winding exEll c = if 0 ≤ c.x ∧ 0 ≤ c.y ∧ c.x < 3 ∧ c.y < 3 ∧ ¬ (2 ≤ c.x ∧ 1 ≤ c.y) then 1 else 0 := by
  have e : winding exEll c = rayCross c (⟨0, 0⟩, ⟨0, 3⟩) + (rayCross c (⟨0, 3⟩, ⟨2, 3⟩) + (rayCross c (⟨2, 3⟩, ⟨2, 1⟩) +
    (rayCross c (⟨2, 1⟩, ⟨3, 1⟩) + (rayCross c (⟨3, 1⟩, ⟨3, 0⟩) + (rayCross c (⟨3, 0⟩, ⟨0, 0⟩) + 0))))) := rfl
  have h1 : rayCross c (⟨0, 3⟩, ⟨2, 3⟩) = 0 := by simp [rayCross]
  have h2 : rayCross c (⟨2, 1⟩, ⟨3, 1⟩) = 0 := by simp [rayCross]
  have h3 : rayCross c (⟨3, 0⟩, ⟨0, 0⟩) = 0 := by simp [rayCross]
  have v : ∀ x y z : Int, rayCross c (⟨x, y⟩, ⟨x, z⟩) = if x ≤ c.x then (if y ≤ c.y then 1 else 0) - (if z ≤ c.y then 1 else 0) else 0 := by
    intro x y z
    unfold rayCross
    simp only [true_and]
    repeat' split
    all_goals omega
  rw [e, h1, h2, h3, v, v, v]
  repeat' split
  all_goals omega

theorem exEll_simple : SimplePoly exEll := by
  refine ⟨by decide, by decide, .inl ?_⟩
  intro c
  rw [exEll_winding]
  split <;> simp

example : polyArea exEll = 7 := by decide
example : holeCheck (holeRules [⟨1, 8, none⟩, ⟨2, 7, none⟩, ⟨3, 100, some 5⟩]) [⟨⟨-2, -2⟩, ⟨0, 6⟩⟩] [⟨⟨-1, 0⟩, ⟨0, 1⟩⟩] [exEll]
    = [(1, ⟨⟨0, 0⟩, ⟨3, 3⟩⟩)] := by decide

/-! ### all shape rules -/

theorem stepAll_spec (c : StepRule) : ∀ rings : List (List OEdge), ∃ bs, stepAll c rings = some bs ∧
    ∀ b, b ∈ bs ↔ ∃ es ∈ rings, c.type = none ∧ StepViolation c es b
  | [] => ⟨[], rfl, fun b => by simp⟩
  | es :: t => by
    obtain ⟨bs, e, h⟩ := stepAll_spec c t
    cases ht : c.type with
    | none =>
      obtain ⟨as, ea, ha⟩ := c59_min_step_iff c es ht
      refine ⟨as ++ bs, by simp only [stepAll, ea, e], fun b => ?_⟩
      rw [List.mem_append, ha, h]
      constructor
      · rintro (h1 | ⟨es', h1, h2, h3⟩)
        · exact ⟨es, by simp, rfl, h1⟩
        · exact ⟨es', by simp [h1], rfl, h3⟩
      · rintro ⟨es', h1, -, h3⟩
        rcases List.mem_cons.1 h1 with rfl | h1
        · exact .inl h3
        · exact .inr ⟨es', h1, ht, h3⟩
    | some ty =>
      refine ⟨[] ++ bs, by simp only [stepAll, c59_typed_never c es ty ht, e], fun b => ?_⟩
      rw [List.nil_append, h]
      constructor
      · rintro ⟨_, _, h2, _⟩; rw [ht] at h2; cases h2
      · rintro ⟨_, _, h2, _⟩; cases h2

/-- **C161** the shape checks of one polygon always end on a grid of non-zero pitch, and report exactly what breaks a rule; the minimum area
of a layer is not among the rules: no polygon is ever reported for it -/
theorem c161_shape_iff (L : ShapeLayer) (grid : Int) (fixed routed : List Box) (P : ShapePin) (hg : grid ≠ 0)
    (hh : ∀ h ∈ P.holes, SimplePoly h) :
    ∃ ms, shapeMain L grid fixed routed P = some ms ∧ ∀ r b, (r, b) ∈ ms ↔ BreaksRule L grid fixed routed P r b := by
  obtain ⟨off, eo, ho⟩ := c60_off_grid_iff grid routed P.rects hg
  have hst : ∃ bs, stepPin L.step P.outlines = some bs ∧
      ∀ b, b ∈ bs ↔ ∃ c es, L.step = some c ∧ es ∈ P.outlines ∧ c.type = none ∧ StepViolation c es b := by
    cases hs : L.step with
    | none => exact ⟨[], rfl, fun b => by simp⟩
    | some c =>
      obtain ⟨bs, e, h⟩ := stepAll_spec c P.outlines
      refine ⟨bs, e, fun b => ?_⟩
      rw [h]
      constructor
      · rintro ⟨es, h1, h2, h3⟩; exact ⟨c, es, rfl, h1, h2, h3⟩
      · rintro ⟨c', es, e, h1, h2, h3⟩; cases e; exact ⟨es, h1, h2, h3⟩
  obtain ⟨st, es, hst⟩ := hst
  refine ⟨_, by unfold shapeMain; simp only [es, eo]; rfl, fun r b => ?_⟩
  have hrect : ∀ b, (r, b) ∈ (if L.rectOnly then (rectOnlyCheck L.minWidth P.metal fixed (P.outlines.map (·.map OEdge.toR))).map
      (fun b => (ShapeRule.rectOnly, b)) else []) ↔ r = .rectOnly ∧ L.rectOnly = true ∧
        b ∈ rectOnlyCheck L.minWidth P.metal fixed (P.outlines.map (·.map OEdge.toR)) := by
    intro b
    cases hL : L.rectOnly with
    | false => simp
    | true =>
      simp only [if_true, List.mem_map, Prod.mk.injEq]
      constructor
      · rintro ⟨b', h, e, rfl⟩; exact ⟨e.symm, trivial, h⟩
      · rintro ⟨e, -, h⟩; exact ⟨b, h, e.symm, rfl⟩
  simp only [List.mem_append, hrect, List.mem_map, Prod.mk.injEq]
  cases r with
  | width =>
    simp only [BreaksRule, reduceCtorEq, false_and, and_false, exists_false, or_false, true_and, exists_eq_right]
    unfold minWidthCheck
    simp only [List.mem_append, List.mem_filter, minWidthReported_iff, if_true, Bool.false_eq_true, if_false]
    constructor
    · rintro (⟨h1, h2, h3⟩ | ⟨h1, h2, h3⟩)
      · exact ⟨.inl ⟨h1, h2⟩, h3⟩
      · exact ⟨.inr ⟨h1, h2⟩, h3⟩
    · rintro ⟨⟨h1, h2⟩ | ⟨h1, h2⟩, h3⟩
      · exact .inl ⟨h1, h2, h3⟩
      · exact .inr ⟨h1, h2, h3⟩
  | area => simp [BreaksRule]
  | step =>
    simp only [BreaksRule, reduceCtorEq, false_and, and_false, exists_false, or_false, false_or, true_and, exists_eq_right]
    exact hst b
  | step58 id =>
    simp only [BreaksRule, reduceCtorEq, false_and, and_false, exists_false, or_false, false_or, ShapeRule.step58.injEq]
    rw [← c159_eol_step_iff]
    constructor
    · rintro ⟨⟨i, b'⟩, h, rfl, rfl⟩; exact h
    · intro h; exact ⟨(id, b), h, rfl, rfl⟩
  | rectOnly =>
    simp only [BreaksRule, reduceCtorEq, false_and, and_false, exists_false, or_false, false_or, true_and]
    rw [c115_rect_only_iff]
    have : ∀ p, (∃ ring ∈ P.outlines.map (·.map OEdge.toR), TurnsRightAt ring p) ↔ ∃ es ∈ P.outlines, TurnsRightAt (es.map OEdge.toR) p := by
      intro p
      simp only [List.mem_map]
      constructor
      · rintro ⟨_, ⟨es, h1, rfl⟩, h2⟩; exact ⟨es, h1, h2⟩
      · rintro ⟨es, h1, h2⟩; exact ⟨_, ⟨es, h1, rfl⟩, h2⟩
    simp only [this]
  | grid =>
    simp only [BreaksRule, reduceCtorEq, false_and, and_false, exists_false, or_false, false_or, true_and, exists_eq_right]
    exact ho b
  | hole id =>
    simp only [BreaksRule, reduceCtorEq, false_and, and_false, exists_false, false_or, ShapeRule.hole.injEq]
    rw [← c160_hole_iff _ _ _ _ hh]
    constructor
    · rintro ⟨⟨i, b'⟩, h, rfl, rfl⟩; exact h
    · intro h; exact ⟨(id, b), h, rfl, rfl⟩

theorem gatherAll_some {α : Type} : ∀ l : List (Option (List α)), (∀ x ∈ l, x ≠ none) →
    ∃ r, gatherAll l = some r ∧ ∀ a, a ∈ r ↔ ∃ x, some x ∈ l ∧ a ∈ x
  | [], _ => ⟨[], rfl, fun a => by simp⟩
  | none :: t, h => absurd rfl (h none (by simp))
  | some y :: t, h => by
    obtain ⟨r, e, hr⟩ := gatherAll_some t (fun x hx => h x (by simp [hx]))
    refine ⟨y ++ r, by simp only [gatherAll, e], fun a => ?_⟩
    rw [List.mem_append, hr]
    constructor
    · rintro (h1 | ⟨x, h1, h2⟩)
      · exact ⟨y, by simp, h1⟩
      · exact ⟨x, by simp [h1], h2⟩
    · rintro ⟨x, h1, h2⟩
      rcases List.mem_cons.1 h1 with e | h1
      · cases e; exact .inl h2
      · exact .inr ⟨x, h1, h2⟩

/-- **C161** a run of the shape checks reports exactly the broken rules of the polygons of the nets asked for, on the routing layers within
the bounds of the technology and of the worker -/
theorem c161_all_iff (D : ShpDb) (hg : D.grid ≠ 0) (hh : ∀ n i, ∀ P ∈ D.pins n i, ∀ h ∈ P.holes, SimplePoly h) :
    ∃ ms, shapeAll D = some ms ∧ ∀ m, m ∈ ms ↔ ∃ L n, D.Looks m.layer L ∧ D.Asks n ∧ m.src = D.owner n ∧
      ∃ P ∈ D.pins n m.layer, BreaksRule L D.grid (D.fixed n m.layer) (D.routed n m.layer) P m.rule m.box := by
  have hone : ∀ i L n x, x ∈ shapePins D i L n ↔ ∃ P ∈ D.pins n i, ∃ ms, shapeMain L D.grid (D.fixed n i) (D.routed n i) P = some ms ∧
      x = some (ms.map (fun m => ⟨i, D.owner n, m.1, m.2⟩)) := by
    intro i L n x
    unfold shapePins
    rw [List.mem_map]
    constructor
    · rintro ⟨P, hP, e⟩
      obtain ⟨ms, e2, -⟩ := c161_shape_iff L D.grid (D.fixed n i) (D.routed n i) P hg (hh n i P hP)
      rw [e2] at e
      exact ⟨P, hP, ms, e2, e.symm⟩
    · rintro ⟨P, hP, ms, e2, rfl⟩
      exact ⟨P, hP, by rw [e2]; rfl⟩
  have hmem : ∀ x, x ∈ ((intsFrom (max D.bottom D.minLayer) (min D.top D.maxLayer + 1)).flatMap (fun i =>
      match D.layer i with
      | none => []
      | some L => (match D.target with | some t => [t] | none => D.nets).flatMap (fun n => shapePins D i L n))) ↔
      ∃ i L n, D.Looks i L ∧ D.Asks n ∧ x ∈ shapePins D i L n := by
    intro x
    have hask : ∀ n, n ∈ (match D.target with | some t => [t] | none => D.nets) ↔ D.Asks n := by
      intro n
      unfold ShpDb.Asks
      cases ht : D.target with
      | none => simp
      | some t => simp
    rw [List.mem_flatMap]
    constructor
    · rintro ⟨i, hi, h⟩
      rw [mem_intsFrom] at hi
      cases hl : D.layer i with
      | none => rw [hl] at h; cases h
      | some L =>
        rw [hl] at h
        simp only [List.mem_flatMap] at h
        obtain ⟨n, hn, h⟩ := h
        exact ⟨i, L, n, ⟨hl, by omega, by omega, by omega, by omega⟩, (hask n).1 hn, h⟩
    · rintro ⟨i, L, n, ⟨hl, h1, h2, h3, h4⟩, hn, h⟩
      refine ⟨i, by rw [mem_intsFrom]; omega, ?_⟩
      rw [hl]
      simp only [List.mem_flatMap]
      exact ⟨n, (hask n).2 hn, h⟩
  obtain ⟨ms, e, h⟩ := gatherAll_some _ (fun x hx => by
    obtain ⟨i, L, n, -, -, hx⟩ := (hmem x).1 hx
    obtain ⟨P, -, ms, -, e⟩ := (hone i L n x).1 hx
    rw [e]; simp)
  refine ⟨ms, e, fun m => ?_⟩
  rw [h]
  constructor
  · rintro ⟨x, hx, hm⟩
    obtain ⟨i, L, n, hl, ha, hx⟩ := (hmem _).1 hx
    obtain ⟨P, hP, ms', e2, e3⟩ := (hone i L n _).1 hx
    cases e3
    rw [List.mem_map] at hm
    obtain ⟨⟨r, b⟩, hrb, rfl⟩ := hm
    obtain ⟨ms2, e4, h4⟩ := c161_shape_iff L D.grid (D.fixed n i) (D.routed n i) P hg (hh n i P hP)
    rw [e2] at e4
    cases e4
    exact ⟨L, n, hl, ha, rfl, P, hP, (h4 r b).1 hrb⟩
  · rintro ⟨L, n, hl, ha, hsrc, P, hP, hb⟩
    obtain ⟨ms2, e4, h4⟩ := c161_shape_iff L D.grid (D.fixed n m.layer) (D.routed n m.layer) P hg (hh n m.layer P hP)
    refine ⟨_, (hmem _).2 ⟨m.layer, L, n, hl, ha, (hone _ _ _ _).2 ⟨P, hP, ms2, e4, rfl⟩⟩, ?_⟩
    rw [List.mem_map]
    refine ⟨(m.rule, m.box), (h4 _ _).2 hb, ?_⟩
    cases m
    simp only at hsrc
    rw [hsrc]

/-- **C161** a polygon smaller than the minimum area of its layer is not reported for it -/
theorem c161_min_area_unchecked (D : ShpDb) (hg : D.grid ≠ 0) (hh : ∀ n i, ∀ P ∈ D.pins n i, ∀ h ∈ P.holes, SimplePoly h) :
    ∃ ms, shapeAll D = some ms ∧ ∀ m ∈ ms, m.rule ≠ .area := by
  obtain ⟨ms, e, h⟩ := c161_all_iff D hg hh
  refine ⟨ms, e, fun m hm hr => ?_⟩
  obtain ⟨L, n, -, -, -, P, -, hb⟩ := (h m).1 hm
  rw [hr] at hb
  exact hb

/-- two routing layers, one net with a small square, another with a hole -/
def exShpDb : ShpDb :=
  { bottom := 0, top := 4, minLayer := 2, maxLayer := 10, grid := 2
    layer := fun i => if i % 2 = 0 then some ⟨3, some 1000, some ⟨4, none, 0, none⟩, [⟨7, 4, some 3⟩], true, [⟨1, 8, none⟩]⟩ else none
    nets := [0, 1], target := none, owner := fun n => n + 10
    pins := fun n i => if i = 2 ∧ n = 0 then [⟨0, [⟨⟨0, 0⟩, ⟨2, 9⟩⟩], [⟨⟨0, 0⟩, ⟨2, 9⟩⟩], [⟨⟨0, 0⟩, ⟨2, 9⟩⟩], [exStub], [⟨⟨0, 0⟩, ⟨2, 9⟩⟩], [exEll]⟩] else []
    fixed := fun _ _ => [], routed := fun _ _ => [⟨⟨0, 0⟩, ⟨2, 9⟩⟩] }

example : shapeAll exShpDb = some [⟨2, 10, .width, ⟨⟨0, 0⟩, ⟨2, 9⟩⟩⟩, ⟨2, 10, .step, ⟨⟨10, 10⟩, ⟨12, 13⟩⟩⟩,
    ⟨2, 10, .step58 7, ⟨⟨10, 10⟩, ⟨12, 13⟩⟩⟩, ⟨2, 10, .grid, ⟨⟨0, 0⟩, ⟨2, 9⟩⟩⟩, ⟨2, 10, .hole 1, ⟨⟨0, 0⟩, ⟨3, 3⟩⟩⟩] := by decide +kernel
example : exShpDb.grid ≠ 0 ∧ ∀ n i, ∀ P ∈ exShpDb.pins n i, ∀ h ∈ P.holes, SimplePoly h := by
  refine ⟨by decide, ?_⟩
  intro n i P hP h hh
  unfold exShpDb at hP
  simp only at hP
  split at hP
  · simp only [List.mem_singleton] at hP
    subst hP
    simp only [List.mem_singleton] at hh
    subst hh
    exact exEll_simple
  · cases hP

/-! ### patches -/

theorem patchVia_some {m : ShapeMk} {figs : List NearFig} {f : NearFig} (h : patchVia m figs = some f) : f ∈ figs ∧ Patchable m f := by
  unfold patchVia at h
  have h1 := List.mem_of_find?_eq_some h
  have h2 := List.find?_some h
  refine ⟨h1, ?_⟩
  simp only [Bool.and_eq_true, decide_eq_true_eq, Bool.not_eq_true', Bool.and_eq_false_iff, decide_eq_false_iff_not, Classical.not_not] at h2
  exact ⟨h2.1.1.1, h2.1.1.2, h2.1.2, h2.2⟩

theorem patchVia_none {m : ShapeMk} {figs : List NearFig} (h : patchVia m figs = none) : ∀ f ∈ figs, ¬ Patchable m f := by
  unfold patchVia at h
  rw [List.find?_eq_none] at h
  rintro f hf ⟨h1, h2, h3, h4⟩
  apply h f hf
  simp only [Bool.and_eq_true, decide_eq_true_eq, Bool.not_eq_true', Bool.and_eq_false_iff, decide_eq_false_iff_not, Classical.not_not]
  exact ⟨⟨⟨h1, h2⟩, h3⟩, h4⟩

/-- **C162** a marker is patched iff it is a minimum-step violation on layer 10 and a suitable via of its net is near; the patch is metal of
the net of such a via, on the layer of the marker, and covers exactly the smallest rectangle around the marker and the origin of the via -/
theorem c162_patch (query : Box → Int → List NearFig) (m : ShapeMk) (hm : m.box.left ≤ m.box.right ∧ m.box.bottom ≤ m.box.top) :
    ((∃ p, patchOne query m = some p) ↔ m.rule = .step ∧ m.layer = 10 ∧ ∃ f ∈ query m.box m.layer, Patchable m f) ∧
    ∀ p, patchOne query m = some p → p.layer = m.layer ∧ ∃ f ∈ query m.box m.layer, Patchable m f ∧ p.net = f.net ∧ p.origin = f.origin ∧
      Tight [m.box.ll, m.box.ur, f.origin] p.metal := by
  have hval : ∀ p, patchOne query m = some p → (m.rule = .step ∧ m.layer = 10) ∧ p.layer = m.layer ∧ ∃ f ∈ query m.box m.layer, Patchable m f ∧
      p.net = f.net ∧ p.origin = f.origin ∧ Tight [m.box.ll, m.box.ur, f.origin] p.metal := by
    intro p h
    unfold patchOne at h
    split at h
    · cases h
    · rename_i h1
      split at h
      · cases h
      · rename_i h2
        split at h
        · cases h
        · rename_i f hf
          obtain ⟨hf1, hf2⟩ := patchVia_some hf
          cases h
          refine ⟨⟨Classical.not_not.1 h1, Classical.not_not.1 h2⟩, rfl, f, hf1, hf2, rfl, rfl, ?_⟩
          have pick : ∀ (g : Point → Int) (w : Int), (w = g m.box.ll ∨ w = g m.box.ur ∨ w = g f.origin) →
              ∃ p ∈ [m.box.ll, m.box.ur, f.origin], g p = w := by
            rintro g w (rfl | rfl | rfl)
            · exact ⟨_, by simp, rfl⟩
            · exact ⟨_, by simp, rfl⟩
            · exact ⟨_, by simp, rfl⟩
          simp only [Box.left, Box.right, Box.bottom, Box.top] at hm
          constructor
          · intro q hq
            simp only [List.mem_cons, List.not_mem_nil, or_false] at hq
            unfold Box.Has PatchMk.metal
            simp only [Box.left, Box.right, Box.bottom, Box.top]
            rcases hq with rfl | rfl | rfl <;> omega
          · exact pick (·.x) _ (by simp only [PatchMk.metal, Box.left]; omega)
          · exact pick (·.x) _ (by simp only [PatchMk.metal, Box.right]; omega)
          · exact pick (·.y) _ (by simp only [PatchMk.metal, Box.bottom]; omega)
          · exact pick (·.y) _ (by simp only [PatchMk.metal, Box.top]; omega)
  refine ⟨⟨?_, ?_⟩, fun p h => (hval p h).2⟩
  · rintro ⟨p, h⟩
    obtain ⟨⟨h1, h2⟩, -, f, hf, hp, -⟩ := hval p h
    exact ⟨h1, h2, f, hf, hp⟩
  · rintro ⟨h1, h2, f, hf, hp⟩
    unfold patchOne
    rw [if_neg (by simp [h1]), if_neg (by simp [h2])]
    cases hv : patchVia m (query m.box m.layer) with
    | none => exact absurd hp (patchVia_none hv f hf)
    | some g => exact ⟨_, rfl⟩

/-- **C162** patches are made only when the worker repairs locally, inside detailed routing, in the one technology they are meant for -/
theorem c162_only_gf14 (surgical inDr gf14 : Bool) (D : ShpDb) (query : Box → Int → List NearFig) :
    patchMain surgical inDr gf14 D query = if surgical = true ∧ inDr = true ∧ gf14 = true then patchShapes D query else some [] := by
  cases surgical <;> cases inDr <;> cases gf14 <;> rfl

theorem stepHull_proper {es : List OEdge} {i k : Nat} {b : Box} (h : StepHull es i k b) : b.left ≤ b.right ∧ b.bottom ≤ b.top := by
  have := h.holds 0 (Nat.zero_le _)
  unfold Box.Has at this
  omega

/-- **C162** every patch stems from a minimum-step violation of the shape checks on layer 10, of the owner of the via it starts from, and
covers the marker of the violation and the origin of the via and no more than the rectangle they span -/
theorem c162_patches (D : ShpDb) (query : Box → Int → List NearFig) (hg : D.grid ≠ 0)
    (hh : ∀ n i, ∀ P ∈ D.pins n i, ∀ h ∈ P.holes, SimplePoly h) :
    ∃ ps, patchShapes D query = some ps ∧ ∀ p ∈ ps, p.layer = 10 ∧ ∃ L n, D.Looks 10 L ∧ D.Asks n ∧ ∃ P ∈ D.pins n 10,
      ∃ c es b, L.step = some c ∧ es ∈ P.outlines ∧ StepViolation c es b ∧
        ∃ f ∈ query b 10, f.via = true ∧ f.owner = D.owner n ∧ f.layer1 = 10 ∧ p.net = f.net ∧ p.origin = f.origin ∧
          Tight [b.ll, b.ur, f.origin] p.metal := by
  obtain ⟨ms, e, h⟩ := c161_all_iff D hg hh
  refine ⟨ms.filterMap (patchOne query), by unfold patchShapes; rw [e]; rfl, fun p hp => ?_⟩
  rw [List.mem_filterMap] at hp
  obtain ⟨⟨l, s, r, b⟩, hm, hp⟩ := hp
  obtain ⟨L, n, hl, ha, hs, P, hP, hb⟩ := (h _).1 hm
  simp only at hl hs hP hb
  have hr : r = .step ∧ l = 10 := by
    unfold patchOne at hp
    simp only at hp
    by_cases h1 : r = .step
    · by_cases h2 : l = 10
      · exact ⟨h1, h2⟩
      · rw [if_neg (by simp [h1]), if_pos h2] at hp; cases hp
    · rw [if_pos h1] at hp; cases hp
  obtain ⟨rfl, rfl⟩ := hr
  obtain ⟨c, es, e1, e2, e3, e4⟩ := hb
  have hpr : b.left ≤ b.right ∧ b.bottom ≤ b.top := by
    obtain ⟨i, k, -, -, -, -, hh⟩ := e4
    exact stepHull_proper hh
  obtain ⟨h1, f, hf, ⟨f1, f2, f3, -⟩, f4, f5, f6⟩ := (c162_patch query ⟨10, s, .step, b⟩ hpr).2 p hp
  exact ⟨h1, L, n, hl, ha, P, hP, c, es, b, e1, e2, e4, f, hf, f1, by rw [f2]; exact hs, f3, f4, f5, f6⟩

example : patchOne (fun _ _ => [⟨false, 5, 3, 10, ⟨0, 0⟩⟩, ⟨true, 5, 3, 10, ⟨12, 7⟩⟩, ⟨true, 5, 4, 10, ⟨11, 40⟩⟩]) ⟨10, 5, .step, ⟨⟨10, 10⟩, ⟨12, 14⟩⟩⟩ =
    some ⟨10, 4, ⟨11, 40⟩, ⟨⟨-1, -30⟩, ⟨1, 0⟩⟩⟩ := by decide

end TR
