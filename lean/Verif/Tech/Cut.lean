import Verif.Tech.Props
/-! # Cuts of different layers (C54) and entries of two-width tables (C38) -/
namespace TR

/-- the rule between the cut layers of two vias: rules for one net before rules for different nets, either order
of the two layers (src/rp/FlexRP_prep.cpp:747-765) -/
def InterRule (T : RTech) (a b : Int) (r : CutRule) : Prop :=
  T.interSame a b = some r ∨ (T.interSame a b = none ∧ T.interSame b a = some r) ∨
  (T.interSame a b = none ∧ T.interSame b a = none ∧ (T.interDiff a b = some r ∨ (T.interDiff a b = none ∧ T.interDiff b a = some r)))

theorem interRule_find {T : RTech} {a b : Int} {r : CutRule} (h : InterRule T a b r) :
    ((T.interSame a b).or (T.interSame b a)).or ((T.interDiff a b).or (T.interDiff b a)) = some r := by
  rcases h with h | ⟨h1, h2⟩ | ⟨h1, h2, h | ⟨h3, h4⟩⟩
  · rw [h]; rfl
  · rw [h1, h2]; rfl
  · rw [h1, h2, h]; rfl
  · rw [h1, h2, h3, h4]; rfl

/-- C54: cuts of different layers closer than the rule between these layers allows are reported, unless the rule
allows stacked vias -/
theorem c54_cut_spacing_layers (T : RTech) (l : Int) (down up : Option RVia) (prevDown currDown dirX : Bool) {v1 v2 : RVia}
    (hv1 : (if prevDown then down else up) = some v1) (hv2 : (if currDown then down else up) = some v2) (hcut : v1.cut ≠ v2.cut)
    (hc1 : v1.cutBox.Centred) (hc2 : v2.cutBox.Centred) (hpos : 0 ≤ v1.cutBox.along dirX ∧ 0 ≤ v2.cutBox.along dirX)
    {r : CutRule} (hr : InterRule T v1.cut v2.cut r) (hs : r.stack = false) (hp : 0 < r.spacing)
    {d : Int} (hd : 0 < d) (hg : (if r.c2c then d else gapAlong v1.cutBox v2.cutBox dirX d) < r.spacing) :
    isVia2Via (v2vTable T l down up) prevDown currDown dirX d = some true := by
  rw [c39_via2via_query, hv1, hv2]
  congr 1
  have e : (v1.cutBox.along dirX + v2.cutBox.along dirX).tdiv 2 =
      (if dirX then v1.cutBox.right else v1.cutBox.top) + (if dirX then v2.cutBox.right else v2.cutBox.top) := by
    rw [centred_along hc1, centred_along hc2] at hpos ⊢
    exact tdiv_sum (by omega)
  rw [gap_centred hc1 hc2] at hg
  apply c53_inside_forbidden (r := (0, r.spacing + (if r.c2c then 0 else (v1.cutBox.along dirX + v2.cutBox.along dirX).tdiv 2)))
  · unfold v2vRanges
    simp only [List.mem_append]
    right
    unfold v2vCutSpc
    rw [if_neg hcut, interRule_find hr]
    simp only
    have h0 : r.spacing ≠ 0 := by omega
    have h1 : 0 ≤ (v1.cutBox.along dirX + v2.cutBox.along dirX).tdiv 2 := Int.tdiv_nonneg (by omega) (by omega)
    rw [if_neg h0, if_pos]
    · simp
    · exact ⟨by split <;> omega, hs⟩
  · exact hd
  · simp only
    rw [e]
    cases hcc : r.c2c <;> simp [hcc] at hg ⊢ <;> omega

/-- C54: a rule that allows stacked vias, or no rule, forbids no distance between the cuts -/
theorem c54_stacked_allowed (T : RTech) (l : Int) (down up : Option RVia) (prevDown currDown dirX : Bool) {v1 v2 : RVia}
    (hv1 : (if prevDown then down else up) = some v1) (hv2 : (if currDown then down else up) = some v2) (hcut : v1.cut ≠ v2.cut)
    (hr : ∀ r, ((T.interSame v1.cut v2.cut).or (T.interSame v2.cut v1.cut)).or ((T.interDiff v1.cut v2.cut).or (T.interDiff v2.cut v1.cut)) = some r → r.stack = true)
    (hm : ∀ l, T.minSpc l = none) (hmc : T.minCut l = []) (d : Int) :
    isVia2Via (v2vTable T l down up) prevDown currDown dirX d = some false := by
  rw [c39_via2via_query, hv1, hv2]
  congr 1
  apply c53_outside_allowed
  left
  have hreq : ∀ l w1 w2 p, T.req l w1 w2 p = none := by
    intro l w1 w2 p
    unfold RTech.req
    rw [hm]
    rfl
  have : v2vRanges T l (some v1) (some v2) dirX = [] := by
    unfold v2vRanges v2vMinSpc1 v2vMinSpc2 v2vMinCut v2vCutSpc
    simp only [hreq, hmc, spcRange, List.flatMap_nil]
    rw [if_neg hcut]
    cases h : ((T.interSame v1.cut v2.cut).or (T.interSame v2.cut v1.cut)).or ((T.interDiff v1.cut v2.cut).or (T.interDiff v2.cut v1.cut)) with
    | none => simp
    | some r =>
      have := hr r h
      simp [this]
  rw [this]
  rintro ⟨r, h, _⟩
  simp at h

/-- the hypotheses are met by two stacked vias with a rule of 40 between the layers -/
def techDemoInter : RTech := { techDemoRules with minSpc := fun _ => none, interDiff := fun a b => if a = 5 ∧ b = 3 then some { spacing := 40 } else none }

example : techDemoLow.cut ≠ techDemoHigh.cut ∧ techDemoLow.cutBox.Centred ∧ techDemoHigh.cutBox.Centred := by
  unfold Box.Centred; decide
example : isVia2Via (v2vTable techDemoInter 4 (some techDemoLow) (some techDemoHigh)) true false true 30 = some true := by decide

/-! ### entries of two-width tables -/

/-- entries do not decrease along rows and columns, and there is one for every pair of keys -/
def TwTbl.Grows (t : TwTbl) : Prop :=
  (∀ i, i < t.rows.length → ∀ j, j < t.rows.length → ∃ s, (t.vals[i]?).bind (fun l => l[j]?) = some s) ∧
  ∀ (i i' j j' : Nat) (s s' : Int), i ≤ i' → j ≤ j' → (t.vals[i]?).bind (fun l => l[j]?) = some s → (t.vals[i']?).bind (fun l => l[j']?) = some s' → s ≤ s'

/-- C38, what holds: on tables with sorted keys and growing entries a spacing is always found, and it is at least
the entry of every pair of rows that applies to the two shapes. Missing: it may be larger than the entry of
the last pair that applies (`c38_row_too_wide`). -/
theorem c38_never_too_small_partial {t : TwTbl} (hs : TwSorted t.rows) (hne : t.rows ≠ []) (hg : t.Grows) (w1 w2 p : Int) :
    ∃ s, t.find w1 w2 p = some s ∧ ∀ (i j : Nat) (r1 r2 : TwRow) (e : Int), t.rows[i]? = some r1 → t.rows[j]? = some r2 → r1.Applies w1 p → r2.Applies w2 p →
      (t.vals[i]?).bind (fun l => l[j]?) = some e → e ≤ s := by
  obtain ⟨_, a1, a2⟩ := c38_sorted_rows_partial hs w1 p
  obtain ⟨_, b1, b2⟩ := c38_sorted_rows_partial hs w2 p
  obtain ⟨s, hs'⟩ := hg.1 _ (a2 hne) _ (b2 hne)
  refine ⟨s, hs', ?_⟩
  intro i j r1 r2 e h1 h2 h3 h4 h5
  exact hg.2 _ _ _ _ _ _ (a1 i r1 h1 h3) (b1 j r2 h2 h4) h5 hs'

/-- the entry found belongs to the row of the first and the column of the second shape -/
example : (TwTbl.mk [⟨0, 0⟩, ⟨100, 50⟩] [[10, 20], [30, 40]]).find 60 200 0 = some 20 ∧
    (TwTbl.mk [⟨0, 0⟩, ⟨100, 50⟩] [[10, 20], [30, 40]]).find 200 60 0 = some 30 := by decide

example : TwSorted [⟨0, 0⟩, ⟨100, 50⟩] ∧ (TwTbl.mk [⟨0, 0⟩, ⟨100, 50⟩] [[10, 20], [30, 40]]).Grows := by
  refine ⟨by simp [TwSorted], ?_, ?_⟩
  · intro i hi j hj
    match i, j with
    | 0, 0 => exact ⟨10, rfl⟩
    | 0, 1 => exact ⟨20, rfl⟩
    | 1, 0 => exact ⟨30, rfl⟩
    | 1, 1 => exact ⟨40, rfl⟩
    | n + 2, _ => simp at hi; omega
    | 0, n + 2 => simp at hj; omega
    | 1, n + 2 => simp at hj; omega
  · intro i i' j j' s s' h1 h2 h3 h4
    match i', j' with
    | 0, 0 => obtain rfl : i = 0 := by omega
              obtain rfl : j = 0 := by omega
              simp at h3 h4; omega
    | 0, 1 => obtain rfl : i = 0 := by omega
              have : j = 0 ∨ j = 1 := by omega
              rcases this with rfl | rfl <;> simp at h3 h4 <;> omega
    | 1, 0 => obtain rfl : j = 0 := by omega
              have : i = 0 ∨ i = 1 := by omega
              rcases this with rfl | rfl <;> simp at h3 h4 <;> omega
    | 1, 1 => have hi : i = 0 ∨ i = 1 := by omega
              have hj : j = 0 ∨ j = 1 := by omega
              rcases hi with rfl | rfl <;> rcases hj with rfl | rfl <;> simp at h3 h4 <;> omega
    | n + 2, _ => simp at h4
    | 0, n + 2 => simp at h4
    | 1, n + 2 => simp at h4

end TR
