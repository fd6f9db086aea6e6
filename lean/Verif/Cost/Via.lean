import Verif.Cost.ViaEol
/-! C73: costs of vias near a shape; C74: costs in front of the ends of a shape. -/
namespace TR

theorem viaEol_mem {T : CTech} {l : Int} {box tmp : Box} {t u : CTgt} (h : u ∈ viaEol T l box tmp t) : u = t := by
  unfold viaEol at h
  rw [List.mem_flatMap] at h
  obtain ⟨b, _, h⟩ := h
  split at h
  · rwa [List.mem_singleton] at h
  · cases h

/-- metal of a default via of a technology -/
def CTech.ViaOk (T : CTech) (l : Int) (upper : Bool) (v : MzVia) : Prop := T.viaOf l upper = some v ∧ (v.metal upper).Thick

/-- C73: a node is charged for a via once if the via placed there would come closer to the shape than the spacing for the assumed run
length, and once more for each end of line of that via in front of which the shape lies; `q` is that spacing, `d` the one the window is
made for. -/
theorem c73_via (T : CTech) (g : Grid) (hs : g.Sorted) (sv : MIdx → Option MzVia) (box : Box) (hb : box.Proper) (z : Int)
    (upper grows blk : Bool) (v : MzVia) (hv : T.ViaOk (g.lay z) upper v) (heol : EolRulesOk (T.eol (g.lay z)))
    (hm : SpcMono T (g.lay z)) (i j : Nat) (p : Point) (hp : NodeAt g i j p) (sb : Box)
    (hsb : sb = match sv ⟨i, j, viaZ z upper⟩ with | some s => s.metal upper | none => v.metal upper)
    (hfit : FitsDefault (T.eol (g.lay z)) sb (v.metal upper)) (d q run : Int) (hq0 : 0 ≤ q)
    (hd : LayerSpacing T (g.lay z) (blk = true ∧ T.useMinObs = true ∧ ¬ Fat T (g.lay z) (v.metal upper)) box.width (v.metal upper).width
      (windowRun T (g.lay z) box (v.metal upper) grows) d)
    (hwithin : ∀ r ∈ T.eol (g.lay z), r.within ≤ d)
    (hrun : AssumedRun T (g.lay z) (v.metal upper) (sb.at p) box (patchLen T (g.lay z) (v.metal upper)) grows run)
    (hq : LayerSpacing T (g.lay z) (blk = true ∧ T.useMinObs = true ∧ ¬ Fat T (g.lay z) (v.metal upper)) box.width (v.metal upper).width run q) :
    ∃ k, (minSpcVia T g sv box z upper grows blk).count (⟨i, j, viaZ z upper⟩, true) = k + eolHits (T.eol (g.lay z)) (sb.at p) box ∧
      k ≤ 1 ∧ (k = 1 ↔ Closer (sb.at p) box q) := by
  obtain ⟨hv1, hv2⟩ := hv
  obtain ⟨hsp, hin, hends⟩ := hfit
  generalize hl : g.lay z = l at *
  generalize hvb : v.metal upper = vb at *
  have hvp : vb.Proper := by unfold Box.Thick at hv2; unfold Box.Proper; omega
  have hmp := at_proper hsp p
  have hle := viaPrl_le T l box vb sb p hvp hin grows
  have hrune : viaPrl T l box vb (sb.at p) grows = run := by
    have ha := viaPrl_assumed T l box vb (sb.at p) grows
    cases grows
    · rw [ha.1 rfl, hrun.1 rfl]
    · obtain ⟨a1, a2, a3⟩ := ha.2 rfl
      obtain ⟨b1, b2, b3⟩ := hrun.2 rfl
      unfold alongLen at a2 a3 b2 b3
      by_cases hx : sharedX box (sb.at p) < 0 ∧ sharedY box (sb.at p) < 0
      · rw [a1 hx.1 hx.2, b1 hx.1 hx.2]
      · by_cases hy : 0 ≤ sharedY box (sb.at p) ∧ sharedX box (sb.at p) ≤ sharedY box (sb.at p)
        · have u1 := a2 hy.1 hy.2
          have u2 := b2 hy.1 hy.2
          simp only at u1 u2
          split at u1
          · rename_i hc; rw [if_pos hc] at u2; rw [u1, u2]
          · rename_i hc; rw [if_neg hc] at u2; rw [u1, u2]
        · have u1 := a3 (by omega) (by omega)
          have u2 := b3 (by omega) (by omega)
          simp only at u1 u2
          split at u1
          · rename_i hc; rw [if_pos hc] at u2; rw [u1, u2]
          · rename_i hc; rw [if_neg hc] at u2; rw [u1, u2]
  have hqd : q ≤ d := layerSpacing_mono hm (hrune ▸ hle) hq hd
  have hd' : viaBloat T l box vb grows blk = some d := by
    unfold viaBloat
    exact (viaSpc_iff T l box vb blk _ d).2 hd
  have hq' : viaSpc T l box vb blk (viaPrl T l box vb (sb.at p) grows) = some q := by
    rw [hrune]
    exact (viaSpc_iff T l box vb blk _ q).2 hq
  have hhere : viaHere sv v upper ⟨i, j, viaZ z upper⟩ = sb := by
    rw [hsb]; unfold viaHere
    cases sv ⟨i, j, viaZ z upper⟩ with
    | none => exact hvb
    | some s => rfl
  have hcount : (minSpcVia T g sv box z upper grows blk).count (⟨i, j, viaZ z upper⟩, true) =
      if (Box.mk4 (box.left - max d (eolBloatX (T.eol l) vb) - vb.right + 1) (box.bottom - max d (eolBloatY (T.eol l) vb) - vb.top + 1)
        (box.right + max d (eolBloatX (T.eol l) vb) - vb.left - 1) (box.top + max d (eolBloatY (T.eol l) vb) - vb.bottom - 1)).Has p then
        (if cdist2 box (sb.at p) < q * q then 1 else 0) + eolHits (T.eol l) (sb.at p) box else 0 := by
    unfold minSpcVia
    simp only [hl, hv1, hvb, hd']
    rw [nodesIn_count g hs _ _ _ i j p hp _ ⟨rfl, rfl⟩]
    · simp only [hhere, hq', List.count_append, count_if]
      rw [viaEol_count T l box _ _ heol hmp]
    · intro n t ht
      rw [List.mem_append] at ht
      rcases ht with ht | ht
      · split at ht
        · split at ht
          · rw [List.mem_singleton] at ht; rw [ht]; exact ⟨rfl, rfl⟩
          · cases ht
        · cases ht
      · rw [viaEol_mem ht]; exact ⟨rfl, rfl⟩
  have hX := eolBloatX_ge (T.eol l) vb
  have hY := eolBloatY_ge (T.eol l) vb
  refine ⟨if cdist2 box (sb.at p) < q * q then 1 else 0, ?_, by split <;> omega, ?_⟩
  · rw [hcount]
    split
    · rfl
    · rename_i hout
      rw [mk4_has (by unfold Box.Thick at hv2; unfold Box.Proper at hb; omega) (by unfold Box.Thick at hv2; unfold Box.Proper at hb; omega)] at hout
      have h1 : ¬ cdist2 box (sb.at p) < q * q := by
        intro hc
        rw [cdist2_closer hb hmp] at hc
        have := closer_gaps hb hmp hq0 hc
        unfold cgapX cgapY Box.at at this
        unfold Box.Inside at hin
        simp only [Box.left, Box.right, Box.bottom, Box.top] at *
        omega
      rw [if_neg h1]
      rcases Nat.eq_zero_or_pos (eolHits (T.eol l) (sb.at p) box) with h0 | h0
      · rw [h0]
      · exfalso
        obtain ⟨r, hr, s, he, hz⟩ := eolHits_pos h0
        have he' := hends r hr s (by
          revert he; unfold EndSide Box.at; cases s <;> simp only [Box.left, Box.right, Box.bottom, Box.top] <;> omega)
        have hw := hwithin r hr
        have hok := heol r hr
        unfold Invades at hz
        unfold Box.Inside at hin
        unfold Box.Proper at hsp hb
        cases s
        all_goals
          simp only [EndSide] at he'
          first | have hsp2 := hX.2 r hr he' | have hsp2 := hY.2 r hr he'
          simp only [eolZone, Box.at, Box.left, Box.right, Box.bottom, Box.top] at *
          omega
  · rw [← cdist2_closer hmp hb]
    have : cdist2 (sb.at p) box = cdist2 box (sb.at p) := by
      unfold cdist2 cgapX cgapY
      rw [Int.max_comm box.left, Int.max_comm box.bottom, Int.min_comm box.right, Int.min_comm box.top]
    rw [this]
    split <;> simp_all

/-- C73: nothing else is charged -/
theorem c73_via_only (T : CTech) (g : Grid) (hs : g.Sorted) (sv : MIdx → Option MzVia) (box : Box) (z : Int) (upper grows blk : Bool) (t : CTgt)
    (ht : t ∈ minSpcVia T g sv box z upper grows blk) :
    (∃ v, T.viaOf (g.lay z) upper = some v) ∧ ∃ (i j : Nat) (p : Point), NodeAt g i j p ∧ t = (⟨i, j, viaZ z upper⟩, true) := by
  unfold minSpcVia at ht
  simp only at ht
  split at ht
  · cases ht
  · rename_i v hv
    refine ⟨⟨v, hv⟩, ?_⟩
    split at ht
    · cases ht
    · rw [List.mem_flatMap] at ht
      obtain ⟨n, hn, ht⟩ := ht
      obtain ⟨i, j, h1, h2, h3⟩ := mem_nodesIn g hs _ hn
      refine ⟨i, j, n.p, h3, ?_⟩
      rw [← h1, ← h2]
      rw [List.mem_append] at ht
      rcases ht with ht | ht
      · split at ht
        · split at ht
          · rwa [List.mem_singleton] at ht
          · cases ht
        · cases ht
      · exact viaEol_mem ht

/-- C73: at a node that is not charged the via keeps its distance: the spacing for the real run length, and no end of line of the via has
the shape in front of it.  `hlook`: the tables have entries. -/
theorem c73_clear (T : CTech) (g : Grid) (hs : g.Sorted) (sv : MIdx → Option MzVia) (box : Box) (hb : box.Proper) (z : Int)
    (upper grows : Bool) (v : MzVia) (hv : T.ViaOk (g.lay z) upper v) (heol : EolRulesOk (T.eol (g.lay z)))
    (hm : SpcMono T (g.lay z)) (i j : Nat) (p : Point) (hp : NodeAt g i j p) (sb : Box)
    (hsb : sb = match sv ⟨i, j, viaZ z upper⟩ with | some s => s.metal upper | none => v.metal upper)
    (hfit : FitsDefault (T.eol (g.lay z)) sb (v.metal upper))
    (hlook : ∀ run, ∃ q, 0 ≤ q ∧ LayerSpacing T (g.lay z) False box.width (v.metal upper).width run q ∧ ∀ r ∈ T.eol (g.lay z), r.within ≤ q)
    (hfree : (⟨i, j, viaZ z upper⟩, true) ∉ minSpcVia T g sv box z upper grows false) :
    (∀ e, LayerSpacing T (g.lay z) False box.width (v.metal upper).width (runLen box (sb.at p)) e → 0 ≤ e → ¬ Closer (sb.at p) box e) ∧
    ∀ r ∈ T.eol (g.lay z), ∀ s, ¬ EolClose r (sb.at p) box s := by
  have conv : ∀ {w1 w2 run q}, LayerSpacing T (g.lay z) False w1 w2 run q →
      LayerSpacing T (g.lay z) (false = true ∧ T.useMinObs = true ∧ ¬ Fat T (g.lay z) (v.metal upper)) w1 w2 run q := by
    rintro w1 w2 run q ⟨r, h1, h2, h3⟩
    exact ⟨r, h1, (fun h => (by cases h.1)), fun _ => h3 id⟩
  obtain ⟨d, _, hd, hwithin⟩ := hlook (windowRun T (g.lay z) box (v.metal upper) grows)
  obtain ⟨q, hq0, hq, _⟩ := hlook (viaPrl T (g.lay z) box (v.metal upper) (sb.at p) grows)
  have hrun := viaPrl_assumed T (g.lay z) box (v.metal upper) (sb.at p) grows
  obtain ⟨k, hk, _, hk2⟩ := c73_via T g hs sv box hb z upper grows false v hv heol hm i j p hp sb hsb hfit d q _ hq0 (conv hd) hwithin hrun (conv hq)
  rw [← List.count_eq_zero] at hfree
  rw [hfree] at hk
  refine ⟨?_, eolHits_zero (by omega)⟩
  intro e he he0 hc
  have hle : runLen box (sb.at p) ≤ viaPrl T (g.lay z) box (v.metal upper) (sb.at p) grows := by
    have hin := hfit.2.1
    have e1 : sharedX box (sb.at p) ≤ (v.metal upper).right - (v.metal upper).left := by
      unfold sharedX Box.at; unfold Box.Inside at hin
      simp only [Box.left, Box.right, Box.bottom, Box.top] at *; omega
    have e2 : sharedY box (sb.at p) ≤ (v.metal upper).top - (v.metal upper).bottom := by
      unfold sharedY Box.at; unfold Box.Inside at hin
      simp only [Box.left, Box.right, Box.bottom, Box.top] at *; omega
    unfold viaPrl runLen
    rw [cgapX_eq, cgapY_eq]
    simp only [Int.neg_neg]
    generalize sharedX box (sb.at p) = sx at *
    generalize sharedY box (sb.at p) = sy at *
    split
    · split
      · split <;> omega
      · split
        · split <;> omega
        · omega
    · omega
  have : e ≤ q := layerSpacing_mono hm hle he hq
  have := hk2.2 (closer_mono he0 this hc)
  omega

example : exCTech.ViaOk (exCGrid.lay 0) true exVia ∧ EolRulesOk (exCTech.eol (exCGrid.lay 0)) ∧
    FitsDefault (exCTech.eol (exCGrid.lay 0)) (exVia.metal true) (exVia.metal true) ∧
    (∀ r ∈ exCTech.eol (exCGrid.lay 0), r.within ≤ 50) ∧
    AssumedRun exCTech (exCGrid.lay 0) (exVia.metal true) ((exVia.metal true).at ⟨100, 100⟩) ⟨⟨0, 0⟩, ⟨240, 40⟩⟩
      (patchLen exCTech (exCGrid.lay 0) (exVia.metal true)) true 100 ∧
    LayerSpacing exCTech (exCGrid.lay 0) False 40 40 100 50 ∧
    (minSpcVia exCTech exCGrid (fun _ => none) ⟨⟨0, 0⟩, ⟨240, 40⟩⟩ 0 true true false).count (⟨1, 1, 0⟩, true) = 1 ∧
    (minSpcVia exCTech exCGrid (fun _ => none) ⟨⟨0, -20⟩, ⟨240, 20⟩⟩ 0 true true false).count (⟨1, 1, 0⟩, true) = 0 ∧
    (minSpcVia exCTech exCGrid (fun _ => none) ⟨⟨140, 80⟩, ⟨240, 120⟩⟩ 0 true true false).count (⟨1, 1, 0⟩, true) = 2 := by
  refine ⟨⟨rfl, by unfold Box.Thick; decide⟩, by unfold EolRulesOk; decide, ⟨by unfold Box.Proper; decide, by unfold Box.Inside; decide,
    fun _ _ _ h => h⟩, by decide, ⟨by simp, fun _ => ⟨by decide, (fun h => absurd h (by decide)), fun _ _ => by unfold alongLen; decide⟩⟩, ⟨_, rfl, by simp, fun _ => by decide⟩, by decide, by decide, by decide⟩

/-- C73: the window is made for the default via: a special access via with larger metal is missed although its metal overlaps the shape -/
theorem c73_special_via_missed : ∃ (T : CTech) (g : Grid) (sv : MIdx → Option MzVia) (s : MzVia) (box : Box) (p : Point), g.Sorted ∧ box.Proper ∧
    NodeAt g 1 1 p ∧ sv ⟨1, 1, 0⟩ = some s ∧ Invades (s.l1.at p) box ∧ minSpcVia T g sv box 0 true true false = [] := by
  refine ⟨{ exCTech with spc := fun _ => some (.fixed 10), eol := fun _ => [] }, exCGrid,
    fun m => if m = ⟨1, 1, 0⟩ then some ⟨⟨⟨-80, -20⟩, ⟨80, 20⟩⟩, exVia.l2, exVia.cuts⟩ else none,
    ⟨⟨⟨-80, -20⟩, ⟨80, 20⟩⟩, exVia.l2, exVia.cuts⟩, ⟨⟨150, 90⟩, ⟨155, 110⟩⟩, ⟨100, 100⟩, by unfold Grid.Sorted StrictInc; decide,
    by unfold Box.Proper; decide, ⟨rfl, rfl⟩, rfl, by unfold Invades; decide, by decide⟩

/-- C73: the window does not allow for the sideways reach of an end-of-line rule that exceeds the spacing -/
theorem c73_within_missed : ∃ (T : CTech) (g : Grid) (box : Box) (p : Point) (r : EolRule) (v : MzVia), g.Sorted ∧ box.Proper ∧
    NodeAt g 1 1 p ∧ T.eol (g.lay 0) = [r] ∧ T.viaOf (g.lay 0) true = some v ∧ EolClose r (v.l1.at p) box .right ∧
    minSpcVia T g (fun _ => none) box 0 true true false = [] := by
  refine ⟨{ exCTech with spc := fun _ => some (.fixed 10), eol := fun _ => [⟨0, 20, 50, 40, 0, 0, false⟩] }, exCGrid,
    ⟨⟨135, 135⟩, ⟨145, 145⟩⟩, ⟨100, 100⟩, _, exVia, by unfold Grid.Sorted StrictInc; decide,
    by unfold Box.Proper; decide, ⟨rfl, rfl⟩, rfl, rfl, by unfold EolClose EndSide Invades; decide, by decide⟩

/-! ## C74 -/

theorem count_map_node (l : List CNode) (f : CNode → CTgt) : l.map f = l.flatMap fun n => [f n] := by
  induction l with
  | nil => rfl
  | cons a l ih => rw [List.map_cons, ih]; rfl

theorem eolPlanar_count (T : CTech) (g : Grid) (hs : g.Sorted) (tb : Box) (ht : tb.Proper) (z : Int) (hw : 2 ≤ T.width (g.lay z)) (i j : Nat) (p : Point)
    (hp : NodeAt g i j p) : (eolPlanar T g tb z).count (⟨i, j, z⟩, false) =
      if Invades tb (wireSq p (T.width (g.lay z) / 2)) then 1 else 0 := by
  unfold eolPlanar
  simp only
  rw [tdiv2 (by omega), count_map_node, nodesIn_count g hs _ _ _ i j p hp _ ⟨rfl, rfl⟩]
  · unfold Box.Proper at ht
    rw [List.count_singleton_self]
    have e : (Box.mk4 (tb.left - T.width (g.lay z) / 2 + 1) (tb.bottom - T.width (g.lay z) / 2 + 1) (tb.right + T.width (g.lay z) / 2 - 1)
        (tb.top + T.width (g.lay z) / 2 - 1)).Has p ↔ Invades tb (wireSq p (T.width (g.lay z) / 2)) := by
      rw [mk4_has (by omega) (by omega)]
      unfold Invades wireSq
      simp only [Box.left, Box.right, Box.bottom, Box.top] at *
      omega
    simp only [e]
  · intro n t ht
    rw [List.mem_singleton] at ht; rw [ht]; exact ⟨rfl, rfl⟩

theorem eolViaCost_mem {T : CTech} {g : Grid} (hs : g.Sorted) {sv : MIdx → Option MzVia} {tb : Box} {z : Int} {upper : Bool} {t : CTgt}
    (ht : t ∈ eolViaCost T g sv tb z upper) : (∃ v, T.viaOf (g.lay z) upper = some v) ∧
      ∃ (i j : Nat) (p : Point), NodeAt g i j p ∧ t = (⟨i, j, viaZ z upper⟩, true) := by
  unfold eolViaCost at ht
  split at ht
  · cases ht
  · rename_i v hv
    simp only [List.mem_flatMap] at ht
    obtain ⟨n, hn, ht⟩ := ht
    obtain ⟨i, j, h1, h2, h3⟩ := mem_nodesIn g hs _ hn
    refine ⟨⟨v, hv⟩, i, j, n.p, h3, ?_⟩
    rw [← h1, ← h2]
    split at ht
    · split at ht
      · rwa [List.mem_singleton] at ht
      · cases ht
    · rwa [List.mem_singleton] at ht

theorem eolPlanar_mem {T : CTech} {g : Grid} (hs : g.Sorted) {tb : Box} {z : Int} {t : CTgt}
    (ht : t ∈ eolPlanar T g tb z) : ∃ (i j : Nat) (p : Point), NodeAt g i j p ∧ t = (⟨i, j, z⟩, false) := by
  unfold eolPlanar at ht
  simp only [List.mem_map] at ht
  obtain ⟨n, hn, rfl⟩ := ht
  obtain ⟨i, j, h1, h2, h3⟩ := mem_nodesIn g hs _ hn
  exact ⟨i, j, n.p, h3, by rw [h1, h2]⟩

theorem eolViaCost_count (T : CTech) (g : Grid) (hs : g.Sorted) (sv : MIdx → Option MzVia) (tb : Box) (htb : tb.Proper) (z : Int) (upper : Bool)
    (v : MzVia) (hv : T.ViaOk (g.lay z) upper v) (i j : Nat) (p : Point) (hp : NodeAt g i j p) (sb : Box)
    (hsb : sb = match sv ⟨i, j, viaZ z upper⟩ with | some s => s.metal upper | none => v.metal upper) (hin : sb.Inside (v.metal upper)) :
    (eolViaCost T g sv tb z upper).count (⟨i, j, viaZ z upper⟩, true) = if Invades tb (sb.at p) then 1 else 0 := by
  obtain ⟨hv1, hv2⟩ := hv
  unfold eolViaCost
  rw [hv1]
  simp only
  generalize hvb : v.metal upper = vb at *
  have hwin : (Box.mk4 (tb.left - vb.right + 1) (tb.bottom - vb.top + 1) (tb.right - vb.left - 1) (tb.top - vb.bottom - 1)).Has p ↔ Invades tb (vb.at p) := by
    unfold Box.Thick at hv2
    unfold Box.Proper at htb
    rw [mk4_has (by omega) (by omega)]
    unfold Invades Box.at
    simp only [Box.left, Box.right, Box.bottom, Box.top] at *
    omega
  have hsub : Invades tb (sb.at p) → Invades tb (vb.at p) := by
    unfold Invades Box.at; unfold Box.Inside at hin
    simp only [Box.left, Box.right, Box.bottom, Box.top] at *
    omega
  rw [nodesIn_count g hs _ _ _ i j p hp _ ⟨rfl, rfl⟩]
  · simp only [hwin]
    cases hsv : sv ⟨i, j, viaZ z upper⟩ with
    | none =>
      rw [hsv] at hsb
      simp only at hsb
      subst hsb
      simp
    | some s =>
      rw [hsv] at hsb
      simp only at hsb
      subst hsb
      simp only [count_if]
      have e : ((s.metal upper).at p).overlaps tb false = true ↔ Invades tb ((s.metal upper).at p) := by
        rw [overlaps_invades]; unfold Invades; omega
      simp only [e]
      split
      · rfl
      · rename_i h
        rw [if_neg (fun h' => h (hsub h'))]
  · intro n t ht
    split at ht
    · split at ht
      · rw [List.mem_singleton] at ht; rw [ht]; exact ⟨rfl, rfl⟩
      · cases ht
    · rw [List.mem_singleton] at ht; rw [ht]; exact ⟨rfl, rfl⟩

theorem sum_ite_countP {α : Type} (l : List α) (P : α → Prop) [DecidablePred P] :
    (l.map fun a => if P a then 1 else 0).sum = l.countP fun a => decide (P a) := by
  induction l with
  | nil => rfl
  | cons a l ih =>
    rw [List.map_cons, List.sum_cons, ih, List.countP_cons]
    simp only [decide_eq_true_eq]
    omega

theorem eolBoxes_proper {rules : List EolRule} {m tb : Box} (h : tb ∈ eolBoxes rules m) : tb.Proper := by
  have gen : ∀ a b c d : Int, (Box.mk4 a b c d).Proper := by
    intro a b c d
    unfold Box.mk4 Box.Proper
    simp only [Box.left, Box.right, Box.bottom, Box.top]
    constructor <;> split <;> omega
  unfold eolBoxes at h
  rw [List.mem_flatMap] at h
  obtain ⟨r, _, h⟩ := h
  rw [List.mem_append] at h
  rcases h with h | h
  all_goals
    split at h
    · simp only [List.mem_cons, List.not_mem_nil, or_false] at h
      rcases h with h | h <;> rw [h] <;> exact gen _ _ _ _
    · cases h

/-- C74: a node is charged for a wire once for every end of line of the shape in front of which a wire of default width would lie there. -/
theorem c74_planar (T : CTech) (g : Grid) (hs : g.Sorted) (sv : MIdx → Option MzVia) (box : Box) (hb : box.Proper) (z : Int) (skip : Bool)
    (heol : EolRulesOk (T.eol (g.lay z))) (hw : 2 ≤ T.width (g.lay z)) (i j : Nat) (p : Point) (hp : NodeAt g i j p) :
    (eolSpc T g sv box z skip).count (⟨i, j, z⟩, false) = eolHits (T.eol (g.lay z)) box (wireSq p (T.width (g.lay z) / 2)) := by
  rw [← eolBoxes_countP heol hb _ (fun b => decide (Invades b (wireSq p (T.width (g.lay z) / 2)))) (fun _ => rfl), ← sum_ite_countP]
  unfold eolSpc
  rw [List.count_flatMap]
  congr 1
  apply List.map_congr_left
  intro tb htb
  simp only [Function.comp]
  rw [List.count_append, eolPlanar_count T g hs tb (eolBoxes_proper htb) z hw i j p hp]
  have : (if skip = true then [] else eolViaCost T g sv tb z false ++ eolViaCost T g sv tb z true).count ((⟨i, j, z⟩, false) : CTgt) = 0 := by
    rw [List.count_eq_zero]
    intro h
    split at h
    · cases h
    · rw [List.mem_append] at h
      rcases h with h | h <;> obtain ⟨_, _, _, _, _, e⟩ := eolViaCost_mem hs h <;> simp at e
  omega

/-- C74: a node is charged for a via once for every end of line of the shape in front of which the via placed there would lie, unless vias
are left out (`skip`). -/
theorem c74_via (T : CTech) (g : Grid) (hs : g.Sorted) (sv : MIdx → Option MzVia) (box : Box) (hb : box.Proper) (z : Int) (skip : Bool)
    (heol : EolRulesOk (T.eol (g.lay z))) (upper : Bool) (v : MzVia) (hv : T.ViaOk (g.lay z) upper v) (i j : Nat) (p : Point)
    (hp : NodeAt g i j p) (sb : Box) (hsb : sb = match sv ⟨i, j, viaZ z upper⟩ with | some s => s.metal upper | none => v.metal upper)
    (hin : sb.Inside (v.metal upper)) :
    (eolSpc T g sv box z skip).count (⟨i, j, viaZ z upper⟩, true) =
      if skip = true then 0 else eolHits (T.eol (g.lay z)) box (sb.at p) := by
  have hpl : ∀ tb, (eolPlanar T g tb z).count ((⟨i, j, viaZ z upper⟩, true) : CTgt) = 0 := by
    intro tb
    rw [List.count_eq_zero]
    intro h
    obtain ⟨_, _, _, _, e⟩ := eolPlanar_mem hs h
    simp at e
  have hoth : ∀ tb, (eolViaCost T g sv tb z (!upper)).count ((⟨i, j, viaZ z upper⟩, true) : CTgt) = 0 := by
    intro tb
    rw [List.count_eq_zero]
    intro h
    obtain ⟨_, _, _, _, _, e⟩ := eolViaCost_mem hs h
    simp only [Prod.mk.injEq, MIdx.mk.injEq] at e
    revert e
    cases upper <;> simp [viaZ] <;> omega
  unfold eolSpc
  rw [List.count_flatMap]
  cases skip
  · simp only [Bool.false_eq_true, if_false]
    rw [← eolBoxes_countP heol hb _ (fun b => decide (Invades b (sb.at p))) (fun _ => rfl), ← sum_ite_countP]
    congr 1
    apply List.map_congr_left
    intro tb htb
    simp only [Function.comp, List.count_append]
    rw [hpl]
    have hme := eolViaCost_count T g hs sv tb (eolBoxes_proper htb) z upper v hv i j p hp sb hsb hin
    have ho := hoth tb
    cases upper
    · rw [hme]; simp only [Bool.not_false] at ho; rw [ho]; omega
    · rw [hme]; simp only [Bool.not_true] at ho; rw [ho]; omega
  · simp only [if_true, List.append_nil]
    have : (eolBoxes (T.eol (g.lay z)) box).map (List.count ((⟨i, j, viaZ z upper⟩, true) : CTgt) ∘ fun tb => eolPlanar T g tb z) =
        (eolBoxes (T.eol (g.lay z)) box).map (fun _ => 0) := by
      apply List.map_congr_left
      intro tb _
      exact hpl tb
    rw [this]
    generalize eolBoxes (T.eol (g.lay z)) box = L
    induction L with
    | nil => rfl
    | cons a L ih => rw [List.map_cons, List.sum_cons, ih]

/-- C74: nothing else is charged -/
theorem c74_only (T : CTech) (g : Grid) (hs : g.Sorted) (sv : MIdx → Option MzVia) (box : Box) (z : Int) (skip : Bool) (t : CTgt)
    (ht : t ∈ eolSpc T g sv box z skip) : ∃ (i j : Nat) (p : Point), NodeAt g i j p ∧
      (t = (⟨i, j, z⟩, false) ∨ ∃ upper v, T.viaOf (g.lay z) upper = some v ∧ t = (⟨i, j, viaZ z upper⟩, true)) := by
  unfold eolSpc at ht
  rw [List.mem_flatMap] at ht
  obtain ⟨tb, _, ht⟩ := ht
  rw [List.mem_append] at ht
  rcases ht with ht | ht
  · obtain ⟨i, j, p, h, e⟩ := eolPlanar_mem hs ht
    exact ⟨i, j, p, h, Or.inl e⟩
  · split at ht
    · cases ht
    · rw [List.mem_append] at ht
      rcases ht with ht | ht <;> obtain ⟨⟨v, hv⟩, i, j, p, h, e⟩ := eolViaCost_mem hs ht
      · exact ⟨i, j, p, h, Or.inr ⟨_, v, hv, e⟩⟩
      · exact ⟨i, j, p, h, Or.inr ⟨_, v, hv, e⟩⟩

example : exVia.l1.Inside (exVia.metal true) ∧ EolRulesOk (exCTech.eol 2) ∧
    (eolSpc exCTech exCGrid (fun _ => none) ⟨⟨0, 80⟩, ⟨40, 120⟩⟩ 0 false).count (⟨1, 1, 0⟩, false) = 1 ∧
    (eolSpc exCTech exCGrid (fun _ => none) ⟨⟨0, 80⟩, ⟨40, 120⟩⟩ 0 false).count (⟨1, 1, 0⟩, true) = 1 ∧
    (eolSpc exCTech exCGrid (fun _ => none) ⟨⟨0, 80⟩, ⟨40, 120⟩⟩ 0 false).count (⟨2, 1, 0⟩, true) = 0 := by
  refine ⟨by unfold Box.Inside; decide, by unfold EolRulesOk; decide, by decide, by decide, by decide⟩

end TR
