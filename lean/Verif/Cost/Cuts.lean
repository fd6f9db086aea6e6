import Verif.Cost.Via
/-! C75: costs of vias near cuts; C76: costs of vias on wide shapes. -/
namespace TR

theorem centre_between {l r : Int} (h : l ≤ r) : l ≤ (l + r).tdiv 2 ∧ (l + r).tdiv 2 ≤ r := by
  rcases Int.le_total 0 (l + r) with h0 | h0
  · rw [Int.tdiv_eq_ediv_of_nonneg h0]; omega
  · have e : (l + r).tdiv 2 = -((-(l + r)).tdiv 2) := by rw [Int.neg_tdiv, Int.neg_neg]
    rw [e, Int.tdiv_eq_ediv_of_nonneg (by omega)]; omega

theorem cutRuleDist2_near (r : CutSpRule) {a b : Box} (ha : a.Proper) (hb : b.Proper) (d : Int) :
    cutRuleDist2 r a b < d * d ↔ CutNear r.c2c a b d := by
  unfold cutRuleDist2 CutNear
  cases hc : r.c2c
  · simp only [Bool.false_eq_true, if_false, false_and, false_or, true_and]
    exact cdist2_closer ha hb d
  · simp only [if_true, true_and, Bool.true_eq_false, false_and, or_false]
    unfold ptDist2
    constructor
    · intro h
      exact ⟨boxCentre a, boxCentre b, ⟨rfl, rfl⟩, ⟨rfl, rfl⟩, h⟩
    · rintro ⟨p, q, ⟨h1, h2⟩, ⟨h3, h4⟩, h⟩
      unfold boxCentre
      simp only
      rw [← h1, ← h2, ← h3, ← h4]
      exact h

theorem abs_lt_of_sq {u v d : Int} (hd : 0 ≤ d) (h : u * u + v * v < d * d) : (-d < u ∧ u < d) ∧ (-d < v ∧ v < d) := by
  have n1 := sq_nonneg u
  have n2 := sq_nonneg v
  have a1 := sq_lt_of_lt hd (show u * u < d * d by omega)
  have a2 := sq_lt_of_lt hd (show v * v < d * d by omega)
  have b1 := sq_lt_of_lt hd (show (-u) * (-u) < d * d by rw [Int.neg_mul_neg]; omega)
  have b2 := sq_lt_of_lt hd (show (-v) * (-v) < d * d by rw [Int.neg_mul_neg]; omega)
  omega

/-- two cuts closer than `d`, by nearest points or by centres, are less than `d` apart along both axes -/
theorem cutNear_gaps {c2c : Bool} {a b : Box} (ha : a.Proper) (hb : b.Proper) {d : Int} (hd : 0 ≤ d) (h : CutNear c2c a b d) :
    a.left < b.right + d ∧ b.left < a.right + d ∧ a.bottom < b.top + d ∧ b.bottom < a.top + d := by
  rcases h with ⟨_, p, q, ⟨h1, h2⟩, ⟨h3, h4⟩, h⟩ | ⟨_, h⟩
  · have := abs_lt_of_sq hd h
    have e1 := centre_between ha.1
    have e2 := centre_between ha.2
    have e3 := centre_between hb.1
    have e4 := centre_between hb.2
    rw [← h1] at e1; rw [← h2] at e2; rw [← h3] at e3; rw [← h4] at e4
    omega
  · have := closer_gaps ha hb hd h
    unfold cgapX cgapY at this
    omega

theorem mk4_covers {a c : Box} (h : c.Inside a) : c.Inside (Box.mk4 a.left a.bottom a.right a.top) := by
  unfold Box.mk4 Box.Inside at *
  simp only [Box.left, Box.right, Box.bottom, Box.top] at *
  refine ⟨?_, ?_, ?_, ?_⟩ <;> split <;> omega

theorem cutBox_covers (v : MzVia) : ∀ c ∈ v.cuts, c.Inside v.cutBox := by
  have gen : ∀ (bs : List Box) (a : Box), a.Inside (bs.foldl (fun (a : Box) c => ⟨⟨min a.left c.left, min a.bottom c.bottom⟩, ⟨max a.right c.right, max a.top c.top⟩⟩) a) ∧
      ∀ c ∈ bs, c.Inside (bs.foldl (fun (a : Box) c => ⟨⟨min a.left c.left, min a.bottom c.bottom⟩, ⟨max a.right c.right, max a.top c.top⟩⟩) a) := by
    intro bs
    induction bs with
    | nil => intro a; exact ⟨⟨Int.le_refl _, Int.le_refl _, Int.le_refl _, Int.le_refl _⟩, by simp⟩
    | cons b bs ih =>
      intro a
      rw [List.foldl_cons]
      obtain ⟨h1, h2⟩ := ih ⟨⟨min a.left b.left, min a.bottom b.bottom⟩, ⟨max a.right b.right, max a.top b.top⟩⟩
      have tr : ∀ x : Box, x.Inside ⟨⟨min a.left b.left, min a.bottom b.bottom⟩, ⟨max a.right b.right, max a.top b.top⟩⟩ →
          x.Inside (bs.foldl (fun (a : Box) c => ⟨⟨min a.left c.left, min a.bottom c.bottom⟩, ⟨max a.right c.right, max a.top c.top⟩⟩)
            ⟨⟨min a.left b.left, min a.bottom b.bottom⟩, ⟨max a.right b.right, max a.top b.top⟩⟩) := by
        intro x hx
        exact ⟨Int.le_trans h1.1 hx.1, Int.le_trans hx.2.1 h1.2.1, Int.le_trans h1.2.2.1 hx.2.2.1, Int.le_trans hx.2.2.2 h1.2.2.2⟩
      refine ⟨tr a ?_, ?_⟩
      · unfold Box.Inside; simp only [Box.left, Box.right, Box.bottom, Box.top]; omega
      · intro c hc
        rcases List.mem_cons.1 hc with rfl | hc
        · apply tr
          unfold Box.Inside; simp only [Box.left, Box.right, Box.bottom, Box.top]; omega
        · exact h2 c hc
  intro c hc
  unfold MzVia.cutBox
  cases hcs : v.cuts with
  | nil => rw [hcs] at hc; cases hc
  | cons b bs =>
    rw [hcs] at hc
    simp only
    apply mk4_covers
    rcases List.mem_cons.1 hc with rfl | hc
    · exact (gen bs c).1
    · exact (gen bs b).2 c hc

theorem cutBox_thick {v : MzVia} (h : v.CutsOk) : v.cutBox.Thick := by
  obtain ⟨_, c, hc, ht⟩ := h
  have := cutBox_covers v c hc
  unfold Box.Inside at this
  unfold Box.Thick at *
  omega

theorem cutBloat_ge (rules : List CutSpRule) (blk : Bool) : 0 ≤ cutBloat rules blk ∧
    ∀ r ∈ rules, r.spacing ≤ cutBloat rules blk ∧ (r.adj.isSome = true → blk = true → r.within ≤ cutBloat rules blk) := by
  unfold cutBloat
  have gen : ∀ (rules : List CutSpRule) (a : Int), a ≤ rules.foldl (fun a r => let a := max a r.spacing; if r.adj.isSome && blk then max a r.within else a) a ∧
      ∀ r ∈ rules, r.spacing ≤ rules.foldl (fun a r => let a := max a r.spacing; if r.adj.isSome && blk then max a r.within else a) a ∧
        (r.adj.isSome = true → blk = true → r.within ≤ rules.foldl (fun a r => let a := max a r.spacing; if r.adj.isSome && blk then max a r.within else a) a) := by
    intro rules
    induction rules with
    | nil => intro a; exact ⟨Int.le_refl _, by simp⟩
    | cons r rules ih =>
      intro a
      rw [List.foldl_cons]
      have h := ih (let a := max a r.spacing; if r.adj.isSome && blk then max a r.within else a)
      have h1 : max a r.spacing ≤ (let a := max a r.spacing; if r.adj.isSome && blk then max a r.within else a) := by
        simp only; split <;> omega
      refine ⟨Int.le_trans (by omega) (Int.le_trans h1 h.1), ?_⟩
      intro r' hr'
      rcases List.mem_cons.1 hr' with rfl | hr'
      · refine ⟨Int.le_trans (by omega) (Int.le_trans h1 h.1), ?_⟩
        intro ha hb
        refine Int.le_trans ?_ h.1
        simp only [ha, hb, Bool.and_self, if_true]
        omega
      · exact h.2 r' hr'
  exact gen rules 0

theorem area_pos {a b : Int} (hab : 0 ≤ a) : a * b ≥ 1 ↔ 0 < a * b := by omega

theorem cutRuleHit_iff (r : CutSpRule) (box c : Box) (blk : Bool) (hb : box.Proper) (hc : c.Proper) :
    cutRuleHit r box c blk = true ↔ CutForbids r blk box c := by
  unfold cutRuleHit CutForbids
  simp only
  have hne1 : 0 ≤ box.length * box.width := by
    unfold Box.Proper at hb
    exact Int.mul_nonneg (by unfold Box.length; omega) (by unfold Box.width; omega)
  cases h1 : r.sameNet
  · simp only [Bool.false_eq_true, if_false, true_and]
    cases h2 : r.second with
    | some x => simp
    | none =>
      simp only [Option.isSome_none, Bool.false_eq_true, if_false, true_and]
      cases h3 : r.adj with
      | some k =>
        simp only [Option.isSome_some, if_true, decide_eq_true_iff, true_implies, reduceCtorEq, false_implies, and_true]
        cases blk
        · simp only [Bool.false_eq_true, if_false]; exact cutRuleDist2_near r hb hc _
        · simp only [if_true]; exact cutRuleDist2_near r hb hc _
      | none =>
        simp only [Option.isSome_none, Bool.false_eq_true, if_false, false_implies, true_and, true_implies]
        cases h4 : r.parOverlap
        · simp only [Bool.false_eq_true, if_false, false_implies, true_and, true_implies]
          by_cases h5 : r.area = -1
          · rw [if_neg (by omega)]
            simp only [h5, decide_eq_true_iff, ne_eq, not_true_eq_false, false_implies, and_true]
            exact cutRuleDist2_near r hb hc _
          · rw [if_pos h5]
            simp only [Bool.and_eq_true, decide_eq_true_iff, cutRuleDist2_near r hb hc]
            rw [and_comm]
            refine and_congr_right (fun _ => ?_)
            by_cases h6 : r.area = 0
            · rw [if_pos h6]
              constructor
              · intro _ _ h; exact absurd h6 h
              · intro _; omega
            · rw [if_neg h6]
              rw [Int.mul_comm box.width, Int.mul_comm c.width]
              constructor
              · intro h _ _; omega
              · intro h; have := h h5 h6; omega
        · simp only [if_true, Bool.and_eq_true, decide_eq_true_iff, cutRuleDist2_near r hb hc, true_implies, Bool.true_eq_false, false_implies, and_true]
          rw [cgapX_eq, cgapY_eq, Int.neg_neg, Int.neg_neg]
          unfold runLen
          rw [and_comm]
  · simp

theorem cutForbids_near {r : CutSpRule} {blk : Bool} {box c : Box} (h : CutForbids r blk box c) :
    CutNear r.c2c box c r.spacing ∨ (r.adj.isSome = true ∧ blk = true ∧ CutNear r.c2c box c r.within) := by
  obtain ⟨_, _, h1, h2⟩ := h
  cases ha : r.adj with
  | none => exact Or.inl (h2 ha).1
  | some k =>
    rw [ha] at h1
    have := h1 rfl
    cases blk
    · exact Or.inl (by simpa using this)
    · exact Or.inr ⟨rfl, rfl, by simpa using this⟩

def CutRulesOk (rules : List CutSpRule) : Prop := ∀ r ∈ rules, 0 ≤ r.spacing ∧ 0 ≤ r.within

theorem inCutWindow {box c cb : Box} {p : Point} {d : Int} (hb : box.Proper) (hcb : cb.Thick) (hd : 0 ≤ d) (hin : c.Inside cb)
    (h1 : box.left < (c.at p).right + d) (h2 : (c.at p).left < box.right + d) (h3 : box.bottom < (c.at p).top + d) (h4 : (c.at p).bottom < box.top + d) :
    (cutWindow box cb d).Has p := by
  unfold cutWindow
  unfold Box.Thick at hcb
  unfold Box.Proper at hb
  rw [mk4_has (by omega) (by omega)]
  unfold Box.Inside at hin
  simp only [Box.at, Box.left, Box.right, Box.bottom, Box.top] at *
  omega

/-- C75: next to a cut, a node is charged for a via once for every cut of the default via that some rule of the layer would forbid there. -/
theorem c75_cut (T : CTech) (g : Grid) (hs : g.Sorted) (box : Box) (hb : box.Proper) (z : Int) (blk : Bool) (v : MzVia)
    (hv : T.via (g.lay z + 1) = some v) (hcuts : v.CutsOk) (hr : CutRulesOk (T.cut (g.lay z + 1))) (i j : Nat) (p : Point) (hp : NodeAt g i j p)
    (forbidden : Box → Bool) (hforb : ∀ c, forbidden c = true ↔ ∃ r ∈ T.cut (g.lay z + 1), CutForbids r blk box (c.at p)) :
    (cutSpcCost T g box z blk).count (⟨i, j, z⟩, true) = v.cuts.countP forbidden := by
  unfold cutSpcCost
  simp only [hv]
  have hany : ∀ c ∈ v.cuts, ((T.cut (g.lay z + 1)).any (fun r => cutRuleHit r box (c.at p) blk) = true ↔
      ∃ r ∈ T.cut (g.lay z + 1), CutForbids r blk box (c.at p)) := by
    intro c hc
    rw [List.any_eq_true]
    constructor
    · rintro ⟨r, h1, h2⟩; exact ⟨r, h1, (cutRuleHit_iff r box _ blk hb (at_proper (hcuts.1 c hc) p)).1 h2⟩
    · rintro ⟨r, h1, h2⟩; exact ⟨r, h1, (cutRuleHit_iff r box _ blk hb (at_proper (hcuts.1 c hc) p)).2 h2⟩
  split
  · rename_i he
    rw [List.isEmpty_iff] at he
    symm
    rw [show List.count _ [] = 0 from rfl, List.countP_eq_zero]
    intro c _ hex
    obtain ⟨r, hr1, _⟩ := (hforb c).1 hex
    rw [he] at hr1
    cases hr1
  · rw [nodesIn_count g hs _ _ _ i j p hp _ ⟨rfl, rfl⟩]
    · rw [count_flatMap_if]
      split
      · apply List.countP_congr
        intro c hc
        exact (hany c hc).trans (hforb c).symm
      · rename_i hout
        symm
        rw [List.countP_eq_zero]
        intro c hc hex
        apply hout
        replace hex := (hforb c).1 hex
        obtain ⟨r, hr1, hf⟩ := hex
        have hcp := at_proper (hcuts.1 c hc) p
        have hge := cutBloat_ge (T.cut (g.lay z + 1)) blk
        have hge2 := hge.2 r hr1
        rcases cutForbids_near hf with hn | ⟨ha, hbk, hn⟩
        · have := cutNear_gaps hb hcp (hr r hr1).1 hn
          exact inCutWindow hb (cutBox_thick hcuts) hge.1 (cutBox_covers v c hc) (by omega) (by omega) (by omega) (by omega)
        · have := cutNear_gaps hb hcp (hr r hr1).2 hn
          have h5 := hge2.2 ha hbk
          exact inCutWindow hb (cutBox_thick hcuts) hge.1 (cutBox_covers v c hc) (by omega) (by omega) (by omega) (by omega)
    · intro n t ht
      rw [List.mem_flatMap] at ht
      obtain ⟨c, _, ht⟩ := ht
      split at ht
      · rw [List.mem_singleton] at ht; rw [ht]; exact ⟨rfl, rfl⟩
      · cases ht

theorem c75_cut_only (T : CTech) (g : Grid) (hs : g.Sorted) (box : Box) (z : Int) (blk : Bool) (t : CTgt) (ht : t ∈ cutSpcCost T g box z blk) :
    (∃ v, T.via (g.lay z + 1) = some v) ∧ ∃ (i j : Nat) (p : Point), NodeAt g i j p ∧ t = (⟨i, j, z⟩, true) := by
  unfold cutSpcCost at ht
  simp only at ht
  split at ht
  · cases ht
  · rename_i v hv
    refine ⟨⟨v, hv⟩, ?_⟩
    split at ht
    · cases ht
    · simp only [List.mem_flatMap] at ht
      obtain ⟨n, hn, c, _, ht⟩ := ht
      obtain ⟨i, j, h1, h2, h3⟩ := mem_nodesIn g hs _ hn
      refine ⟨i, j, n.p, h3, ?_⟩
      rw [← h1, ← h2]
      split at ht
      · rwa [List.mem_singleton] at ht
      · cases ht

/-- C75: the rule between the cuts of two layers: a node is charged, once, exactly if some cut of the default via of the other layer would
be closer to the cut than the rule allows. -/
theorem c75_inter (T : CTech) (g : Grid) (hs : g.Sorted) (box : Box) (hb : box.Proper) (z : Int) (upper : Bool) (v : MzVia) (r : CutSpRule)
    (hv : T.otherVia (g.lay z + 1) upper = some v) (hrule : T.interRule (g.lay z + 1) (otherCut (g.lay z + 1) upper) = some r)
    (hcuts : v.CutsOk) (hr : 0 ≤ r.spacing) (i j : Nat) (p : Point) (hp : NodeAt g i j p) :
    (interCutCost T g box z upper).count (⟨i, j, if upper then z + 1 else z - 1⟩, true) ≤ 1 ∧
    ((⟨i, j, if upper then z + 1 else z - 1⟩, true) ∈ interCutCost T g box z upper ↔ ∃ c ∈ v.cuts, CutNear r.c2c box (c.at p) r.spacing) := by
  have hc : (interCutCost T g box z upper).count (⟨i, j, if upper then z + 1 else z - 1⟩, true) =
      if v.cuts.any (fun c => decide (cutRuleDist2 r box (c.at p) < r.spacing * r.spacing)) then 1 else 0 := by
    unfold interCutCost
    simp only [hv, hrule]
    rw [nodesIn_count g hs _ _ _ i j p hp _ ⟨rfl, rfl⟩]
    · rw [count_if]
      split
      · rfl
      · rename_i hout
        split
        · rename_i hany
          exfalso
          apply hout
          rw [List.any_eq_true] at hany
          obtain ⟨c, hc, hlt⟩ := hany
          have hcp := at_proper (hcuts.1 c hc) p
          have hn := (cutRuleDist2_near r hb hcp _).1 (of_decide_eq_true hlt)
          have := cutNear_gaps hb hcp hr hn
          exact inCutWindow hb (cutBox_thick hcuts) hr (cutBox_covers v c hc) this.1 this.2.1 this.2.2.1 this.2.2.2
        · rfl
    · intro n t ht
      split at ht
      · rw [List.mem_singleton] at ht; rw [ht]; exact ⟨rfl, rfl⟩
      · cases ht
  have hany : v.cuts.any (fun c => decide (cutRuleDist2 r box (c.at p) < r.spacing * r.spacing)) = true ↔
      ∃ c ∈ v.cuts, CutNear r.c2c box (c.at p) r.spacing := by
    rw [List.any_eq_true]
    constructor
    · rintro ⟨c, h1, h2⟩; exact ⟨c, h1, (cutRuleDist2_near r hb (at_proper (hcuts.1 c h1) p) _).1 (of_decide_eq_true h2)⟩
    · rintro ⟨c, h1, h2⟩; exact ⟨c, h1, decide_eq_true ((cutRuleDist2_near r hb (at_proper (hcuts.1 c h1) p) _).2 h2)⟩
  rw [← List.count_pos_iff, hc, ← hany]
  split <;> simp_all

theorem c75_inter_only (T : CTech) (g : Grid) (hs : g.Sorted) (box : Box) (z : Int) (upper : Bool) (t : CTgt) (ht : t ∈ interCutCost T g box z upper) :
    (∃ v, T.otherVia (g.lay z + 1) upper = some v) ∧
      ∃ (i j : Nat) (p : Point), NodeAt g i j p ∧ t = (⟨i, j, if upper then z + 1 else z - 1⟩, true) := by
  unfold interCutCost at ht
  simp only at ht
  split at ht
  · rename_i v r hv hr
    refine ⟨⟨v, hv⟩, ?_⟩
    simp only [List.mem_flatMap] at ht
    obtain ⟨n, hn, ht⟩ := ht
    obtain ⟨i, j, h1, h2, h3⟩ := mem_nodesIn g hs _ hn
    refine ⟨i, j, n.p, h3, ?_⟩
    rw [← h1, ← h2]
    split at ht
    · rwa [List.mem_singleton] at ht
    · cases ht
  · cases ht

example : exVia.CutsOk ∧ CutRulesOk (exCTech.cut 3) ∧ exCTech.via (exCGrid.lay 0 + 1) = some exVia ∧
    exCTech.otherVia (exCGrid.lay 0 + 1) true = some exVia ∧ (exCTech.interRule (exCGrid.lay 0 + 1) 5).isSome = true ∧
    (exCTech.interRule (exCGrid.lay 1 + 1) 3).isSome = true ∧
    (cutSpcCost exCTech exCGrid ⟨⟨130, 90⟩, ⟨150, 110⟩⟩ 0 false).count (⟨1, 1, 0⟩, true) = 1 ∧
    (cutSpcCost exCTech exCGrid ⟨⟨150, 90⟩, ⟨160, 110⟩⟩ 0 false).count (⟨1, 1, 0⟩, true) = 0 ∧
    (interCutCost exCTech exCGrid ⟨⟨130, 90⟩, ⟨150, 110⟩⟩ 0 true).count (⟨1, 1, 1⟩, true) = 1 := by
  refine ⟨⟨by unfold Box.Proper; decide, _, List.mem_singleton.2 rfl, by unfold Box.Thick; decide⟩, by unfold CutRulesOk; decide, by decide, by decide, by decide,
    by decide, by decide, by decide, by decide⟩

/-! ## C76: minimum number of cuts -/

theorem mcutApplies_iff (r : MCutRule) (box : Box) (upper : Bool) : mcutApplies r box upper = true ↔ MCutConcerns r box upper := by
  unfold mcutApplies MCutConcerns
  rcases r with ⟨w, len, conn⟩
  cases len with
  | none =>
    cases conn with
    | none => simp
    | some a => simp
  | some ld =>
    obtain ⟨l, d⟩ := ld
    cases conn with
    | none =>
      simp only [Bool.and_eq_true, decide_eq_true_iff, Option.some.injEq, Prod.mk.injEq]
      constructor
      · rintro ⟨⟨h1, h2⟩, _⟩; exact ⟨h2, fun _ _ ⟨a, _⟩ => a ▸ h1, by simp⟩
      · rintro ⟨h1, h2, _⟩; exact ⟨⟨h2 l d ⟨rfl, rfl⟩, h1⟩, trivial⟩
    | some a =>
      simp only [Bool.and_eq_true, decide_eq_true_iff, Option.some.injEq, Prod.mk.injEq, beq_iff_eq]
      constructor
      · rintro ⟨⟨h1, h2⟩, h3⟩; exact ⟨h2, fun _ _ ⟨a, _⟩ => a ▸ h1, fun _ h => h ▸ h3⟩
      · rintro ⟨h1, h2, h3⟩; exact ⟨⟨h2 l d ⟨rfl, rfl⟩, h1⟩, h3 a rfl⟩

theorem Box.inside_self (b : Box) : b.Inside b := ⟨Int.le_refl _, Int.le_refl _, Int.le_refl _, Int.le_refl _⟩

theorem cutBox_proper' {v : MzVia} (h : v.CutsOk) : v.cutBox.Proper := by
  have := cutBox_thick h
  unfold Box.Thick at this; unfold Box.Proper; omega

/-- C76: on a wide shape, a node is charged for a via once for every MINIMUMCUT rule that concerns vias on that shape, if the
cuts of the via placed there (the special via of the node if it has one whose cuts lie within those of the default via) would lie on the shape, or, for a rule with LENGTH, diagonally off it within the distance of the rule plus a pitch. -/
theorem c76_min_cut (T : CTech) (g : Grid) (hs : g.Sorted) (sv : MIdx → Option MzVia) (box : Box) (hb : box.Proper) (z : Int) (upper : Bool) (v : MzVia)
    (hv : T.viaOf (g.lay z) upper = some v) (hcuts : v.CutsOk) (hpitch : 0 ≤ T.pitch (g.lay z))
    (hdist : ∀ r ∈ T.mincut (g.lay z), ∀ l d, r.length = some (l, d) → 0 ≤ d) (i j : Nat) (p : Point) (hp : NodeAt g i j p)
    (cb : Box)
    (hcb : cb = match sv ⟨i, j, viaZ z upper⟩ with | some s => s.cutBox | none => v.cutBox) (hfit : cb.Proper ∧ cb.Inside v.cutBox) (breaks : MCutRule → Bool)
    (hbr : ∀ r, breaks r = true ↔ MCutConcerns r box upper ∧ MCutAt r (T.pitch (g.lay z)) box (v.cutBox.at p) (cb.at p)) :
    (minCutCost T g sv box z upper).count (⟨i, j, viaZ z upper⟩, true) = (T.mincut (g.lay z)).countP breaks := by
  unfold minCutCost
  simp only [hv]
  have e : (T.mincut (g.lay z)).countP breaks = (T.mincut (g.lay z)).countP fun r => decide (breaks r = true) := by
    congr 1; funext r; cases breaks r <;> rfl
  rw [List.count_flatMap, e, ← sum_ite_countP]
  congr 1
  apply List.map_congr_left
  intro r hr
  have hth := cutBox_thick hcuts
  simp only [Function.comp]
  by_cases ha : mcutApplies r box upper = true
  · rw [if_pos ha]
    rw [nodesIn_count g hs _ _ _ i j p hp _ ⟨rfl, rfl⟩]
    · rw [count_if]
      have hh : cutHere sv v ⟨i, j, viaZ z upper⟩ = cb := by rw [hcb]; rfl
      rw [hh]
      have key : (cutWindow box v.cutBox (mcutDist T (g.lay z) r)).Has p ∧ mcutHit r (mcutDist T (g.lay z) r) box (cb.at p) = true ↔
          MCutAt r (T.pitch (g.lay z)) box (v.cutBox.at p) (cb.at p) := by
        have hd := hdist r hr
        unfold mcutHit mcutDist MCutAt cutWindow
        unfold Box.Proper at hb
        unfold Box.Thick at hth
        obtain ⟨hf1, hf2⟩ := hfit
        unfold Box.Proper at hf1
        unfold Box.Inside at hf2
        cases hl : r.length with
        | none =>
          simp only
          rw [mk4_has (by omega) (by omega)]
          simp only [Bool.and_eq_true, decide_eq_true_iff, true_implies, reduceCtorEq, false_implies, implies_true, and_true]
          unfold cgapX cgapY Invades sharedX sharedY
          simp only [Box.at, Box.left, Box.right, Box.bottom, Box.top] at *
          omega
        | some ld =>
          obtain ⟨l, d⟩ := ld
          have hd0 := hd l d hl
          simp only
          rw [mk4_has (by omega) (by omega)]
          simp only [Bool.and_eq_true, decide_eq_true_iff, true_and, reduceCtorEq, false_implies, Option.some.injEq, Prod.mk.injEq]
          constructor
          · rintro ⟨_, h⟩ l' d' ⟨_, e⟩
            subst e
            rw [cgapX_eq, cgapY_eq] at h
            omega
          · intro h
            have h := h l d ⟨rfl, rfl⟩
            rw [cgapX_eq, cgapY_eq]
            refine ⟨?_, by omega⟩
            unfold sharedX sharedY at h
            simp only [Box.at, Box.left, Box.right, Box.bottom, Box.top] at *
            omega
      by_cases h1 : (cutWindow box v.cutBox (mcutDist T (g.lay z) r)).Has p
      · rw [if_pos h1]
        by_cases h2 : mcutHit r (mcutDist T (g.lay z) r) box (cb.at p) = true
        · rw [if_pos h2, if_pos ((hbr r).2 ⟨(mcutApplies_iff r box upper).1 ha, key.1 ⟨h1, h2⟩⟩)]
        · rw [if_neg h2, if_neg (fun h => h2 (key.2 ((hbr r).1 h).2).2)]
      · rw [if_neg h1, if_neg (fun h => h1 (key.2 ((hbr r).1 h).2).1)]
    · intro n t ht
      split at ht
      · rw [List.mem_singleton] at ht; rw [ht]; exact ⟨rfl, rfl⟩
      · cases ht
  · rw [if_neg ha, if_neg (fun h => ha ((mcutApplies_iff r box upper).2 ((hbr r).1 h).1))]
    rfl

/-- C76: a via straight beside a wide shape, at any distance, is not charged for a rule with LENGTH, only positions off its corners are -/
theorem c76_beside_missed (T : CTech) (g : Grid) (hs : g.Sorted) (sv : MIdx → Option MzVia) (box : Box) (hb : box.Proper) (z : Int) (upper : Bool) (v : MzVia)
    (hv : T.viaOf (g.lay z) upper = some v) (hcuts : v.CutsOk) (hpitch : 0 ≤ T.pitch (g.lay z))
    (hlen : ∀ r ∈ T.mincut (g.lay z), ∃ l d, r.length = some (l, d) ∧ 0 ≤ d) (i j : Nat) (p : Point) (hp : NodeAt g i j p)
    (hsv : sv ⟨i, j, viaZ z upper⟩ = none) (hbeside : 0 ≤ sharedX box (v.cutBox.at p) ∨ 0 ≤ sharedY box (v.cutBox.at p)) :
    (⟨i, j, viaZ z upper⟩, true) ∉ minCutCost T g sv box z upper := by
  classical
  rw [← List.count_eq_zero, c76_min_cut T g hs sv box hb z upper v hv hcuts hpitch _ i j p hp v.cutBox (by rw [hsv]) ⟨cutBox_proper' hcuts, Box.inside_self _⟩
    (fun r => decide (MCutConcerns r box upper ∧ MCutAt r (T.pitch (g.lay z)) box (v.cutBox.at p) (v.cutBox.at p))) (fun r => decide_eq_true_iff), List.countP_eq_zero]
  · intro r hr h
    obtain ⟨l, d, hl, _⟩ := hlen r hr
    replace h := @of_decide_eq_true _ _ h
    have := h.2.2 l d hl
    omega
  · intro r hr l d hl
    obtain ⟨l', d', hl', h0⟩ := hlen r hr
    rw [hl] at hl'
    cases hl'
    exact h0

example : MCutConcerns ⟨90, some (300, 200), some true⟩ ⟨⟨0, 0⟩, ⟨100, 400⟩⟩ true ∧
    (minCutCost exCTech exCGrid (fun _ => none) ⟨⟨0, 0⟩, ⟨100, 400⟩⟩ 0 true).count (⟨1, 1, 0⟩, true) = 1 ∧
    (minCutCost { exCTech with mincut := fun _ => [⟨90, some (300, 100), some true⟩] } exCGrid (fun _ => none) ⟨⟨0, -400⟩, ⟨150, 40⟩⟩ 0 true).count (⟨2, 1, 0⟩, true) = 1 := by
  refine ⟨⟨by decide, ?_, ?_⟩, by decide, by decide⟩
  · intro l d h; cases h; decide
  · intro a h; cases h; rfl

end TR
