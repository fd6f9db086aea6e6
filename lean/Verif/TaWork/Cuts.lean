import Verif.TaWork.Blocks
import Verif.GC.Layer
/-! The places that a cut blocks for the cuts of other vias. -/
namespace TR

theorem fr_sharedY_gap (b v : Box) : max (cgapY b v) 0 > 0 ↔ sharedY b v < 0 := by rw [cgapY_eq]; omega

theorem centre_in {b : Box} (hb : b.Proper) : b.left ≤ (boxCentre b).x ∧ (boxCentre b).x ≤ b.right ∧ b.bottom ≤ (boxCentre b).y ∧ (boxCentre b).y ≤ b.top := by
  unfold boxCentre
  have h1 := tdiv_centre hb.1
  have h2 := tdiv_centre hb.2
  rw [Int.add_comm] at h1 h2
  exact ⟨h1.1, h1.2, h2.1, h2.2⟩

theorem natAbs_sq (a : Int) : ((a.natAbs : Int)) * (a.natAbs : Int) = a * a := by
  rcases Int.natAbs_eq a with h | h
  · rw [← h]
  · generalize hn : (a.natAbs : Int) = n at *; rw [h, Int.neg_mul_neg]

/-- the reach along the track for a rule of cuts -/
theorem cutReach {nan : Int} {b v : Box} (hb : b.Proper) (hv : v.Proper) (h0 : v.bottom ≤ 0 ∧ 0 ≤ v.top) {r : CutSpRule} {t : Int} (x : Int)
    (hs : 0 ≤ r.spacing) :
    let dy := max (cgapY b (v.at ⟨b.left, t⟩)) 0
    let d := if r.c2c then (((boxCentre b).y - t).natAbs : Int) else dy
    let X := reachOf nan r.spacing d dy
    let lo := if r.c2c then (boxCentre b).x - X else b.left - X - v.right
    let hi := if r.c2c then (boxCentre b).x + X else b.right + X - v.left
    (TaCutNear false r b (v.at ⟨x, t⟩) ⟨x, t⟩ → d < r.spacing ∧ lo ≤ x ∧ x ≤ hi) ∧
    (d < r.spacing → lo ≤ x ∧ x ≤ hi → TaCutNear true r b (v.at ⟨x, t⟩) ⟨x, t⟩) ∧ (d < r.spacing → 0 ≤ X) := by
  dsimp only
  unfold TaCutNear
  obtain ⟨hc1, hc2, hc3, hc4⟩ := centre_in hb
  cases hc : r.c2c
  · simp only [Bool.false_eq_true, if_false, true_and, false_and, or_false]
    refine ⟨?_, ?_, ?_⟩
    · intro hcl
      have hlt : max (cgapY b (v.at ⟨b.left, t⟩)) 0 < r.spacing := by
        by_cases hz : r.spacing = 0
        · rw [hz, ← cdist2_closer hb (at_proper hv _)] at hcl
          unfold cdist2 at hcl
          have n1 := sq_nonneg (max (cgapX b (v.at ⟨x, t⟩)) 0)
          have n2 := sq_nonneg (max (cgapY b (v.at ⟨x, t⟩)) 0)
          omega
        · have := (closer_gaps hb (at_proper hv _) hs hcl).2
          rw [gapY_at b v x b.left] at this
          omega
      exact ⟨hlt, (block_iff hb hv b.left hlt x).2 hcl⟩
    · intro hlt hx
      exact (block_iff hb hv b.left hlt x).1 hx
    · intro hlt; exact reach_nonneg (by omega) hlt
  · simp only [if_true, true_and, Bool.false_eq_true, if_false, Bool.true_eq_false, false_and, false_or]
    have hd0 : (0 : Int) ≤ (((boxCentre b).y - t).natAbs : Int) := Int.natCast_nonneg _
    have he : max (cgapY b (v.at ⟨b.left, t⟩)) 0 ≤ (((boxCentre b).y - t).natAbs : Int) := by
      unfold cgapY Box.at; simp only [Box.left, Box.right, Box.bottom, Box.top] at *; omega
    have key : ∀ y : Int, ((((boxCentre b).x - y).natAbs : Int) * (((boxCentre b).x - y).natAbs : Int) +
        (((boxCentre b).y - t).natAbs : Int) * (((boxCentre b).y - t).natAbs : Int)) =
        ((boxCentre b).x - y) * ((boxCentre b).x - y) + ((boxCentre b).y - t) * ((boxCentre b).y - t) := by
      intro y; rw [natAbs_sq, natAbs_sq]
    refine ⟨?_, ?_, ?_⟩
    · rintro ⟨m, ⟨hm1, hm2⟩, hlt⟩
      have hm : m = boxCentre b := by cases m; unfold boxCentre; simp only [Point.mk.injEq]; exact ⟨hm1, hm2⟩
      subst hm
      rw [← key x] at hlt
      have hdl : (((boxCentre b).y - t).natAbs : Int) < r.spacing := by
        rw [← sq_lt_iff hd0 hs]
        have := sq_nonneg (((boxCentre b).x - x).natAbs : Int)
        omega
      have := (reach_centre (nan := nan) hd0 (show 0 ≤ max (cgapY b (v.at ⟨b.left, t⟩)) 0 by omega) (by omega) hdl
        (show (0 : Int) ≤ (((boxCentre b).x - x).natAbs : Int) from Int.natCast_nonneg _)).1 hlt
      omega
    · intro hdl hx
      refine ⟨boxCentre b, ⟨rfl, rfl⟩, ?_⟩
      rw [← key x]
      refine (reach_centre (nan := nan) hd0 (show 0 ≤ max (cgapY b (v.at ⟨b.left, t⟩)) 0 by omega) (by omega) hdl
        (show (0 : Int) ≤ (((boxCentre b).x - x).natAbs : Int) from Int.natCast_nonneg _)).2 (by omega)
    · intro hdl; exact reach_nonneg hd0 hdl

/-- what the rule asks for besides the distance, with x along the tracks -/
def cutConcerns (r : CutSpRule) (b c : Box) : Prop :=
  r.sameNet = false ∧ r.second = none ∧ (r.adj = none → r.parOverlap = true → sharedY b c < 0 → 0 < sharedX b c)

theorem taArea_pos {b : Box} (hb : b.left < b.right ∧ b.bottom < b.top) : 1 ≤ b.length * b.width := by
  unfold Box.length Box.width
  have : 0 < max (b.right - b.left) (b.top - b.bottom) * min (b.right - b.left) (b.top - b.bottom) := Int.mul_pos (by omega) (by omega)
  omega

theorem line_iff {h : Bool} {lo hi t x u : Int} (hle : lo ≤ hi) : InSome [lineBox h lo hi t] (ptAC h x u) ↔ u = t ∧ lo ≤ x ∧ x ≤ hi := by
  unfold InSome
  simp only [List.mem_singleton, exists_eq_left]
  rw [lineBox_has hle]
  omega

theorem not_inSome_nil (p : Point) : ¬ InSome [] p := by rintro ⟨_, h, _⟩; cases h

theorem cutTrack_eq {nan : Int} {h : Bool} {b v : Box} (hb : b.left < b.right ∧ b.bottom < b.top) (hv : v.Proper)
    (h0 : v.left < 0 ∧ 0 < v.right ∧ v.bottom ≤ 0 ∧ 0 ≤ v.top) {r : CutSpRule} (x t u : Int) :
    let dy := max (cgapY b (v.at ⟨b.left, t⟩)) 0
    let d := if r.c2c then (((boxCentre b).y - t).natAbs : Int) else dy
    let X := reachOf nan r.spacing d dy
    let lo := if r.c2c then (boxCentre b).x - X else b.left - X - v.right
    let hi := if r.c2c then (boxCentre b).x + X else b.right + X - v.left
    (d < r.spacing → 0 ≤ X) →
    (InSome (cutTrack nan h b v t r) (ptAC h x u) ↔ u = t ∧ (d < r.spacing ∧ lo ≤ x ∧ x ≤ hi) ∧ cutConcerns r b (v.at ⟨x, t⟩)) := by
  dsimp only
  have hb' : b.Proper := ⟨by omega, by omega⟩
  obtain ⟨hc1, hc2, hc3, hc4⟩ := centre_in hb'
  unfold cutTrack cutConcerns
  rw [transform_at hv]
  dsimp only
  have hgy : (max (cgapY b (v.at ⟨b.left, t⟩)) 0 > 0) ↔ sharedY b (v.at ⟨x, t⟩) < 0 := by
    rw [gapY_at b v b.left x]; exact fr_sharedY_gap _ _
  have har : max (b.length * b.width) ((v.at ⟨b.left, t⟩).length * (v.at ⟨b.left, t⟩).width) ≥ r.getCutArea := by
    have := taArea_pos hb
    unfold CutSpRule.getCutArea
    split <;> omega
  have hsx : (b.left - v.right + 1 ≤ x ∧ x ≤ b.right - v.left - 1) ↔ 0 < sharedX b (v.at ⟨x, t⟩) := by
    unfold sharedX Box.at; simp only [Box.left, Box.right, Box.bottom, Box.top] at *; omega
  generalize max (cgapY b (v.at ⟨b.left, t⟩)) 0 = dy at *
  generalize (if r.c2c = true then (((boxCentre b).y - t).natAbs : Int) else dy) = d at *
  generalize reachOf nan r.spacing d dy = X at *
  intro hX
  by_cases hd : d ≥ r.spacing
  · rw [if_pos hd]
    constructor
    · intro hh; exact absurd hh (not_inSome_nil _)
    · rintro ⟨_, ⟨hh, _⟩, _⟩; omega
  rw [if_neg hd]
  have hX0 := hX (by omega)
  have hll : (if r.c2c = true then (boxCentre b).x - X else b.left - X - v.right) ≤
      (if r.c2c = true then (boxCentre b).x + X else b.right + X - v.left) := by
    split <;> omega
  have hpl : max (b.left - v.right + 1) (if r.c2c = true then (boxCentre b).x - X else b.left - X - v.right) ≤
      min (b.right - v.left - 1) (if r.c2c = true then (boxCentre b).x + X else b.right + X - v.left) := by
    split <;> omega
  generalize (if r.c2c = true then (boxCentre b).x - X else b.left - X - v.right) = lo at *
  generalize (if r.c2c = true then (boxCentre b).x + X else b.right + X - v.left) = hi at *
  have hdl : d < r.spacing := by omega
  cases hsn : r.sameNet
  rotate_left
  · simp only [if_true]
    constructor
    · intro hh; exact absurd hh (not_inSome_nil _)
    · rintro ⟨_, _, hh, _⟩; cases hh
  simp only [Bool.false_eq_true, if_false, true_and]
  cases hse : r.second with
  | some _ =>
    simp only [Option.isSome_some, if_true]
    constructor
    · intro hh; exact absurd hh (not_inSome_nil _)
    · rintro ⟨_, _, hh, _⟩; cases hh
  | none =>
    simp only [Option.isSome_none, Bool.false_eq_true, if_false, true_and]
    cases hadj : r.adj with
    | some _ =>
      simp only [Option.isSome_some, if_true]
      rw [line_iff hll]
      constructor
      · rintro ⟨h1, h2⟩; exact ⟨h1, ⟨hdl, h2⟩, fun hh => by cases hh⟩
      · rintro ⟨h1, h2, _⟩; exact ⟨h1, h2.2⟩
    | none =>
      simp only [Option.isSome_none, Bool.false_eq_true, if_false, forall_const]
      cases hpo : r.parOverlap
      · simp only [Bool.false_eq_true, if_false, false_implies, and_true]
        have : InSome (if r.area ≠ -1 then (if max (b.length * b.width) ((v.at ⟨b.left, t⟩).length * (v.at ⟨b.left, t⟩).width) ≥ r.getCutArea
            then [lineBox h lo hi t] else []) else [lineBox h lo hi t]) (ptAC h x u) ↔ InSome [lineBox h lo hi t] (ptAC h x u) := by
          rw [if_pos har]
          split <;> exact Iff.rfl
        rw [this, line_iff hll]
        constructor
        · rintro ⟨h1, h2⟩; exact ⟨h1, hdl, h2⟩
        · rintro ⟨h1, h2⟩; exact ⟨h1, h2.2⟩
      · simp only [if_true, forall_const]
        by_cases hg : dy > 0
        · rw [if_pos hg, line_iff hpl, ← hsx, ← hgy]
          omega
        · rw [if_neg hg, line_iff hll, ← hgy]
          omega

theorem cutTrack_iff {nan : Int} {h : Bool} {b v : Box} (hb : b.left < b.right ∧ b.bottom < b.top) (hv : v.Proper)
    (h0 : v.left < 0 ∧ 0 < v.right ∧ v.bottom ≤ 0 ∧ 0 ≤ v.top) {r : CutSpRule} (hs : 0 ≤ r.spacing) (x t u : Int) :
    (u = t ∧ TaCutNear false r b (v.at ⟨x, t⟩) ⟨x, t⟩ ∧ cutConcerns r b (v.at ⟨x, t⟩) → InSome (cutTrack nan h b v t r) (ptAC h x u)) ∧
    (InSome (cutTrack nan h b v t r) (ptAC h x u) → u = t ∧ TaCutNear true r b (v.at ⟨x, t⟩) ⟨x, t⟩ ∧ cutConcerns r b (v.at ⟨x, t⟩)) := by
  have hb' : b.Proper := ⟨by omega, by omega⟩
  obtain ⟨k1, k2, k3⟩ := cutReach (nan := nan) hb' hv ⟨h0.2.2.1, h0.2.2.2⟩ (r := r) (t := t) x hs
  have hm := cutTrack_eq (h := h) hb hv h0 x t u k3
  constructor
  · rintro ⟨h1, h2, h3⟩
    exact hm.2 ⟨h1, k1 h2, h3⟩
  · intro hin
    obtain ⟨h1, h2, h3⟩ := hm.1 hin
    exact ⟨h1, k2 h2.1 h2.2, h3⟩

theorem maxCutSpc_ge_go (rs : List CutSpRule) : ∀ a : Int, a ≤ rs.foldl (fun a r => max a r.spacing) a ∧
    ∀ r ∈ rs, r.spacing ≤ rs.foldl (fun a r => max a r.spacing) a := by
  induction rs with
  | nil => intro a; exact ⟨Int.le_refl _, fun r hr => by cases hr⟩
  | cons s ss ih =>
    intro a
    rw [List.foldl_cons]
    obtain ⟨h1, h2⟩ := ih (max a s.spacing)
    refine ⟨by omega, fun r hr => ?_⟩
    rcases List.mem_cons.1 hr with rfl | hr
    · omega
    · exact h2 r hr

theorem maxCutSpc_ge {rs : List CutSpRule} {r : CutSpRule} (hr : r ∈ rs) : r.spacing ≤ maxCutSpc rs := (maxCutSpc_ge_go rs 0).2 r hr

theorem fr_near (h le : Bool) (r : CutSpRule) (box c : Box) (x t : Int) :
    TaCutNear le r (box.fr h) (c.fr h) ⟨x, t⟩ ↔ TaCutNear le r box c (ptAC h x t) := by
  unfold TaCutNear
  rw [fr_closer]
  have key : (∃ m, IsCentre (box.fr h) m ∧ if le = true then (m.x - x) * (m.x - x) + (m.y - t) * (m.y - t) ≤ r.spacing * r.spacing
      else (m.x - x) * (m.x - x) + (m.y - t) * (m.y - t) < r.spacing * r.spacing) ↔
      ∃ m, IsCentre box m ∧ if le = true then (m.x - (ptAC h x t).x) * (m.x - (ptAC h x t).x) + (m.y - (ptAC h x t).y) * (m.y - (ptAC h x t).y) ≤ r.spacing * r.spacing
      else (m.x - (ptAC h x t).x) * (m.x - (ptAC h x t).x) + (m.y - (ptAC h x t).y) * (m.y - (ptAC h x t).y) < r.spacing * r.spacing := by
    cases h
    · constructor
      · rintro ⟨m, ⟨h1, h2⟩, h3⟩
        refine ⟨⟨m.y, m.x⟩, ⟨h2, h1⟩, ?_⟩
        show if le = true then (m.y - t) * (m.y - t) + (m.x - x) * (m.x - x) ≤ _ else (m.y - t) * (m.y - t) + (m.x - x) * (m.x - x) < _
        rw [Int.add_comm ((m.y - t) * (m.y - t))]; exact h3
      · rintro ⟨m, ⟨h1, h2⟩, h3⟩
        refine ⟨⟨m.y, m.x⟩, ⟨h2, h1⟩, ?_⟩
        show if le = true then (m.y - x) * (m.y - x) + (m.x - t) * (m.x - t) ≤ _ else (m.y - x) * (m.y - x) + (m.x - t) * (m.x - t) < _
        rw [Int.add_comm ((m.y - x) * (m.y - x))]; exact h3
    · exact Iff.rfl
  rw [key]

/-- the places that cut `box` blocks: those where a cut of a via would be too near for one of the rules -/
theorem cutBlocks_iff (P : PanelTech) (box : Box) (l : Int) (vd : MzVia) (fl : Int)
    (hlow : P.c.bottom ≤ l) (htop : l ≤ P.c.top) (hvd : P.c.via l = some vd) (hfl : ViaTracks P l fl)
    (hs : StrictInc (P.locs fl)) (hb : box.left < box.right ∧ box.bottom < box.top)
    (hv : vd.cutBox.left < 0 ∧ 0 < vd.cutBox.right ∧ vd.cutBox.bottom < 0 ∧ 0 < vd.cutBox.top)
    (hr : ∀ r ∈ P.c.cut l, 0 ≤ r.spacing) (x t : Int) (id : Nat) :
    (t ∈ P.locs fl ∧ (∃ r ∈ P.c.cut l, r.id = id ∧ TaCutHit P false r box (vd.cutBox.at (ptAC P.horz x t)) (ptAC P.horz x t)) →
      ∃ B, (id, B) ∈ cutBlocks P box l ∧ B.Has (ptAC P.horz x t)) ∧
    ((∃ B, (id, B) ∈ cutBlocks P box l ∧ B.Has (ptAC P.horz x t)) →
      t ∈ P.locs fl ∧ ∃ r ∈ P.c.cut l, r.id = id ∧ TaCutHit P true r box (vd.cutBox.at (ptAC P.horz x t)) (ptAC P.horz x t)) := by
  unfold cutBlocks
  rw [hvd, (follow_iff hlow htop).2 hfl]
  dsimp only
  have hfb : (box.fr P.horz).left < (box.fr P.horz).right ∧ (box.fr P.horz).bottom < (box.fr P.horz).top := by
    cases P.horz
    · exact ⟨hb.2, hb.1⟩
    · exact hb
  have hfv : (vd.cutBox.fr P.horz).left < 0 ∧ 0 < (vd.cutBox.fr P.horz).right ∧ (vd.cutBox.fr P.horz).bottom < 0 ∧ 0 < (vd.cutBox.fr P.horz).top := by
    cases P.horz
    · exact ⟨hv.2.2.1, hv.2.2.2, hv.1, hv.2.1⟩
    · exact hv
  have hfvp : (vd.cutBox.fr P.horz).Proper := ⟨by omega, by omega⟩
  have hfbp : (box.fr P.horz).Proper := ⟨by omega, by omega⟩
  have key : ∀ r ∈ P.c.cut l, ∀ u, _ := fun r hr' u =>
    cutTrack_iff (nan := P.nan) (h := P.horz) hfb hfvp ⟨hfv.1, hfv.2.1, by omega, by omega⟩ (hr r hr') x u t
  constructor
  · rintro ⟨ht, r, hrm, rfl, h1, h2, h3, h4⟩
    have hne : P.c.cut l ≠ [] := by intro h; rw [h] at hrm; cases hrm
    rw [if_neg hne]
    rw [← fr_near P.horz, fr_at] at h3
    rw [fr_at] at h4
    obtain ⟨B, hB, hp⟩ := (key r hrm t).1 ⟨rfl, h3, h1, h2, h4⟩
    refine ⟨B, List.mem_flatMap.2 ⟨t, (mem_tracksIn hs _ _ _).2 ⟨ht, ?_⟩, List.mem_flatMap.2 ⟨r, hrm, List.mem_map.2 ⟨B, hB, rfl⟩⟩⟩, hp⟩
    have hsp := maxCutSpc_ge hrm
    have hsp0 := hr r hrm
    have hgy : cgapY (box.fr P.horz) ((vd.cutBox.fr P.horz).at ⟨x, t⟩) < r.spacing := by
      rcases h3 with ⟨_, hc⟩ | ⟨_, m, ⟨hm1, hm2⟩, hlt⟩
      · exact (closer_gaps hfbp (at_proper hfvp _) hsp0 hc).2
      · simp only [Bool.false_eq_true, if_false] at hlt
        have hm := tdiv_centre hfbp.2
        rw [Int.add_comm, ← hm2] at hm
        have hd : ((m.y - t).natAbs : Int) < r.spacing := by
          rw [← sq_lt_iff (Int.natCast_nonneg _) hsp0, natAbs_sq]
          have := sq_nonneg (m.x - x)
          omega
        unfold cgapY Box.at; simp only [Box.left, Box.right, Box.bottom, Box.top] at *; omega
    unfold cgapY Box.at at hgy; simp only [Box.left, Box.right, Box.bottom, Box.top] at *; omega
  · rintro ⟨B, hB, hp⟩
    split at hB
    · cases hB
    · obtain ⟨u, hu, hB⟩ := List.mem_flatMap.1 hB
      obtain ⟨r, hrm, hB⟩ := List.mem_flatMap.1 hB
      obtain ⟨B', hB', he⟩ := List.mem_map.1 hB
      simp only [Prod.mk.injEq] at he
      obtain ⟨he1, rfl⟩ := he
      obtain ⟨rfl, h3, h1, h2, h4⟩ := (key r hrm u).2 ⟨B', hB', hp⟩
      refine ⟨((mem_tracksIn hs _ _ _).1 hu).1, r, hrm, he1, h1, h2, ?_, ?_⟩
      · rw [← fr_near P.horz, fr_at]; exact h3
      · rw [fr_at]; exact h4

end TR
