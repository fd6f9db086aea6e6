import Verif.GC.Cut.Spec
import Verif.GC.Props
import Verif.GC.Eol.Props
/-! # C62, C63: cut spacing -/
namespace TR

theorem bigObs_iff {D : CutDb} {l : Int} {r : GRect} : bigObs D l r = true ↔ WideBlockage D l r := by
  unfold bigObs WideBlockage GRect.width
  rw [Bool.and_eq_true, decide_eq_true_eq]
  refine and_congr_right (fun _ => ?_)
  omega

theorem cutDist_iff {a b : Box} (ha : a.Proper) (hb : b.Proper) (c2c : Bool) (d : Int) :
    (if c2c = true then ptDist2 (boxCentre a) (boxCentre b) else rectDist2 a b) < d * d ↔ CutNear c2c a b d := by
  unfold CutNear
  cases c2c
  · simp only [Bool.false_eq_true, if_false, false_and, false_or, true_and]
    exact (closer_iff ha hb d).symm
  · simp only [if_true, Bool.true_eq_false, true_and, false_and, or_false]
    constructor
    · intro h
      exact ⟨_, _, ⟨rfl, rfl⟩, ⟨rfl, rfl⟩, h⟩
    · rintro ⟨⟨px, py⟩, ⟨qx, qy⟩, ⟨p1, p2⟩, ⟨q1, q2⟩, h⟩
      simp only at p1 p2 q1 q2
      subst p1; subst p2; subst q1; subst q2
      exact h

theorem lt_of_sq {u d : Int} (h0 : 0 ≤ d) (h : u * u < d * d) : -d < u ∧ u < d := by
  constructor
  · refine Int.not_le.1 (fun hn => ?_)
    have := sq_le_of_abs h0 (.inr (by omega : d ≤ -u))
    omega
  · refine Int.not_le.1 (fun hn => ?_)
    have := sq_le_of_abs h0 (.inl (by omega : d ≤ u))
    omega

theorem mid_in {a b : Int} (h : a ≤ b) : a ≤ (a + b).tdiv 2 ∧ (a + b).tdiv 2 ≤ b := by
  rcases Int.le_total 0 (a + b) with h0 | h0
  · rw [Int.tdiv_eq_ediv_of_nonneg h0]; omega
  · have : (a + b).tdiv 2 = -(-(a + b)).tdiv 2 := by rw [Int.neg_tdiv, Int.neg_neg]
    rw [this, Int.tdiv_eq_ediv_of_nonneg (by omega)]; omega

theorem near_window {c2c : Bool} {a b : Box} (ha : a.Proper) (hb : b.Proper) {d w : Int} (h : CutNear c2c a b d) (h0 : 0 ≤ d) (hw : d ≤ w) :
    Touches (gBloat a w) b := by
  have key : ∃ p q : Point, a.Has p ∧ b.Has q ∧ (p.x - q.x) * (p.x - q.x) + (p.y - q.y) * (p.y - q.y) < d * d := by
    rcases h with ⟨-, p, q, hp, hq, h⟩ | ⟨-, h⟩
    · have a1 := mid_in ha.1
      have a2 := mid_in ha.2
      have b1 := mid_in hb.1
      have b2 := mid_in hb.2
      refine ⟨p, q, ?_, ?_, h⟩
      · unfold Box.Has
        rw [hp.1, hp.2]
        exact ⟨a1.1, a1.2, a2.1, a2.2⟩
      · unfold Box.Has
        rw [hq.1, hq.2]
        exact ⟨b1.1, b1.2, b2.1, b2.2⟩
    · exact h
  obtain ⟨p, q, hp, hq, h⟩ := key
  have s1 := sq_nonneg (p.x - q.x)
  have s2 := sq_nonneg (p.y - q.y)
  have l1 := lt_of_sq h0 (by omega : (p.x - q.x) * (p.x - q.x) < d * d)
  have l2 := lt_of_sq h0 (by omega : (p.y - q.y) * (p.y - q.y) < d * d)
  refine ⟨q, ?_, hq⟩
  simp only [Box.Has, gBloat, Box.left, Box.right, Box.bottom, Box.top] at hp ⊢
  omega

theorem touch_window {a b : Box} {w : Int} (h : Touches a b) (hw : 0 ≤ w) : Touches (gBloat a w) b := by
  obtain ⟨p, hp, hq⟩ := h
  refine ⟨p, ?_, hq⟩
  simp only [Box.Has, gBloat, Box.left, Box.right, Box.bottom, Box.top] at hp ⊢
  omega

theorem bloat_proper {a : Box} (ha : a.Proper) {w : Int} (hw : 0 ≤ w) : (gBloat a w).Proper := by
  simp only [Box.Proper, gBloat, Box.left, Box.right, Box.bottom, Box.top] at ha ⊢
  omega

theorem nodup_len {α : Type} [DecidableEq α] : ∀ {s U : List α}, s.Nodup → (∀ x ∈ s, x ∈ U) → s.length ≤ U.length
  | [], _, _, _ => Nat.zero_le _
  | a :: s, U, h, hs => by
    obtain ⟨h1, h2⟩ := List.nodup_cons.1 h
    have hm := hs a (by simp)
    have := nodup_len (U := U.erase a) h2 (fun x hx => by
      have hne : x ≠ a := fun he => h1 (he ▸ hx)
      exact (List.mem_erase_of_ne hne).2 (hs x (by simp [hx])))
    rw [List.length_erase_of_mem hm] at this
    have hp := List.length_pos_of_mem hm
    rw [List.length_cons]
    omega

theorem adj_fold (D : CutDb) (far : GRect → Prop) [DecidablePred far] (k : Nat) (L : List GRect) : ∀ i : Int,
    L.foldl (fun (cnt : Int) s => if far s then cnt else if bigObs D D.layer s = true then cnt + k else cnt + 1) i =
      i + ((L.filter (fun s => decide (¬ far s) && !bigObs D D.layer s)).length : Int) +
        (k : Int) * ((L.filter (fun s => decide (¬ far s) && bigObs D D.layer s)).length : Int) := by
  induction L with
  | nil => intro i; simp
  | cons a L ih =>
    intro i
    rw [List.foldl_cons, ih, List.filter_cons, List.filter_cons]
    by_cases hf : far a
    · simp [hf]
    · by_cases hb : bigObs D D.layer a = true
      · simp only [hf, hb, if_false, if_true, not_false_eq_true, decide_true, Bool.not_true, Bool.and_false, Bool.false_eq_true, Bool.and_true, List.length_cons]
        rw [Int.natCast_add, Int.mul_add]
        omega
      · simp only [hf, hb, if_false, if_true, not_false_eq_true, decide_true, Bool.true_and, Bool.and_false, Bool.false_eq_true, List.length_cons, Bool.not_eq_true] at *
        simp only [hb, Bool.not_false, if_true, Bool.false_eq_true, if_false, List.length_cons]
        omega

theorem CutDb.Ok.box {D : CutDb} (hD : D.Ok) {l : Int} {r : GRect} (hr : r ∈ D.rects l) : r.box.Proper := by
  have := hD.proper l r hr
  exact ⟨by omega, by omega⟩

theorem CutDb.Ok.eq_of_id {D : CutDb} (hD : D.Ok) {l : Int} {r s : GRect} (hr : r ∈ D.rects l) (hs : s ∈ D.rects l) (h : r.id = s.id) : r = s := by
  have := hD.ids l
  revert hr hs this
  generalize D.rects l = L
  intro hr hs hp
  induction L with
  | nil => simp at hr
  | cons a L ih =>
    rw [List.pairwise_cons] at hp
    rcases List.mem_cons.1 hr with h1 | h1 <;> rcases List.mem_cons.1 hs with h2 | h2
    · rw [h1, h2]
    · exact absurd (h1 ▸ h) (hp.1 _ h2)
    · exact absurd (h2 ▸ h.symm) (hp.1 _ h1)
    · exact ih h1 h2 hp.2

/-- **C62** the condition on neighbouring cuts is decided correctly, whatever the order of the query results -/
theorem c62_crowded_iff {D : CutDb} (hD : D.Ok) {query : Int → Box → List GRect} (hq : CutQuery D query) {c : CutSpRule} (hc : c.Ok)
    {r : GRect} (hr : r ∈ D.rects D.layer) : cutHasAdj D query c r = true ↔ CutCrowded D c r := by
  unfold cutHasAdj CutCrowded
  cases ha : c.adj with
  | none => simp
  | some k =>
    have hw := hc.2 k ha
    simp only [Option.some.injEq, forall_eq']
    by_cases hb : bigObs D D.layer r = true
    · rw [if_pos hb]
      simp only [true_iff]
      exact .inl (bigObs_iff.1 hb)
    · rw [if_neg hb, decide_eq_true_eq]
      have hnw : ¬ WideBlockage D D.layer r := fun h => hb (bigObs_iff.2 h)
      have hrp := hD.box hr
      obtain ⟨q1, q2⟩ := hq D.layer (gBloat r.box c.within) (bloat_proper hrp (by omega))
      rw [adj_fold D (fun s => (if c.c2c = true then ptDist2 (boxCentre r.box) (boxCentre s.box) else rectDist2 r.box s.box) ≥ c.within * c.within)]
      have hnear : ∀ s ∈ D.rects D.layer, (¬ (if c.c2c = true then ptDist2 (boxCentre r.box) (boxCentre s.box) else rectDist2 r.box s.box) ≥ c.within * c.within) ↔
          CutNear c.c2c r.box s.box c.within := by
        intro s hs
        rw [← cutDist_iff hrp (hD.box hs)]
        omega
      have hmem : ∀ s, (s ∈ query D.layer (gBloat r.box c.within) ∧
          ¬ (if c.c2c = true then ptDist2 (boxCentre r.box) (boxCentre s.box) else rectDist2 r.box s.box) ≥ c.within * c.within) ↔
          s ∈ D.rects D.layer ∧ CutNear c.c2c r.box s.box c.within := by
        intro s
        rw [q2]
        constructor
        · rintro ⟨⟨h1, h2⟩, h3⟩
          exact ⟨h1, (hnear s h1).1 h3⟩
        · rintro ⟨h1, h2⟩
          exact ⟨⟨h1, near_window hrp (hD.box h1) h2 (by omega) (Int.le_refl _)⟩, (hnear s h1).2 h2⟩
      generalize hF : (query D.layer (gBloat r.box c.within)).filter (fun s => decide (¬ (if c.c2c = true then ptDist2 (boxCentre r.box) (boxCentre s.box) else rectDist2 r.box s.box) ≥ c.within * c.within) && !bigObs D D.layer s) = F
      generalize hH : (query D.layer (gBloat r.box c.within)).filter (fun s => decide (¬ (if c.c2c = true then ptDist2 (boxCentre r.box) (boxCentre s.box) else rectDist2 r.box s.box) ≥ c.within * c.within) && bigObs D D.layer s) = H
      have hFm : ∀ s, s ∈ F ↔ s ∈ D.rects D.layer ∧ CutNear c.c2c r.box s.box c.within ∧ ¬ WideBlockage D D.layer s := by
        intro s
        rw [← hF, List.mem_filter, Bool.and_eq_true, decide_eq_true_eq, ← and_assoc, hmem, and_assoc, ← bigObs_iff, Bool.not_eq_true', Bool.not_eq_true]
      have hHm : ∀ s, s ∈ H ↔ s ∈ D.rects D.layer ∧ CutNear c.c2c r.box s.box c.within ∧ WideBlockage D D.layer s := by
        intro s
        rw [← hH, List.mem_filter, Bool.and_eq_true, decide_eq_true_eq, ← and_assoc, hmem, and_assoc, ← bigObs_iff]
      have hFn : F.Nodup := hF ▸ q1.sublist List.filter_sublist
      have hself : CutNear c.c2c r.box r.box c.within := by
        rw [← cutDist_iff hrp hrp]
        have hp : 0 < c.within * c.within := Int.mul_pos hw hw
        have e1 : ∀ x y : Int, ivDist x y x y = 0 ∨ y < x := by
          intro x y; unfold ivDist; split
          · exact .inr ‹_›
          · exact .inl rfl
        split
        · simp [ptDist2]; exact hp
        · unfold rectDist2
          rcases e1 r.box.left r.box.right with h | h
          · rcases e1 r.box.bottom r.box.top with h' | h'
            · rw [h, h']; simpa using hp
            · exact absurd hrp.2 (by omega)
          · exact absurd hrp.1 (by omega)
      have hrF : r ∈ F := (hFm r).2 ⟨hr, hself, hnw⟩
      have hG : ∀ s, s ∈ F.erase r ↔ s ∈ D.rects D.layer ∧ s.id ≠ r.id ∧ ¬ WideBlockage D D.layer s ∧ CutNear c.c2c r.box s.box c.within := by
        intro s
        rw [hFn.mem_erase_iff, hFm]
        constructor
        · rintro ⟨h1, h2, h3, h4⟩
          exact ⟨h2, fun h => h1 (hD.eq_of_id h2 hr h), h4, h3⟩
        · rintro ⟨h1, h2, h3, h4⟩
          exact ⟨fun h => h2 (h ▸ rfl), h1, h4, h3⟩
      have hlen : (F.erase r).length + 1 = F.length := by
        have := List.length_erase_of_mem hrF
        have := List.length_pos_of_mem hrF
        omega
      have hn : NeighboursAtLeast D c r k ↔ k ≤ (F.erase r).length := by
        constructor
        · rintro ⟨L, l1, l2, l3⟩
          rw [← l2]
          exact nodup_len l1 (fun x hx => (hG x).2 (l3 x hx))
        · intro h
          refine ⟨(F.erase r).take k, (hFn.erase r).sublist (List.take_sublist _ _), by rw [List.length_take]; omega, ?_⟩
          intro s hs
          exact (hG s).1 (List.mem_of_mem_take hs)
      rw [hn]
      by_cases hh : H.length = 0
      · have : ¬ ∃ s ∈ D.rects D.layer, s.id ≠ r.id ∧ WideBlockage D D.layer s ∧ CutNear c.c2c r.box s.box c.within := by
          rintro ⟨s, h1, -, h2, h3⟩
          have := List.length_pos_of_mem ((hHm s).2 ⟨h1, h3, h2⟩)
          omega
        simp only [hnw, this, false_or, or_false]
        rw [hh]
        simp only [Int.natCast_zero, Int.mul_zero]
        omega
      · have hex : ∃ s ∈ D.rects D.layer, s.id ≠ r.id ∧ WideBlockage D D.layer s ∧ CutNear c.c2c r.box s.box c.within := by
          cases H with
          | nil => simp at hh
          | cons s H =>
            obtain ⟨h1, h2, h3⟩ := (hHm s).1 (by simp)
            exact ⟨s, h1, fun h => hnw (hD.eq_of_id h1 hr h ▸ h3), h3, h2⟩
        simp only [hex, or_true, iff_true]
        have h1 : (k : Int) * 1 ≤ (k : Int) * (H.length : Int) := Int.mul_le_mul_of_nonneg_left (by omega) (by omega)
        omega

theorem containsBox_in {a b : Box} : a.containsBox b = true ↔ a.left ≤ b.left ∧ b.right ≤ a.right ∧ a.bottom ≤ b.bottom ∧ b.top ≤ a.top := by
  simp only [Box.containsBox, Box.left, Box.right, Box.bottom, Box.top, if_true, Bool.and_eq_true, decide_eq_true_eq]
  omega

theorem cutReq_iff {D : CutDb} {c : CutSpRule} {l1 l2 : Int} {r s : GRect} {q : Int} : CutRequired D c l1 r l2 s q ↔ q = cutReq D c l1 r l2 s := by
  unfold CutRequired cutReq
  rw [← bigObs_iff, ← bigObs_iff]
  cases ha : c.adj with
  | none => simp
  | some k =>
    cases bigObs D l1 r <;> cases bigObs D l2 s <;> simp

theorem cutMarker_iff {D : CutDb} {r s : GRect} (hr : r.box.Proper) (hs : s.box.Proper) {rule : GRule} {m : GMk} :
    CutMarker D r s rule m ↔ m = ⟨genIntersect r.box s.box, D.layer, rule, srcPair (D.net r.net).owner (D.net s.net).owner⟩ := by
  have hb := genIntersect_between hr hs
  have hsrc : (srcPair (D.net r.net).owner (D.net s.net).owner).Pairwise (· < ·) ∧
      ∀ o, o ∈ srcPair (D.net r.net).owner (D.net s.net).owner ↔ o = (D.net r.net).owner ∨ o = (D.net s.net).owner := by
    unfold srcPair
    split
    · simp_all
    · split
      · simp_all
      · refine ⟨by simp; omega, fun o => by simp [or_comm]⟩
  constructor
  · rintro ⟨h1, h2, h3, h4, h5⟩
    obtain ⟨mb, ml, mr, ms⟩ := m
    simp only at h1 h2 h3 h4 h5
    rw [h1.unique hb, h2, h3, sorted_ext h4 hsrc.1 (fun o => (h5 o).trans (hsrc.2 o).symm)]
  · rintro rfl
    exact ⟨hb, rfl, rfl, hsrc.1, hsrc.2⟩

theorem cutGaps {a b : Box} (ha : a.Proper) (hb : b.Proper) :
    (ivDist a.left a.right b.left b.right = 0 ∧ ivDist a.bottom a.top b.bottom b.top = 0 ↔ Touches a b) ∧
    max (if ivDist a.left a.right b.left b.right ≠ 0 then -((genIntersect a b).right - (genIntersect a b).left) else (genIntersect a b).right - (genIntersect a b).left)
      (if ivDist a.bottom a.top b.bottom b.top ≠ 0 then -((genIntersect a b).top - (genIntersect a b).bottom) else (genIntersect a b).top - (genIntersect a b).bottom) =
      runLen a b := by
  obtain ⟨g1, g2, g3, g4⟩ := genIntersect_between ha hb
  rw [touches_iff_shared ha hb, ivDist_shared ha.1 hb.1, ivDist_shared ha.2 hb.2, g1, g2, g3, g4]
  unfold runLen sharedX sharedY
  refine ⟨by omega, ?_⟩
  congr 1 <;> split <;> omega

theorem applies_iff {D : CutDb} {c : CutSpRule} {r s : GRect} :
    (!c.sameNet && decide (r.net = s.net) && hasSameRule D c) = true ↔
    ¬ CutApplies D c r s := by
  unfold CutApplies hasSameRule
  cases c.second <;> cases c.sameNet <;> simp

theorem not_fixed_iff {r s : GRect} : ¬ (r.fixed && s.fixed) = true ↔ r.fixed = false ∨ s.fixed = false := by
  cases r.fixed <;> cases s.fixed <;> simp

/-- **C62** what is reported for two cuts of one layer: a short if they touch, a spacing violation if they are too close -/
theorem c62_pair_iff {D : CutDb} (hD : D.Ok) (c : CutSpRule) {r s : GRect} (hr : r ∈ D.rects D.layer) (hs : s ∈ D.rects D.layer) (m : GMk) :
    m ∈ cutPair D c r D.layer s ↔ CutApplies D c r s ∧ (CutShort D r s m ∨ CutTooClose D c r s m) := by
  have hrp := hD.box hr
  have hsp := hD.box hs
  unfold cutPair CutShort CutTooClose
  by_cases hid : r.id = s.id
  · simp [hid]
  · rw [if_neg hid]
    by_cases hap : CutApplies D c r s
    rotate_left
    · rw [if_pos (applies_iff.2 hap)]
      simp [hap]
    · rw [if_neg (fun h => applies_iff.1 h hap)]
      simp only [hid, hap, not_false_eq_true, ne_eq, true_and, if_true]
      obtain ⟨g1, g2⟩ := cutGaps hrp hsp
      simp only [ne_eq] at g2
      by_cases ht : Touches r.box s.box
      · rw [if_pos (g1.2 ht)]
        simp only [ht, not_true_eq_false, false_and, and_false, or_false, true_and]
        rw [cutMarker_iff hrp hsp, ← not_fixed_iff]
        unfold cutShort
        by_cases hf : (r.fixed && s.fixed) = true
        · simp [hf]
        · simp [hf]
      · rw [if_neg (fun h => ht (g1.1 h)), g2]
        simp only [ht, not_false_eq_true, false_and, and_false, false_or, true_and]
        rw [cutMarker_iff hrp hsp, ← not_fixed_iff]
        unfold cutSpc
        have hq : (∃ q, CutRequired D c D.layer r D.layer s q ∧ CutNear c.c2c r.box s.box q) ↔
            ¬ (if c.c2c = true then ptDist2 (boxCentre r.box) (boxCentre s.box) else rectDist2 r.box s.box) ≥
              cutReq D c D.layer r D.layer s * cutReq D c D.layer r D.layer s := by
          rw [Int.not_le, cutDist_iff hrp hsp]
          constructor
          · rintro ⟨q, h1, h2⟩
            rw [← cutReq_iff.1 h1]; exact h2
          · intro h
            exact ⟨_, cutReq_iff.2 rfl, h⟩
        rw [hq]
        have hpg : (c.adj.isSome && c.exceptPG && decide (r.net = s.net) && (D.net r.net).pg) = true ↔
            (¬ c.adj = none ∧ c.exceptPG = true ∧ r.net = s.net ∧ (D.net r.net).pg = true) := by
          cases c.adj <;> simp [and_assoc]
        rw [← hpg]
        by_cases hpg' : (c.adj.isSome && c.exceptPG && decide (r.net = s.net) && (D.net r.net).pg) = true
        · rw [if_pos hpg']
          simp [hpg']
        · rw [if_neg hpg']
          simp only [hpg', not_false_eq_true, true_and, Bool.false_eq_true]
          have hu : ((D.rects (D.layer - 1) ++ D.rects (D.layer + 1)).any
              (fun t => (decide (t.net = r.net) || decide (t.net = s.net)) && t.box.containsBox (genIntersect r.box s.box))) = true ↔
              UnderOneMetal D r s (genIntersect r.box s.box) := by
            rw [List.any_eq_true]
            unfold UnderOneMetal
            simp only [List.mem_append, Bool.and_eq_true, Bool.or_eq_true, decide_eq_true_eq, containsBox_in]
            constructor
            · rintro ⟨t, h1 | h1, h2⟩
              · exact ⟨_, .inl rfl, t, h1, h2⟩
              · exact ⟨_, .inr rfl, t, h1, h2⟩
            · rintro ⟨l, rfl | rfl, t, h1, h2⟩
              · exact ⟨t, .inl h1, h2⟩
              · exact ⟨t, .inr h1, h2⟩
          revert hu
          generalize ((D.rects (D.layer - 1) ++ D.rects (D.layer + 1)).any
              (fun t => (decide (t.net = r.net) || decide (t.net = s.net)) && t.box.containsBox (genIntersect r.box s.box))) = under
          intro hu
          have harea : (decide (c.area ≠ -1) && decide ((r.box.right - r.box.left) * (r.box.top - r.box.bottom) < c.getCutArea) &&
              decide ((s.box.right - s.box.left) * (s.box.top - s.box.bottom) < c.getCutArea)) = false := by
            have hp := hD.proper _ r hr
            have h1 : 0 < (r.box.right - r.box.left) * (r.box.top - r.box.bottom) := Int.mul_pos (by omega) (by omega)
            have h2 : c.getCutArea ≤ 1 := by unfold CutSpRule.getCutArea; split <;> omega
            rw [Bool.and_eq_false_iff, Bool.and_eq_false_iff]
            exact .inl (.inr (by rw [decide_eq_false_iff_not]; omega))
          simp only [harea, Bool.false_eq_true, if_false]
          cases hpo : c.parOverlap
          · simp only [Bool.false_and, Bool.false_eq_true, if_false, false_implies, true_and]
            by_cases hfar : (if c.c2c = true then ptDist2 (boxCentre r.box) (boxCentre s.box) else rectDist2 r.box s.box) ≥
              cutReq D c D.layer r D.layer s * cutReq D c D.layer r D.layer s
            · rw [if_pos hfar]; simp [hfar]
            · rw [if_neg hfar]
              by_cases hf : (r.fixed && s.fixed) = true
              · simp [hf]
              · simp only [hf, if_false, hfar, not_false_eq_true, true_and, List.mem_singleton, Bool.false_eq_true]
          · simp only [Bool.true_and, decide_eq_true_eq, true_implies]
            by_cases hpr : runLen r.box s.box ≤ 0
            · rw [if_pos hpr]
              simp only [List.not_mem_nil, false_iff]
              rintro ⟨-, -, ⟨h, -⟩, -⟩
              omega
            · rw [if_neg hpr]
              cases under
              · have hn : ¬ UnderOneMetal D r s (genIntersect r.box s.box) := fun h => by simpa using hu.2 h
                simp only [Bool.false_eq_true, if_false]
                by_cases hfar : (if c.c2c = true then ptDist2 (boxCentre r.box) (boxCentre s.box) else rectDist2 r.box s.box) ≥
                  cutReq D c D.layer r D.layer s * cutReq D c D.layer r D.layer s
                · rw [if_pos hfar]; simp [hfar]
                · rw [if_neg hfar]
                  by_cases hf : (r.fixed && s.fixed) = true
                  · simp [hf]
                  · simp only [hf, if_false, hfar, not_false_eq_true, true_and, List.mem_singleton, Bool.false_eq_true]
                    constructor
                    · rintro rfl
                      exact ⟨⟨by omega, hn⟩, rfl⟩
                    · exact And.right
              · simp only [if_true, List.not_mem_nil, false_iff]
                rintro ⟨-, -, ⟨-, h⟩, h'⟩
                subst h'
                exact h (hu.1 rfl)

/-- **C63** what is reported for two cuts of different layers -/
theorem c63_pair_iff {D : CutDb} (hD : D.Ok) (c : CutSpRule) {l2 : Int} (hl : l2 ≠ D.layer) {r s : GRect} (hr : r ∈ D.rects D.layer) (hs : s ∈ D.rects l2)
    (m : GMk) : m ∈ cutPair D c r l2 s ↔ CutApplies D c r s ∧ InterTooClose D c r l2 s m := by
  have hrp := hD.box hr
  have hsp := hD.box hs
  unfold cutPair InterTooClose
  rw [if_neg (hD.idsAcross _ _ (Ne.symm hl) r hr s hs)]
  by_cases hap : CutApplies D c r s
  rotate_left
  · rw [if_pos (applies_iff.2 hap)]
    simp [hap]
  · rw [if_neg (fun h => applies_iff.1 h hap)]
    simp only [hap, true_and]
    rw [if_neg (Ne.symm hl), cutMarker_iff hrp hsp, ← not_fixed_iff]
    unfold cutSpcDiff
    by_cases hf : (r.fixed && s.fixed) = true
    · simp [hf]
    · rw [if_neg hf]
      simp only [hf, not_false_eq_true, true_and, Bool.false_eq_true]
      have hst : (c.stack && c.sameNet && decide (r.net = s.net) && (r.box.containsBox s.box || s.box.containsBox r.box)) = true ↔
          (c.stack = true ∧ c.sameNet = true ∧ r.net = s.net ∧ (BoxIn r.box s.box ∨ BoxIn s.box r.box)) := by
        simp only [Bool.and_eq_true, Bool.or_eq_true, decide_eq_true_eq, containsBox_in, BoxIn, and_assoc, or_comm]
      rw [← hst]
      by_cases hst' : (c.stack && c.sameNet && decide (r.net = s.net) && (r.box.containsBox s.box || s.box.containsBox r.box)) = true
      · rw [if_pos hst']
        simp only [List.not_mem_nil, false_iff]
        rintro ⟨-, h, -⟩
        exact h hst'
      · rw [if_neg hst']
        simp only [hst', not_false_eq_true, true_and, Bool.false_eq_true]
        have hmeet : meetInside r.box s.box = true ↔ ∃ cl, CellOf r.box cl ∧ CellOf s.box cl := meetInside_iff
        have hq : (∃ q, CutRequired D c D.layer r l2 s q ∧
            ((∃ cl, CellOf r.box cl ∧ CellOf s.box cl) ∧ CutNear true r.box s.box q ∨ (¬ ∃ cl, CellOf r.box cl ∧ CellOf s.box cl) ∧ CutNear c.c2c r.box s.box q)) ↔
            ¬ (if c.c2c = true then ptDist2 (boxCentre r.box) (boxCentre s.box)
              else if meetInside r.box s.box = true then ptDist2 (boxCentre r.box) (boxCentre s.box) else rectDist2 r.box s.box) ≥
              cutReq D c D.layer r l2 s * cutReq D c D.layer r l2 s := by
          have e1 := cutDist_iff hrp hsp true (cutReq D c D.layer r l2 s)
          have e2 := cutDist_iff hrp hsp c.c2c (cutReq D c D.layer r l2 s)
          have hx : (∃ q, CutRequired D c D.layer r l2 s q ∧
            ((∃ cl, CellOf r.box cl ∧ CellOf s.box cl) ∧ CutNear true r.box s.box q ∨ (¬ ∃ cl, CellOf r.box cl ∧ CellOf s.box cl) ∧ CutNear c.c2c r.box s.box q)) ↔
            ((∃ cl, CellOf r.box cl ∧ CellOf s.box cl) ∧ CutNear true r.box s.box (cutReq D c D.layer r l2 s) ∨
              (¬ ∃ cl, CellOf r.box cl ∧ CellOf s.box cl) ∧ CutNear c.c2c r.box s.box (cutReq D c D.layer r l2 s)) := by
            constructor
            · rintro ⟨q, h1, h2⟩
              rw [← cutReq_iff.1 h1]; exact h2
            · intro h
              exact ⟨_, cutReq_iff.2 rfl, h⟩
          rw [hx, Int.not_le, ← e1, ← e2, ← hmeet]
          cases c.c2c <;> cases meetInside r.box s.box <;> simp
        rw [hq]
        by_cases hfar : (if c.c2c = true then ptDist2 (boxCentre r.box) (boxCentre s.box)
              else if meetInside r.box s.box = true then ptDist2 (boxCentre r.box) (boxCentre s.box) else rectDist2 r.box s.box) ≥
              cutReq D c D.layer r l2 s * cutReq D c D.layer r l2 s
        · rw [if_pos hfar]; simp [hfar]
        · rw [if_neg hfar]; simp [hfar]

theorem cutReq_le {D : CutDb} {c : CutSpRule} (hc : c.Ok) {l1 l2 : Int} {r s : GRect} {q : Int} (h : CutRequired D c l1 r l2 s q) :
    0 ≤ q ∧ (q = c.spacing ∨ (c.adj ≠ none ∧ q = c.within)) := by
  rcases h with ⟨h1, -, h2⟩ | ⟨-, h2⟩
  · cases ha : c.adj with
    | none => exact absurd ha h1
    | some k =>
      have := hc.2 k ha
      exact ⟨by omega, .inr ⟨by simp, h2⟩⟩
  · have := hc.1
    exact ⟨by omega, .inl h2⟩

theorem cutMaxSpc_ge {c : CutSpRule} {q : Int} (h : q ≤ c.spacing ∨ (c.adj ≠ none ∧ q ≤ c.within)) : q ≤ cutMaxSpc c := by
  unfold cutMaxSpc
  cases ha : c.adj with
  | none =>
    rcases h with h | h
    · simpa using h
    · exact absurd ha h.1
  | some k =>
    simp only [Option.isSome_some, if_true]
    rcases h with h | h
    · omega
    · have := h.2; omega

theorem cutMaxSpc_nonneg {c : CutSpRule} (hc : c.Ok) : 0 ≤ cutMaxSpc c := cutMaxSpc_ge (.inl hc.1)

/-- **C62** a rule on one layer: exactly its violations with the given cut, whatever the order of the query results; the search window
misses nothing -/
theorem c62_rule_iff {D : CutDb} (hD : D.Ok) {query : Int → Box → List GRect} (hq : CutQuery D query) {c : CutSpRule} (hc : c.Ok)
    (hsec : c.second = none) (same : Option CutSpRule) {r : GRect} (hr : r ∈ D.rects D.layer) (m : GMk) :
    m ∈ cutRule D query c same r ↔
      CutCrowded D c r ∧ ∃ s ∈ D.rects D.layer, CutApplies D c r s ∧ (CutShort D r s m ∨ CutTooClose D c r s m) := by
  have hrp := hD.box hr
  unfold cutRule
  rw [← c62_crowded_iff hD hq hc hr]
  by_cases ha : cutHasAdj D query c r = true
  · have h0 := cutMaxSpc_nonneg hc
    obtain ⟨-, q2⟩ := hq D.layer (gBloat r.box (cutMaxSpc c)) (bloat_proper hrp h0)
    simp only [ha, Bool.not_true, Bool.false_eq_true, if_false, hsec, List.mem_flatMap, true_and]
    constructor
    · rintro ⟨s, h1, h2⟩
      have hs := ((q2 s).1 h1).1
      exact ⟨s, hs, (c62_pair_iff hD c hr hs m).1 h2⟩
    · rintro ⟨s, hs, h1, h2⟩
      refine ⟨s, (q2 s).2 ⟨hs, ?_⟩, (c62_pair_iff hD c hr hs m).2 ⟨h1, h2⟩⟩
      rcases h2 with h2 | h2
      · exact touch_window h2.2.2.1 h0
      · obtain ⟨-, -, -, ⟨q, g1, g2⟩, -⟩ := h2
        have := cutReq_le hc g1
        refine near_window hrp (hD.box hs) g2 this.1 (cutMaxSpc_ge ?_)
        rcases this.2 with h | h
        · exact .inl (by omega)
        · exact .inr ⟨h.1, by omega⟩
  · simp [ha]

/-- **C63** a rule with another layer: exactly its violations with the given cut, if the same-net version of the rule does not ask for more -/
theorem c63_rule_iff {D : CutDb} (hD : D.Ok) {query : Int → Box → List GRect} (hq : CutQuery D query) {c : CutSpRule} (hc : c.Ok)
    {l2 : Int} (hsec : c.second = some l2) (hl : l2 ≠ D.layer) {same : Option CutSpRule} (hsame : ∀ c', same = some c' → c'.Ok)
    (hw : SameNotLarger c same) {r : GRect} (hr : r ∈ D.rects D.layer) (m : GMk) :
    m ∈ cutRule D query c same r ↔
      CutCrowded D c r ∧ ∃ s ∈ D.rects l2, ∃ c', EffectiveRule c same r s c' ∧ CutApplies D c' r s ∧ InterTooClose D c' r l2 s m := by
  have hrp := hD.box hr
  unfold cutRule
  rw [← c62_crowded_iff hD hq hc hr]
  by_cases ha : cutHasAdj D query c r = true
  · have h0 := cutMaxSpc_nonneg hc
    obtain ⟨-, q2⟩ := hq l2 (gBloat r.box (cutMaxSpc c)) (bloat_proper hrp h0)
    simp only [ha, Bool.not_true, Bool.false_eq_true, if_false, hsec, List.mem_flatMap, true_and]
    have hstep : ∀ s ∈ D.rects l2, m ∈ interPair D c same r l2 s ↔
        ∃ c', EffectiveRule c same r s c' ∧ CutApplies D c' r s ∧ InterTooClose D c' r l2 s m := by
      intro s hs
      unfold EffectiveRule interPair
      by_cases hn : r.net = s.net
      · cases same with
        | none => simp [c63_pair_iff hD c hl hr hs m]
        | some c' => simp [hn, c63_pair_iff hD c' hl hr hs m]
      · cases same <;> simp [hn, c63_pair_iff hD c hl hr hs m]
    constructor
    · rintro ⟨s, h1, h2⟩
      have hs := ((q2 s).1 h1).1
      exact ⟨s, hs, (hstep s hs).1 h2⟩
    · rintro ⟨s, hs, h2⟩
      refine ⟨s, (q2 s).2 ⟨hs, ?_⟩, (hstep s hs).2 h2⟩
      obtain ⟨c', e1, -, -, ⟨q, g1, g2⟩, -⟩ := h2
      have hqs : 0 ≤ q ∧ q ≤ cutMaxSpc c := by
        rcases e1 with ⟨-, rfl⟩ | ⟨-, he⟩
        · have := cutReq_le hc g1
          refine ⟨this.1, cutMaxSpc_ge ?_⟩
          rcases this.2 with h | h
          · exact .inl (by omega)
          · exact .inr ⟨h.1, by omega⟩
        · have := cutReq_le (hsame c' he) g1
          exact ⟨this.1, cutMaxSpc_ge (hw c' he q this.2)⟩
      rcases g2 with ⟨-, g2⟩ | ⟨-, g2⟩
      · exact near_window hrp (hD.box hs) g2 hqs.1 hqs.2
      · exact near_window hrp (hD.box hs) g2 hqs.1 hqs.2
  · simp [ha]

/-- a violation that the check of the cut `r` has to report -/
def CutViolation (D : CutDb) (r : GRect) (m : GMk) : Prop :=
  (∃ c, (c ∈ D.cons ∨ c ∈ D.consSame) ∧ CutCrowded D c r ∧ ∃ s ∈ D.rects D.layer, CutApplies D c r s ∧ (CutShort D r s m ∨ CutTooClose D c r s m)) ∨
  (∃ c same l2, (c, same) ∈ D.inter ∧ c.second = some l2 ∧ CutCrowded D c r ∧
    ∃ s ∈ D.rects l2, ∃ c', EffectiveRule c same r s c' ∧ CutApplies D c' r s ∧ InterTooClose D c' r l2 s m)

/-- **C62**, **C63** the check of a cut layer reports exactly the violations of its rules -/
theorem c62_layer_iff {D : CutDb} (hD : D.Ok) (hR : D.RulesOk) (hw : ∀ p ∈ D.inter, SameNotLarger p.1 p.2) {query : Int → Box → List GRect}
    (hq : CutQuery D query) (target : Option Nat) (m : GMk) :
    m ∈ cutLayer D query target ↔ ∃ r ∈ D.rects D.layer, (∀ n, target = some n → r.net = n) ∧ CutViolation D r m := by
  unfold cutLayer
  simp only [List.mem_flatMap, List.mem_filter]
  have htar : ∀ r : GRect, (target.all (fun n => decide (r.net = n)) = true) ↔ ∀ n, target = some n → r.net = n := by
    intro r; cases target <;> simp
  refine exists_congr (fun r => ?_)
  rw [htar, and_assoc]
  refine and_congr_right (fun hr => and_congr_right (fun _ => ?_))
  unfold cutRect CutViolation
  simp only [List.mem_append, List.mem_flatMap]
  have hc : ∀ c, c ∈ D.cons ∨ c ∈ D.consSame → _ := fun c h => hR.cons c (List.mem_append.2 h)
  constructor
  · rintro ((⟨c, h1, h2⟩ | ⟨c, h1, h2⟩) | ⟨⟨c, same⟩, h1, h2⟩)
    · obtain ⟨c1, c2⟩ := hc c (.inl h1)
      exact .inl ⟨c, .inl h1, (c62_rule_iff hD hq c1 c2 none hr m).1 h2⟩
    · obtain ⟨c1, c2⟩ := hc c (.inr h1)
      exact .inl ⟨c, .inr h1, (c62_rule_iff hD hq c1 c2 none hr m).1 h2⟩
    · obtain ⟨c1, ⟨l2, c2, c3⟩, c4⟩ := hR.inter _ h1
      exact .inr ⟨c, same, l2, h1, c2, (c63_rule_iff hD hq c1 c2 c3 c4 (hw _ h1) hr m).1 h2⟩
  · rintro (⟨c, h1, h2⟩ | ⟨c, same, l2, h1, h3, h2⟩)
    · obtain ⟨c1, c2⟩ := hc c h1
      have := (c62_rule_iff hD hq c1 c2 none hr m).2 h2
      rcases h1 with h1 | h1
      · exact .inl (.inl ⟨c, h1, this⟩)
      · exact .inl (.inr ⟨c, h1, this⟩)
    · obtain ⟨c1, ⟨l2', c2, c3⟩, c4⟩ := hR.inter _ h1
      have he : l2' = l2 := Option.some.inj (c2.symm.trans h3)
      subst he
      exact .inr ⟨(c, same), h1, (c63_rule_iff hD hq c1 c2 c3 c4 (hw _ h1) hr m).2 h2⟩

theorem CutNear.symm {c2c : Bool} {a b : Box} {d : Int} (h : CutNear c2c a b d) : CutNear c2c b a d := by
  have hs : ∀ x y : Int, (x - y) * (x - y) = (y - x) * (y - x) := fun x y => by rw [← Int.neg_sub y x, Int.neg_mul_neg]
  rcases h with ⟨h1, p, q, hp, hq, h⟩ | ⟨h1, p, q, hp, hq, h⟩
  · exact .inl ⟨h1, q, p, hq, hp, by rw [hs q.x, hs q.y]; exact h⟩
  · exact .inr ⟨h1, q, p, hq, hp, by rw [hs q.x, hs q.y]; exact h⟩

theorem CutMarker.symm {D : CutDb} {r s : GRect} {rule : GRule} {m : GMk} (h : CutMarker D r s rule m) : CutMarker D s r rule m :=
  ⟨h.1.symm, h.2.1, h.2.2.1, h.2.2.2.1, fun o => (h.2.2.2.2 o).trans or_comm⟩

theorem CutApplies.symm {D : CutDb} {c : CutSpRule} {r s : GRect} (h : CutApplies D c r s) : CutApplies D c s r := by
  rcases h with h | h | h
  · exact .inl h
  · exact .inr (.inl (Ne.symm h))
  · exact .inr (.inr h)

theorem CutTooClose.symm {D : CutDb} {c : CutSpRule} {r s : GRect} {m : GMk} (h : CutTooClose D c r s m) : CutTooClose D c s r m := by
  obtain ⟨h1, h2, h3, ⟨q, h4, h5⟩, h6, h7, h8⟩ := h
  refine ⟨Ne.symm h1, h2.symm, fun ⟨p, hp, hq⟩ => h3 ⟨p, hq, hp⟩, ⟨q, ?_, h5.symm⟩, ?_, ?_, h8.symm⟩
  · unfold CutRequired at h4 ⊢
    rw [or_comm (a := WideBlockage D D.layer s)]
    exact h4
  · rintro ⟨g1, g2, g3, g4⟩
    exact h6 ⟨g1, g2, g3.symm, g3 ▸ g4⟩
  · intro hp
    obtain ⟨g1, g2⟩ := h7 hp
    refine ⟨?_, ?_⟩
    · have : runLen s.box r.box = runLen r.box s.box := by unfold runLen sharedX sharedY; omega
      omega
    · rintro ⟨l, k1, t, k2, k3, k4⟩
      exact g2 ⟨l, k1, t, k2, k3.symm, k4⟩

/-- **C62** checking one net only finds every violation of the rules of the layer that the net takes part in, if no rule has a condition on
neighbouring cuts -/
theorem c62_target_complete {D : CutDb} (hD : D.Ok) (hR : D.RulesOk) {query : Int → Box → List GRect} (hq : CutQuery D query)
    (c : CutSpRule) (hc : c ∈ D.cons ∨ c ∈ D.consSame) (hadj : c.adj = none) {r s : GRect} (hr : r ∈ D.rects D.layer) (hs : s ∈ D.rects D.layer)
    (ha : CutApplies D c r s) (m : GMk) (hm : CutShort D r s m ∨ CutTooClose D c r s m) (n : Nat) (hn : r.net = n ∨ s.net = n) :
    m ∈ cutLayer D query (some n) := by
  have hcr : ∀ x, CutCrowded D c x := fun x k h => by rw [hadj] at h; exact absurd h (by simp)
  have go : ∀ r s : GRect, r ∈ D.rects D.layer → s ∈ D.rects D.layer → CutApplies D c r s → CutShort D r s m ∨ CutTooClose D c r s m → r.net = n →
      m ∈ cutLayer D query (some n) := by
    intro r s hr hs ha hm hn
    obtain ⟨c1, c2⟩ := hR.cons c (List.mem_append.2 hc)
    have := (c62_rule_iff hD hq c1 c2 none hr m).2 ⟨hcr r, s, hs, ha, hm⟩
    unfold cutLayer
    simp only [List.mem_flatMap, List.mem_filter]
    refine ⟨r, ⟨hr, by simp [hn]⟩, ?_⟩
    unfold cutRect
    simp only [List.mem_append, List.mem_flatMap]
    rcases hc with hc | hc
    · exact .inl (.inl ⟨c, hc, this⟩)
    · exact .inl (.inr ⟨c, hc, this⟩)
  rcases hn with hn | hn
  · exact go r s hr hs ha hm hn
  · refine go s r hs hr ha.symm ?_ hn
    rcases hm with ⟨h1, h2, ⟨p, h3, h4⟩, h5⟩ | hm
    · exact .inl ⟨Ne.symm h1, h2.symm, ⟨p, h4, h3⟩, h5.symm⟩
    · exact .inr hm.symm

/-- **C62** the AREA of a rule is ignored: the code compares with the area converted to `bool` -/
theorem c62_area_ignored {D : CutDb} (hD : D.Ok) (c : CutSpRule) (a : Int) {r s : GRect} (hr : r ∈ D.rects D.layer) (hs : s ∈ D.rects D.layer)
    (m : GMk) : m ∈ cutPair D { c with area := a } r D.layer s ↔ m ∈ cutPair D c r D.layer s := by
  rw [c62_pair_iff hD _ hr hs, c62_pair_iff hD _ hr hs]
  exact Iff.rfl

/-! ### examples -/

/-- shapes touching a box, by scanning all -/
def scanCuts (D : CutDb) (l : Int) (b : Box) : List GRect := (D.rects l).filter (fun s => b.overlaps s.box)

theorem scanCuts_query {D : CutDb} (hD : D.Ok) : CutQuery D (scanCuts D) := by
  intro l b hb
  constructor
  · refine List.Nodup.sublist List.filter_sublist ?_
    refine List.Pairwise.imp (R := fun r s => r.id ≠ s.id) ?_ (hD.ids l)
    intro a b h he
    exact h (he ▸ rfl)
  · intro s
    unfold scanCuts
    rw [List.mem_filter]
    exact and_congr_right (fun hs => overlaps_iff_touches hb (hD.box hs))

def exCut (id net : Nat) (x y : Int) : GRect := ⟨id, ⟨⟨x, y⟩, ⟨x + 10, y + 10⟩⟩, net, false⟩

def exCutRule (id : Nat) (spc : Int) : CutSpRule := ⟨id, spc, false, false, none, false, none, -1, false, false, -1⟩

/-- three cuts in a row on layer 3, and one on layer 5 -/
def exCutDb (cons consSame : List CutSpRule) (inter : List (CutSpRule × Option CutSpRule)) : CutDb where
  layer := 3
  width := fun _ => 10
  net := fun n => ⟨n, false, false⟩
  rects := fun l => if l = 3 then [exCut 0 0 0 0, exCut 1 1 25 0, exCut 2 2 50 0] else if l = 5 then [exCut 3 0 0 28] else []
  cons := cons
  consSame := consSame
  inter := inter
  interSame := fun _ => decide (inter.any (fun p => p.2.isSome) = true)

theorem exCutDb_ok (cons consSame : List CutSpRule) (inter : List (CutSpRule × Option CutSpRule)) : (exCutDb cons consSame inter).Ok := by
  constructor
  · intro l r hr
    simp only [exCutDb] at hr
    split at hr
    · simp [exCut] at hr
      rcases hr with rfl | rfl | rfl <;> simp [Box.left, Box.right, Box.bottom, Box.top]
    · split at hr
      · simp [exCut] at hr
        subst hr; simp [Box.left, Box.right, Box.bottom, Box.top]
      · simp at hr
  · intro l
    simp only [exCutDb]
    split
    · decide
    · split <;> simp
  · intro l l' hl r hr s hs
    simp only [exCutDb] at hr hs
    split at hr <;> split at hs
    · omega
    · split at hs
      · simp [exCut] at hr hs
        subst hs
        rcases hr with rfl | rfl | rfl <;> simp
      · simp at hs
    · split at hr
      · simp [exCut] at hr hs
        subst hr
        rcases hs with rfl | rfl | rfl <;> simp
      · simp at hr
    · split at hr
      · split at hs
        · omega
        · simp at hs
      · simp at hr

/-- **C62** a rule for cuts of one net is applied to cuts of different nets as well: nets 0 and 1 keep the distance 12 of the rule for
different nets, and the rule for one net (20) is reported -/
theorem c62_same_net_applies_to_others :
    let D := exCutDb [exCutRule 1 12] [{ exCutRule 2 20 with sameNet := true }] []
    (cutLayer D (scanCuts D) none).map (fun m => (m.rule, m.srcs)) =
      [(.other 2, [0, 1]), (.other 2, [0, 1]), (.other 2, [1, 2]), (.other 2, [1, 2])] ∧
    D.Ok ∧ D.RulesOk ∧ CutQuery D (scanCuts D) := by
  refine ⟨by decide, exCutDb_ok _ _ _, ?_, scanCuts_query (exCutDb_ok _ _ _)⟩
  constructor
  · intro c hc
    simp [exCutDb] at hc
    rcases hc with rfl | rfl <;> simp [CutSpRule.Ok, exCutRule]
  · intro p hp
    simp [exCutDb] at hp

/-- a rule with a condition: 20 between cuts with two neighbours within 16 -/
def exAdjRule : CutSpRule := { exCutRule 4 20 with adj := some 2, within := 16 }

/-- **C62** with a condition on neighbouring cuts, checking one net only misses violations that net takes part in: the cut of net 1 in the
middle has two neighbours, that of net 0 has one -/
theorem c62_target_incomplete :
    let D := exCutDb [exAdjRule] [] []
    (cutLayer D (scanCuts D) none).map (fun m => (m.rule, m.srcs)) = [(.other 4, [0, 1]), (.other 4, [1, 2])] ∧
    cutLayer D (scanCuts D) (some 0) = [] ∧ D.Ok ∧ D.RulesOk ∧ CutQuery D (scanCuts D) := by
  refine ⟨by decide, by decide, exCutDb_ok _ _ _, ?_, scanCuts_query (exCutDb_ok _ _ _)⟩
  constructor
  · intro c hc
    simp [exCutDb] at hc
    subst hc
    simp [CutSpRule.Ok, exAdjRule, exCutRule]
  · intro p hp
    simp [exCutDb] at hp

/-- **C63** if the same-net version of a rule with another layer asks for more than the rule, violations are missed: the cuts of net 0 on
layers 3 and 5 are 18 apart, 30 is required, but only shapes within 12 are looked at -/
theorem c63_same_net_missed :
    let same : CutSpRule := { exCutRule 6 30 with sameNet := true, second := some 5 }
    let D := exCutDb [] [] [({ exCutRule 5 12 with second := some 5 }, some same)]
    cutLayer D (scanCuts D) none = [] ∧ D.Ok ∧ D.RulesOk ∧ CutQuery D (scanCuts D) ∧
    ∃ r ∈ D.rects 3, ∃ m, CutViolation D r m := by
  intro same D
  have hD : D.Ok := exCutDb_ok _ _ _
  have h3 : exCut 0 0 0 0 ∈ D.rects 3 := by simp [D, exCutDb]
  have h5 : exCut 3 0 0 28 ∈ D.rects 5 := by simp [D, exCutDb]
  refine ⟨by decide, hD, ?_, scanCuts_query hD, exCut 0 0 0 0, h3, ⟨⟨⟨0, 10⟩, ⟨10, 28⟩⟩, 3, .other 6, [0]⟩, .inr ?_⟩
  · constructor
    · intro c hc
      simp [D, exCutDb] at hc
    · intro p hp
      simp [D, exCutDb] at hp
      subst hp
      simp [CutSpRule.Ok, exCutRule, same, D, exCutDb]
  · refine ⟨_, _, 5, List.mem_singleton.2 rfl, rfl, fun k hk => by simp [exCutRule] at hk, exCut 3 0 0 28, h5, same, .inr ⟨rfl, rfl⟩, ?_⟩
    exact (c63_pair_iff hD same (by decide) h3 h5 _).1 (by decide)

end TR
