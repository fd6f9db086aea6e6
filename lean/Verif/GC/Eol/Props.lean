import Verif.GC.Eol.Spec
import Verif.GC.Props
import Verif.WB.Merge
/-! # End-of-line spacing: theorems (C61) -/
namespace TR

theorem LEdge.Ok.cases {e : LEdge} (h : e.Ok) :
    (e.dir = .E ∧ e.unit = ⟨1, 0⟩ ∧ e.lo.y = e.hi.y ∧ e.lo.x < e.hi.x ∧ e.len = e.hi.x - e.lo.x) ∨
    (e.dir = .W ∧ e.unit = ⟨-1, 0⟩ ∧ e.lo.y = e.hi.y ∧ e.hi.x < e.lo.x ∧ e.len = e.lo.x - e.hi.x) ∨
    (e.dir = .N ∧ e.unit = ⟨0, 1⟩ ∧ e.lo.x = e.hi.x ∧ e.lo.y < e.hi.y ∧ e.len = e.hi.y - e.lo.y) ∨
    (e.dir = .S ∧ e.unit = ⟨0, -1⟩ ∧ e.lo.x = e.hi.x ∧ e.hi.y < e.lo.y ∧ e.len = e.lo.y - e.hi.y) := by
  rcases h with ⟨h1, h2⟩ | ⟨h1, h2⟩
  · have hx : e.hi.x - e.lo.x = 0 := by omega
    rcases Int.lt_or_gt_of_ne h2 with h | h
    · refine Or.inr (Or.inr (Or.inl ⟨?_, ?_, h1, h, ?_⟩))
      · simp [LEdge.dir, h1, h]
      · simp [LEdge.unit, hx, Int.sign_eq_one_of_pos (by omega : 0 < e.hi.y - e.lo.y)]
      · simp only [LEdge.len]; omega
    · refine Or.inr (Or.inr (Or.inr ⟨?_, ?_, h1, h, ?_⟩))
      · have : ¬ e.lo.y < e.hi.y := by omega
        simp [LEdge.dir, h1, this]
      · simp [LEdge.unit, hx, Int.sign_eq_neg_one_of_neg (by omega : e.hi.y - e.lo.y < 0)]
      · simp only [LEdge.len]; omega
  · have hy : e.hi.y - e.lo.y = 0 := by omega
    rcases Int.lt_or_gt_of_ne h1 with h | h
    · refine Or.inl ⟨?_, ?_, h2, h, ?_⟩
      · simp [LEdge.dir, h1, h]
      · simp [LEdge.unit, hy, Int.sign_eq_one_of_pos (by omega : 0 < e.hi.x - e.lo.x)]
      · simp only [LEdge.len]; omega
    · refine Or.inr (Or.inl ⟨?_, ?_, h2, h, ?_⟩)
      · have : ¬ e.lo.x < e.hi.x := by omega
        simp [LEdge.dir, h1, this]
      · simp [LEdge.unit, hy, Int.sign_eq_neg_one_of_neg (by omega : e.hi.x - e.lo.x < 0)]
      · simp only [LEdge.len]; omega

theorem box_has_unique {A B : Box} (h : ∀ p, A.Has p ↔ B.Has p) (hA : A.Proper) : A = B := by
  obtain ⟨⟨ax, ay⟩, ⟨aX, aY⟩⟩ := A
  obtain ⟨⟨bx, by'⟩, ⟨bX, bY⟩⟩ := B
  simp only [Box.Has, Box.Proper, Box.left, Box.right, Box.bottom, Box.top] at *
  have h1 := (h ⟨ax, ay⟩).1 (by simp only; omega)
  have h2 := (h ⟨aX, aY⟩).1 (by simp only; omega)
  simp only at h1 h2
  have h3 := (h ⟨bx, by'⟩).2 (by simp only; omega)
  have h4 := (h ⟨bX, bY⟩).2 (by simp only; omega)
  simp only at h3 h4
  simp only [Box.mk.injEq, Point.mk.injEq]
  omega

/-- **C61** the windows and the strip that the code computes separately for the four directions are the regions of the rule -/
theorem c61_windows (c : EolRule) (e : LEdge) (he : e.Ok) :
    IsEolWindow c e (eolBox c e) ∧ IsParWindow c true e (eolParBox c true e) ∧ IsParWindow c false e (eolParBox c false e) ∧
    IsStrip e (edgeStrip e) := by
  rcases he.cases with ⟨hd, hu, h1, h2, h3⟩ | ⟨hd, hu, h1, h2, h3⟩ | ⟨hd, hu, h1, h2, h3⟩ | ⟨hd, hu, h1, h2, h3⟩ <;>
    refine ⟨fun p => ?_, fun p => ?_, fun p => ?_, fun p => ?_⟩ <;>
    simp [eolBox, eolParBox, edgeStrip, hd, Along, Outward, hu, h3, Box.Has, Box.left, Box.right, Box.bottom, Box.top] <;> omega

theorem eolBox_proper {c : EolRule} (hc : c.Ok) {e : LEdge} (he : e.Ok) : (eolBox c e).Proper := by
  obtain ⟨c1, c2, -⟩ := hc
  rcases he.cases with ⟨hd, hu, h1, h2, h3⟩ | ⟨hd, hu, h1, h2, h3⟩ | ⟨hd, hu, h1, h2, h3⟩ | ⟨hd, hu, h1, h2, h3⟩ <;>
    simp [eolBox, hd, Box.Proper, Box.left, Box.right, Box.bottom, Box.top] <;> omega

theorem eolParBox_proper {c : EolRule} (hc : c.Ok) (hp : c.parSpace ≠ -1) {e : LEdge} (he : e.Ok) (low : Bool) : (eolParBox c low e).Proper := by
  obtain ⟨c1, c2, c3⟩ := hc
  have := c3 hp
  rcases he.cases with ⟨hd, hu, h1, h2, h3⟩ | ⟨hd, hu, h1, h2, h3⟩ | ⟨hd, hu, h1, h2, h3⟩ | ⟨hd, hu, h1, h2, h3⟩ <;> cases low <;>
    simp [eolParBox, hd, Box.Proper, Box.left, Box.right, Box.bottom, Box.top] <;> omega

theorem edgeStrip_proper {e : LEdge} (he : e.Ok) : (edgeStrip e).Proper := by
  rcases he.cases with ⟨hd, hu, h1, h2, h3⟩ | ⟨hd, hu, h1, h2, h3⟩ | ⟨hd, hu, h1, h2, h3⟩ | ⟨hd, hu, h1, h2, h3⟩ <;>
    simp [edgeStrip, hd, Box.Proper, Box.left, Box.right, Box.bottom, Box.top] <;> omega

theorem strip_eq {e : LEdge} (he : e.Ok) {S : Box} (h : IsStrip e S) : S = edgeStrip e :=
  (box_has_unique (fun p => ((c61_windows ⟨0, 0, 0, 0, 0, 0, false⟩ e he).2.2.2 p).trans (h p).symm) (edgeStrip_proper he)).symm

theorem eolWindow_eq {c : EolRule} (hc : c.Ok) {e : LEdge} (he : e.Ok) {W : Box} (h : IsEolWindow c e W) : W = eolBox c e :=
  (box_has_unique (fun p => ((c61_windows c e he).1 p).trans (h p).symm) (eolBox_proper hc he)).symm

theorem isParWindow_box (c : EolRule) (e : LEdge) (he : e.Ok) (low : Bool) : IsParWindow c low e (eolParBox c low e) := by
  cases low
  · exact (c61_windows c e he).2.2.1
  · exact (c61_windows c e he).2.1

theorem parWindow_eq {c : EolRule} (hc : c.Ok) (hp : c.parSpace ≠ -1) {e : LEdge} (he : e.Ok) {low : Bool} {W : Box} (h : IsParWindow c low e W) :
    W = eolParBox c low e :=
  (box_has_unique (fun p => (isParWindow_box c e he low p).trans (h p).symm) (eolParBox_proper hc hp he low)).symm

theorem meetInside_iff {a b : Box} : meetInside a b = true ↔ ∃ c, CellOf a c ∧ CellOf b c := by
  simp only [meetInside, Bool.and_eq_true, decide_eq_true_eq, CellOf]
  constructor
  · intro h
    exact ⟨⟨max a.left b.left, max a.bottom b.bottom⟩, by simp only; omega, by simp only; omega⟩
  · rintro ⟨c, h1, h2⟩; omega

theorem cellOf_meet {a b : Box} {c : Point} : CellOf (boxMeet a b) c ↔ CellOf a c ∧ CellOf b c := by
  simp only [CellOf, boxMeet, Box.left, Box.right, Box.bottom, Box.top]; omega

theorem stripIn_iff {f : LEdge} (hf : f.Ok) {W : Box} : StripIn f W ↔ meetInside W (edgeStrip f) = true := by
  rw [meetInside_iff]
  constructor
  · rintro ⟨S, hS, c, h1, h2⟩; rw [strip_eq hf hS] at h2; exact ⟨c, h1, h2⟩
  · rintro ⟨c, h1, h2⟩; exact ⟨_, (c61_windows ⟨0, 0, 0, 0, 0, 0, false⟩ f hf).2.2.2, c, h1, h2⟩

theorem stripInRouted_iff {D : EolDb} {f : LEdge} (hf : f.Ok) {W : Box} : StripInRouted D f W ↔ stripRouted D W f = true := by
  simp only [StripInRouted, stripRouted, Bool.and_eq_true, Bool.not_eq_true', decide_eq_true_eq]
  have hz : coveredArea (boxMeet W (edgeStrip f)) (D.route f.net) ≠ 0 ↔
      ∃ c, (CellOf W c ∧ CellOf (edgeStrip f) c) ∧ ∃ s ∈ D.route f.net, CellOf s c := by
    rw [Ne, covered_zero, Classical.not_not]; simp only [cellOf_meet]
  rw [hz]
  constructor
  · rintro ⟨h, S, hS, c, h1, h2, h3⟩
    rw [strip_eq hf hS] at h2
    exact ⟨h, c, ⟨h1, h2⟩, h3⟩
  · rintro ⟨h, c, ⟨h1, h2⟩, h3⟩
    exact ⟨h, _, (c61_windows ⟨0, 0, 0, 0, 0, 0, false⟩ f hf).2.2.2, c, h1, h2, h3⟩

theorem segOrient_unit {p e : LEdge} (hp : p.Ok) (he : e.Ok) : segOrient p.lo p.hi e.lo e.hi = p.unit.x * e.unit.y - p.unit.y * e.unit.x := by
  rcases hp.cases with ⟨-, hu, h1, h2, -⟩ | ⟨-, hu, h1, h2, -⟩ | ⟨-, hu, h1, h2, -⟩ | ⟨-, hu, h1, h2, -⟩
  all_goals
    rw [hu]
    simp only [segOrient, LEdge.unit]
  · rw [show p.hi.y - p.lo.y = 0 by omega, Int.zero_mul, Int.sub_zero, Int.sign_mul, Int.sign_eq_one_of_pos (by omega : 0 < p.hi.x - p.lo.x)]; omega
  · rw [show p.hi.y - p.lo.y = 0 by omega, Int.zero_mul, Int.sub_zero, Int.sign_mul, Int.sign_eq_neg_one_of_neg (by omega : p.hi.x - p.lo.x < 0)]; omega
  · rw [show p.hi.x - p.lo.x = 0 by omega, Int.zero_mul, Int.zero_sub, Int.sign_neg, Int.sign_mul,
      Int.sign_eq_one_of_pos (by omega : 0 < p.hi.y - p.lo.y)]; omega
  · rw [show p.hi.x - p.lo.x = 0 by omega, Int.zero_mul, Int.zero_sub, Int.sign_neg, Int.sign_mul,
      Int.sign_eq_neg_one_of_neg (by omega : p.hi.y - p.lo.y < 0)]; omega

theorem unit_cases {e : LEdge} (he : e.Ok) : e.unit = ⟨1, 0⟩ ∨ e.unit = ⟨-1, 0⟩ ∨ e.unit = ⟨0, 1⟩ ∨ e.unit = ⟨0, -1⟩ := by
  rcases he.cases with ⟨-, hu, -⟩ | ⟨-, hu, -⟩ | ⟨-, hu, -⟩ | ⟨-, hu, -⟩ <;> simp [hu]

theorem orient_iff {p e : LEdge} (hp : p.Ok) (he : e.Ok) (low : Bool) :
    (if low then segOrient p.lo p.hi e.lo e.hi else segOrient e.lo e.hi p.lo p.hi) = -1 ↔
      p.unit = (if low = true then ⟨-e.unit.y, e.unit.x⟩ else ⟨e.unit.y, -e.unit.x⟩) := by
  cases low <;> simp only [if_true, Bool.false_eq_true, if_false, segOrient_unit hp he, segOrient_unit he hp] <;>
    rcases unit_cases hp with h | h | h | h <;> rcases unit_cases he with h' | h' | h' | h' <;> simp [h, h']

theorem dir_opposite {e f : LEdge} (he : e.Ok) (hf : f.Ok) : e.dir.code + f.dir.code = 7 ↔ f.unit = ⟨-e.unit.x, -e.unit.y⟩ := by
  rcases he.cases with ⟨hd, hu, -⟩ | ⟨hd, hu, -⟩ | ⟨hd, hu, -⟩ | ⟨hd, hu, -⟩ <;>
    rcases hf.cases with ⟨hd', hu', -⟩ | ⟨hd', hu', -⟩ | ⟨hd', hu', -⟩ | ⟨hd', hu', -⟩ <;> simp [hd, hd', hu, hu', EDir.code]

/-- **C61** which edges count as ends of lines -/
theorem c61_end_of_line (c : EolRule) (e : LEdge) (he : e.Ok) (ht : e.Turns) : isEolEdge c e = true ↔ EndOfLine c e := by
  have hs : ∀ a b : Int, (a * b).sign = a.sign * b.sign := Int.sign_mul
  have key : (segOrient e.prevLo e.lo e.lo e.hi = 1 ↔ 0 < -Outward e e.prevLo) ∧ (segOrient e.lo e.hi e.hi e.nextHi = 1 ↔ 0 < -Outward e e.nextHi) := by
    rcases he.cases with ⟨-, hu, h1, h2, -⟩ | ⟨-, hu, h1, h2, -⟩ | ⟨-, hu, h1, h2, -⟩ | ⟨-, hu, h1, h2, -⟩
    · obtain ⟨t1, t2, t3, t4⟩ := ht.2 h1
      simp only [segOrient, Outward, hu, show e.hi.y - e.lo.y = 0 by omega, show e.lo.x - e.prevLo.x = 0 by omega,
        show e.nextHi.x - e.hi.x = 0 by omega, Int.zero_mul, Int.mul_zero, Int.mul_one, Int.zero_sub, Int.sub_zero, Int.sign_neg, hs,
        Int.sign_eq_one_of_pos (by omega : 0 < e.hi.x - e.lo.x), Int.one_mul]
      constructor
      · rw [← Int.sign_neg, Int.sign_eq_one_iff_pos]; omega
      · rw [Int.sign_eq_one_iff_pos]; omega
    · obtain ⟨t1, t2, t3, t4⟩ := ht.2 h1
      simp only [segOrient, Outward, hu, show e.hi.y - e.lo.y = 0 by omega, show e.lo.x - e.prevLo.x = 0 by omega,
        show e.nextHi.x - e.hi.x = 0 by omega, Int.zero_mul, Int.mul_zero, Int.zero_sub, Int.sub_zero, Int.sign_neg, hs,
        Int.sign_eq_neg_one_of_neg (by omega : e.hi.x - e.lo.x < 0), Int.mul_neg, Int.mul_one, Int.neg_neg, Int.neg_mul, Int.one_mul]
      constructor
      · rw [Int.sign_eq_one_iff_pos]; omega
      · rw [← Int.sign_neg, Int.sign_eq_one_iff_pos]; omega
    · obtain ⟨t1, t2, t3, t4⟩ := ht.1 h1
      simp only [segOrient, Outward, hu, show e.hi.x - e.lo.x = 0 by omega, show e.lo.y - e.prevLo.y = 0 by omega,
        show e.nextHi.y - e.hi.y = 0 by omega, Int.zero_mul, Int.mul_zero, Int.mul_one, Int.zero_sub, Int.sub_zero, Int.sign_neg, hs,
        Int.sign_eq_one_of_pos (by omega : 0 < e.hi.y - e.lo.y), Int.one_mul]
      constructor
      · rw [Int.sign_eq_one_iff_pos]; omega
      · rw [← Int.sign_neg, Int.sign_eq_one_iff_pos]; omega
    · obtain ⟨t1, t2, t3, t4⟩ := ht.1 h1
      simp only [segOrient, Outward, hu, show e.hi.x - e.lo.x = 0 by omega, show e.lo.y - e.prevLo.y = 0 by omega,
        show e.nextHi.y - e.hi.y = 0 by omega, Int.zero_mul, Int.mul_zero, Int.zero_sub, Int.sub_zero, Int.sign_neg, hs,
        Int.sign_eq_neg_one_of_neg (by omega : e.hi.y - e.lo.y < 0), Int.mul_neg, Int.mul_one, Int.neg_neg, Int.neg_mul, Int.one_mul]
      constructor
      · rw [← Int.sign_neg, Int.sign_eq_one_iff_pos]; omega
      · rw [Int.sign_eq_one_iff_pos]; omega
  unfold isEolEdge EndOfLine
  by_cases hw : e.len ≥ c.width
  · rw [if_pos hw]; simp; omega
  · rw [if_neg hw, ← key.1, ← key.2]
    by_cases a : segOrient e.prevLo e.lo e.lo e.hi = 1 <;> by_cases b : segOrient e.lo e.hi e.hi e.nextHi = 1 <;> simp [a, b] <;> omega

/-- an edge whose strip reaches into a box touches the box -/
theorem strip_touches {f : LEdge} (hf : f.Ok) {W : Box} (h : meetInside W (edgeStrip f) = true) :
    ∃ p, W.Has p ∧ min f.lo.x f.hi.x ≤ p.x ∧ p.x ≤ max f.lo.x f.hi.x ∧ min f.lo.y f.hi.y ≤ p.y ∧ p.y ≤ max f.lo.y f.hi.y := by
  obtain ⟨c, h1, h2⟩ := meetInside_iff.1 h
  rcases hf.cases with ⟨hd, hu, e1, e2, -⟩ | ⟨hd, hu, e1, e2, -⟩ | ⟨hd, hu, e1, e2, -⟩ | ⟨hd, hu, e1, e2, -⟩ <;>
    simp only [edgeStrip, hd, CellOf, Box.left, Box.right, Box.bottom, Box.top] at h1 h2
  · refine ⟨⟨c.x, f.lo.y⟩, ?_⟩; simp only [Box.Has, Box.left, Box.right, Box.bottom, Box.top]; omega
  · refine ⟨⟨c.x, f.lo.y⟩, ?_⟩; simp only [Box.Has, Box.left, Box.right, Box.bottom, Box.top]; omega
  · refine ⟨⟨f.lo.x, c.y⟩, ?_⟩; simp only [Box.Has, Box.left, Box.right, Box.bottom, Box.top]; omega
  · refine ⟨⟨f.lo.x, c.y⟩, ?_⟩; simp only [Box.Has, Box.left, Box.right, Box.bottom, Box.top]; omega

/-- an edge counts for the loop over parallel edges -/
def ParGood (c : EolRule) (low : Bool) (e p : LEdge) : Prop :=
  (if low then segOrient p.lo p.hi e.lo e.hi else segOrient e.lo e.hi p.lo p.hi) = -1 ∧ meetInside (eolParBox c low e) (edgeStrip p) = true

theorem parLoop_spec (D : EolDb) (c : EolRule) (low : Bool) (e : LEdge) (L : List LEdge) :
    ∀ s h, ((parLoop D c low e L (s, h)).1 = true ↔ s = true ∨ ∃ p ∈ L, ParGood c low e p) ∧
      ((parLoop D c low e L (s, h)).2 = true ↔ h = true ∨ ∃ p ∈ L, ParGood c low e p ∧ stripRouted D (eolParBox c low e) p = true) := by
  induction L with
  | nil => intro s h; simp [parLoop]
  | cons p t ih =>
    intro s h
    unfold parLoop
    by_cases h1 : (if low then segOrient p.lo p.hi e.lo e.hi else segOrient e.lo e.hi p.lo p.hi) = -1
    · rw [if_neg (by simpa using h1)]
      by_cases h2 : meetInside (eolParBox c low e) (edgeStrip p) = true
      · have hg : ParGood c low e p := ⟨h1, h2⟩
        rw [if_neg (by simp [h2])]
        by_cases h3 : (!h && stripRouted D (eolParBox c low e) p) = true
        · simp only [h3, if_true]
          simp only [Bool.and_eq_true] at h3
          exact ⟨⟨fun _ => Or.inr ⟨p, by simp, hg⟩, fun _ => trivial⟩, ⟨fun _ => Or.inr ⟨p, by simp, hg, h3.2⟩, fun _ => trivial⟩⟩
        · simp only [h3, if_false, Bool.false_eq_true]
          obtain ⟨i1, i2⟩ := ih true h
          refine ⟨?_, ?_⟩
          · rw [i1]; exact ⟨fun _ => Or.inr ⟨p, by simp, hg⟩, fun _ => Or.inl rfl⟩
          · rw [i2]
            constructor
            · rintro (a | ⟨q, b1, b2⟩)
              · exact Or.inl a
              · exact Or.inr ⟨q, by simp [b1], b2⟩
            · rintro (a | ⟨q, b1, b2, b3⟩)
              · exact Or.inl a
              · rcases List.mem_cons.1 b1 with rfl | b1
                · cases hh : h with
                  | true => exact Or.inl rfl
                  | false => exfalso; apply h3; simp [hh, b3]
                · exact Or.inr ⟨q, b1, b2, b3⟩
      · rw [if_pos (by simp [h2])]
        obtain ⟨i1, i2⟩ := ih s h
        have hn : ∀ P : LEdge → Prop, (∃ q ∈ p :: t, ParGood c low e q ∧ P q) ↔ ∃ q ∈ t, ParGood c low e q ∧ P q := by
          intro P
          constructor
          · rintro ⟨q, b1, b2, b3⟩
            rcases List.mem_cons.1 b1 with rfl | b1
            · exact absurd b2.2 h2
            · exact ⟨q, b1, b2, b3⟩
          · rintro ⟨q, b1, b2⟩; exact ⟨q, by simp [b1], b2⟩
        refine ⟨?_, ?_⟩
        · rw [i1]; have := hn (fun _ => True); simp only [and_true] at this; rw [this]
        · rw [i2, hn]
    · rw [if_pos (by simpa using h1)]
      obtain ⟨i1, i2⟩ := ih s h
      have hn : ∀ P : LEdge → Prop, (∃ q ∈ p :: t, ParGood c low e q ∧ P q) ↔ ∃ q ∈ t, ParGood c low e q ∧ P q := by
        intro P
        constructor
        · rintro ⟨q, b1, b2, b3⟩
          rcases List.mem_cons.1 b1 with rfl | b1
          · exact absurd b2.1 h1
          · exact ⟨q, b1, b2, b3⟩
        · rintro ⟨q, b1, b2⟩; exact ⟨q, by simp [b1], b2⟩
      refine ⟨?_, ?_⟩
      · rw [i1]; have := hn (fun _ => True); simp only [and_true] at this; rw [this]
      · rw [i2, hn]

/-- an edge counts for the loop over opposite edges -/
def OppGood (c : EolRule) (e f : LEdge) : Prop := e.dir.code + f.dir.code = 7 ∧ meetInside (eolBox c e) (edgeStrip f) = true

theorem eolLoop_spec (D : EolDb) (c : EolRule) (e : LEdge) (m : GMk) (L : List LEdge) :
    ∀ h, m ∈ eolLoop D c e L h ↔ ∃ l1 f l2, L = l1 ++ f :: l2 ∧ OppGood c e f ∧ m ∈ eolHelper D c e f ∧
      (h = true ∨ ∃ g ∈ l1 ++ [f], OppGood c e g ∧ stripRouted D (eolBox c e) g = true) := by
  induction L with
  | nil => intro h; simp [eolLoop]
  | cons a t ih =>
    intro h
    have skip : ¬ OppGood c e a → ((∃ l1 f l2, a :: t = l1 ++ f :: l2 ∧ OppGood c e f ∧ m ∈ eolHelper D c e f ∧
        (h = true ∨ ∃ g ∈ l1 ++ [f], OppGood c e g ∧ stripRouted D (eolBox c e) g = true)) ↔
        (∃ l1 f l2, t = l1 ++ f :: l2 ∧ OppGood c e f ∧ m ∈ eolHelper D c e f ∧
        (h = true ∨ ∃ g ∈ l1 ++ [f], OppGood c e g ∧ stripRouted D (eolBox c e) g = true))) := by
      intro hn
      constructor
      · rintro ⟨l1, f, l2, e1, e2, e3, e4⟩
        cases l1 with
        | nil => cases e1; exact absurd e2 hn
        | cons x l1 =>
          cases e1
          refine ⟨l1, f, l2, rfl, e2, e3, ?_⟩
          rcases e4 with e4 | ⟨g, g1, g2⟩
          · exact Or.inl e4
          · simp only [List.cons_append, List.mem_cons] at g1
            rcases g1 with rfl | g1
            · exact absurd g2.1 hn
            · exact Or.inr ⟨g, g1, g2⟩
      · rintro ⟨l1, f, l2, rfl, e2, e3, e4⟩
        refine ⟨a :: l1, f, l2, rfl, e2, e3, ?_⟩
        rcases e4 with e4 | ⟨g, g1, g2⟩
        · exact Or.inl e4
        · exact Or.inr ⟨g, by simp only [List.cons_append, List.mem_cons]; exact Or.inr g1, g2⟩
    unfold eolLoop
    by_cases h1 : e.dir.code + a.dir.code = 7
    · rw [if_neg (by simpa using h1)]
      by_cases h2 : meetInside (eolBox c e) (edgeStrip a) = true
      · have hg : OppGood c e a := ⟨h1, h2⟩
        rw [if_neg (by simp [h2])]
        simp only
        -- the value of `hasRoute` after this edge
        have hhr : ∀ hr : Bool, hr = (if (!h && stripRouted D (eolBox c e) a) = true then true else h) →
            (hr = true ↔ h = true ∨ stripRouted D (eolBox c e) a = true) := by
          intro hr e; subst e; cases h <;> cases stripRouted D (eolBox c e) a <;> simp
        generalize hhe : (if (!h && stripRouted D (eolBox c e) a) = true then true else h) = hr
        have hv := hhr hr hhe.symm
        have up : ∀ hr' : Bool, hr' = hr → ((∃ l1 f l2, t = l1 ++ f :: l2 ∧ OppGood c e f ∧ m ∈ eolHelper D c e f ∧
            (hr' = true ∨ ∃ g ∈ l1 ++ [f], OppGood c e g ∧ stripRouted D (eolBox c e) g = true)) ↔
            ∃ l1 f l2, a :: t = (a :: l1) ++ f :: l2 ∧ OppGood c e f ∧ m ∈ eolHelper D c e f ∧
            (h = true ∨ ∃ g ∈ (a :: l1) ++ [f], OppGood c e g ∧ stripRouted D (eolBox c e) g = true)) := by
          intro hr' ehr
          subst ehr
          constructor
          · rintro ⟨l1, f, l2, rfl, e2, e3, e4⟩
            refine ⟨l1, f, l2, rfl, e2, e3, ?_⟩
            rcases e4 with e4 | ⟨g, g1, g2⟩
            · rcases hv.1 e4 with q | q
              · exact Or.inl q
              · exact Or.inr ⟨a, by simp, hg, q⟩
            · exact Or.inr ⟨g, by simp only [List.cons_append, List.mem_cons]; exact Or.inr g1, g2⟩
          · rintro ⟨l1, f, l2, e1, e2, e3, e4⟩
            simp only [List.cons_append, List.cons.injEq, true_and] at e1
            refine ⟨l1, f, l2, e1, e2, e3, ?_⟩
            rcases e4 with e4 | ⟨g, g1, g2, g3⟩
            · exact Or.inl (hv.2 (Or.inl e4))
            · simp only [List.cons_append, List.mem_cons] at g1
              rcases g1 with rfl | g1
              · exact Or.inl (hv.2 (Or.inr g3))
              · exact Or.inr ⟨g, g1, g2, g3⟩
        cases hrv : hr with
        | false =>
          simp only [Bool.not_false, if_true]
          rw [ih false, up false hrv.symm]
          constructor
          · rintro ⟨l1, f, l2, e1, r⟩; exact ⟨a :: l1, f, l2, e1, r⟩
          · rintro ⟨l1, f, l2, e1, e2, e3, e4⟩
            cases l1 with
            | nil =>
              simp only [List.nil_append, List.cons.injEq] at e1
              obtain ⟨rfl, rfl⟩ := e1
              exfalso
              have : hr = true := hv.2 (by
                rcases e4 with e4 | ⟨g, g1, g2, g3⟩
                · exact Or.inl e4
                · simp only [List.nil_append, List.mem_singleton] at g1; subst g1; exact Or.inr g3)
              rw [hrv] at this; cases this
            | cons x l1 =>
              have : x = a := by simp only [List.cons_append, List.cons.injEq] at e1; exact e1.1.symm
              subst this
              exact ⟨l1, f, l2, e1, e2, e3, e4⟩
        | true =>
          simp only [Bool.not_true, Bool.false_eq_true, if_false]
          rw [List.mem_append, ih true, up true hrv.symm]
          constructor
          · rintro (r | ⟨l1, f, l2, e1, r⟩)
            · refine ⟨[], a, t, rfl, hg, r, ?_⟩
              rcases hv.1 hrv with q | q
              · exact Or.inl q
              · exact Or.inr ⟨a, by simp, hg, q⟩
            · exact ⟨a :: l1, f, l2, e1, r⟩
          · rintro ⟨l1, f, l2, e1, e2, e3, e4⟩
            cases l1 with
            | nil =>
              simp only [List.nil_append, List.cons.injEq] at e1
              obtain ⟨rfl, rfl⟩ := e1
              exact Or.inl e3
            | cons x l1 =>
              have : x = a := by simp only [List.cons_append, List.cons.injEq] at e1; exact e1.1.symm
              subst this
              exact Or.inr ⟨l1, f, l2, e1, e2, e3, e4⟩
      · rw [if_pos (by simp [h2]), ih h, skip (fun q => h2 q.2)]
    · rw [if_pos (by simpa using h1), ih h, skip (fun q => h1 q.1)]

theorem oppGood_iff {D : EolDb} (hD : D.Ok) {c : EolRule} (hc : c.Ok) {e f : LEdge} (he : e.Ok) (hf : f ∈ D.edges) :
    OppGood c e f ↔ Opposite D c e f := by
  have hfo := (hD.edges f hf).1
  unfold OppGood Opposite
  rw [dir_opposite he hfo]
  constructor
  · rintro ⟨h1, h2⟩; exact ⟨hf, h1, _, (c61_windows c e he).1, (stripIn_iff hfo).2 h2⟩
  · rintro ⟨-, h1, W, hW, h2⟩; rw [eolWindow_eq hc he hW] at h2; exact ⟨h1, (stripIn_iff hfo).1 h2⟩

theorem oppRouted_iff {D : EolDb} (hD : D.Ok) {c : EolRule} (hc : c.Ok) {e f : LEdge} (he : e.Ok) (hf : f ∈ D.edges) :
    (OppGood c e f ∧ stripRouted D (eolBox c e) f = true) ↔ OppositeRouted D c e f := by
  have hfo := (hD.edges f hf).1
  unfold OppositeRouted
  rw [oppGood_iff hD hc he hf]
  constructor
  · rintro ⟨h1, h2⟩; exact ⟨h1, _, (c61_windows c e he).1, (stripInRouted_iff hfo).2 h2⟩
  · rintro ⟨h1, W, hW, h2⟩; rw [eolWindow_eq hc he hW] at h2; exact ⟨h1, (stripInRouted_iff hfo).1 h2⟩

theorem parGood_iff {D : EolDb} (hD : D.Ok) {c : EolRule} (hc : c.Ok) (hp : c.parSpace ≠ -1) {e f : LEdge} (he : e.Ok) (hf : f ∈ D.edges) (low : Bool) :
    ParGood c low e f ↔ Alongside D c low e f := by
  have hfo := (hD.edges f hf).1
  unfold ParGood Alongside
  rw [orient_iff hfo he]
  constructor
  · rintro ⟨h1, h2⟩; exact ⟨hf, h1, _, isParWindow_box c e he low, (stripIn_iff hfo).2 h2⟩
  · rintro ⟨-, h1, W, hW, h2⟩; rw [parWindow_eq hc hp he hW] at h2; exact ⟨h1, (stripIn_iff hfo).1 h2⟩

theorem parQuery_iff {D : EolDb} (hD : D.Ok) {c : EolRule} (hc : c.Ok) (hp : c.parSpace ≠ -1) {query : Box → List LEdge} (hq : EdgeQuery D query)
    {e : LEdge} (he : e.Ok) (low : Bool) :
    ((∃ p ∈ query (eolParBox c low e), ParGood c low e p) ↔ ∃ f, Alongside D c low e f) ∧
    ((∃ p ∈ query (eolParBox c low e), ParGood c low e p ∧ stripRouted D (eolParBox c low e) p = true) ↔
      ∃ f, Alongside D c low e f ∧ ∃ W, IsParWindow c low e W ∧ StripInRouted D f W) := by
  constructor
  · constructor
    · rintro ⟨p, h1, h2⟩
      exact ⟨p, (parGood_iff hD hc hp he ((hq _ (eolParBox_proper hc hp he low) _).1 h1).1 low).1 h2⟩
    · rintro ⟨f, hf⟩
      have hg := (parGood_iff hD hc hp he hf.1 low).2 hf
      exact ⟨f, (hq _ (eolParBox_proper hc hp he low) _).2 ⟨hf.1, strip_touches (hD.edges f hf.1).1 hg.2⟩, hg⟩
  · constructor
    · rintro ⟨p, h1, h2, h3⟩
      have hm := ((hq _ (eolParBox_proper hc hp he low) _).1 h1).1
      exact ⟨p, (parGood_iff hD hc hp he hm low).1 h2, _, isParWindow_box c e he low, (stripInRouted_iff (hD.edges p hm).1).2 h3⟩
    · rintro ⟨f, hf, W, hW, h3⟩
      have hg := (parGood_iff hD hc hp he hf.1 low).2 hf
      rw [parWindow_eq hc hp he hW] at h3
      exact ⟨f, (hq _ (eolParBox_proper hc hp he low) _).2 ⟨hf.1, strip_touches (hD.edges f hf.1).1 hg.2⟩, hg, (stripInRouted_iff (hD.edges f hf.1).1).1 h3⟩

theorem selfRouted_iff {D : EolDb} {e : LEdge} (he : e.Ok) :
    (!e.fixed && decide (coveredArea (edgeStrip e) (D.route e.net) ≠ 0)) = true ↔
      (e.fixed = false ∧ ∃ S, IsStrip e S ∧ ∃ cl, CellOf S cl ∧ ∃ s ∈ D.route e.net, CellOf s cl) := by
  simp only [Bool.and_eq_true, Bool.not_eq_true', decide_eq_true_eq, Ne, covered_zero, Classical.not_not]
  constructor
  · rintro ⟨h, c, h1, h2⟩; exact ⟨h, _, (c61_windows ⟨0, 0, 0, 0, 0, 0, false⟩ e he).2.2.2, c, h1, h2⟩
  · rintro ⟨h, S, hS, c, h1, h2⟩; rw [strip_eq he hS] at h1; exact ⟨h, c, h1, h2⟩

/-- the condition on metal running alongside, and whether routed metal has been seen -/
theorem hasParallel_spec {D : EolDb} (hD : D.Ok) {c : EolRule} (hc : c.Ok) {query : Box → List LEdge} (hq : EdgeQuery D query) {e : LEdge} (he : e.Ok)
    (h0 : Bool) (hh0 : h0 = true ↔ (e.fixed = false ∧ ∃ S, IsStrip e S ∧ ∃ cl, CellOf S cl ∧ ∃ s ∈ D.route e.net, CellOf s cl)) :
    ((hasParallel D c query e h0).1 = true ↔ Triggered D c e) ∧ ((hasParallel D c query e h0).2 = true ↔ RoutedSelf D c e) := by
  unfold hasParallel
  by_cases hp : c.parSpace = -1
  · simp only [hp, if_true]
    refine ⟨⟨fun _ => Or.inl hp, fun _ => trivial⟩, ?_⟩
    rw [hh0]
    exact ⟨fun h => Or.inl h, fun h => h.elim id (fun q => absurd hp q.1)⟩
  · simp only [hp, if_false]
    obtain ⟨l1, l2⟩ := parLoop_spec D c true e (query (eolParBox c true e)) false h0
    obtain ⟨r1, r2⟩ := parLoop_spec D c false e (query (eolParBox c false e)) false (parLoop D c true e (query (eolParBox c true e)) (false, h0)).2
    obtain ⟨a1, a2⟩ := parQuery_iff hD hc hp hq he true
    obtain ⟨b1, b2⟩ := parQuery_iff hD hc hp hq he false
    rw [a1] at l1; rw [a2] at l2; rw [b1] at r1; rw [b2, l2] at r2
    simp only [Bool.false_eq_true, false_or] at l1 r1
    have hR : (parLoop D c false e (query (eolParBox c false e)) (false, (parLoop D c true e (query (eolParBox c true e)) (false, h0)).2)).2 = true ↔
        RoutedSelf D c e := by
      rw [r2, hh0]
      unfold RoutedSelf
      constructor
      · rintro ((h | ⟨f, h⟩) | ⟨f, h⟩)
        · exact Or.inl h
        · exact Or.inr ⟨hp, true, f, h⟩
        · exact Or.inr ⟨hp, false, f, h⟩
      · rintro (h | ⟨-, low, f, h⟩)
        · exact Or.inl (Or.inl h)
        · cases low
          · exact Or.inr ⟨f, h⟩
          · exact Or.inl (Or.inr ⟨f, h⟩)
    generalize hl : parLoop D c true e (query (eolParBox c true e)) (false, h0) = L at *
    generalize hr : parLoop D c false e (query (eolParBox c false e)) (false, L.2) = R at *
    unfold Triggered
    rw [← l1, ← r1]
    refine ⟨?_, ?_⟩
    · cases h2 : c.twoEdges <;> cases hL : L.1 <;> cases hRR : R.1 <;> simp [hp]
    · rw [← hR]
      split
      · rfl
      · split <;> rfl

theorem eolHelper_iff {D : EolDb} (hD : D.Ok) {c : EolRule} {e f : LEdge} (he : e.Ok) (hf : f.Ok) (m : GMk) :
    m ∈ eolHelper D c e f ↔ EolMarker D c e f m ∧ ClearGap D e m.box := by
  have hbt := genIntersect_between (edgeStrip_proper he) (edgeStrip_proper hf)
  have hmb : ∀ b : Box, (∃ S T, IsStrip e S ∧ IsStrip f T ∧ IsBetween S T b) ↔ b = genIntersect (edgeStrip e) (edgeStrip f) := by
    intro b
    constructor
    · rintro ⟨S, T, hS, hT, h⟩
      rw [strip_eq he hS, strip_eq hf hT] at h
      obtain ⟨⟨bx, by'⟩, ⟨bX, bY⟩⟩ := b
      generalize genIntersect (edgeStrip e) (edgeStrip f) = g at hbt
      obtain ⟨⟨gx, gy⟩, ⟨gX, gY⟩⟩ := g
      obtain ⟨a1, a2, a3, a4⟩ := h
      obtain ⟨b1, b2, b3, b4⟩ := hbt
      simp only [Box.left, Box.right, Box.bottom, Box.top] at *
      simp only [Box.mk.injEq, Point.mk.injEq]
      omega
    · rintro rfl
      exact ⟨_, _, (c61_windows ⟨0, 0, 0, 0, 0, 0, false⟩ e he).2.2.2, (c61_windows ⟨0, 0, 0, 0, 0, 0, false⟩ f hf).2.2.2, hbt⟩
  unfold EolMarker
  rw [hmb]
  have hsrc : ∀ srcs : List Nat, (srcs.Pairwise (· < ·) ∧ ∀ o, o ∈ srcs ↔ o = D.owner e.net ∨ o = D.owner f.net) ↔
      srcs = srcPair (D.owner e.net) (D.owner f.net) := by
    intro srcs
    have hp : (srcPair (D.owner e.net) (D.owner f.net)).Pairwise (· < ·) ∧ ∀ o, o ∈ srcPair (D.owner e.net) (D.owner f.net) ↔ o = D.owner e.net ∨ o = D.owner f.net := by
      unfold srcPair
      constructor
      · split
        · simp
        · split <;> simp <;> omega
      · intro o
        split
        · rename_i h; rw [← h]; simp
        · split <;> simp [or_comm]
    constructor
    · rintro ⟨h1, h2⟩
      exact sorted_ext h1 hp.1 (fun o => (h2 o).trans (hp.2 o).symm)
    · rintro rfl; exact hp
  generalize hg : genIntersect (edgeStrip e) (edgeStrip f) = g at *
  have hgp : g.left ≤ g.right ∧ g.bottom ≤ g.top := by obtain ⟨b1, b2, b3, b4⟩ := hbt; omega
  have hz : (g.right - g.left) * (g.top - g.bottom) = 0 ↔ g.left = g.right ∨ g.bottom = g.top := by
    rw [Int.mul_eq_zero]; omega
  have hclear : (D.rects.any (fun r => meetInside (if (g.right - g.left) * (g.top - g.bottom) = 0 then
      (if e.dir = .W ∨ e.dir = .E then (⟨⟨g.left - 1, g.bottom⟩, ⟨g.right + 1, g.top⟩⟩ : Box)
       else ⟨⟨g.left, g.bottom - 1⟩, ⟨g.right, g.top + 1⟩⟩) else g) r)) = false ↔ ClearGap D e g := by
    rw [← Bool.not_eq_true, List.any_eq_true]
    unfold ClearGap
    simp only [hz]
    rw [not_exists]
    simp only [not_and]
    have hcell : ∀ c : Point, CellOf (if g.left = g.right ∨ g.bottom = g.top then
        (if e.dir = .W ∨ e.dir = .E then (⟨⟨g.left - 1, g.bottom⟩, ⟨g.right + 1, g.top⟩⟩ : Box)
         else ⟨⟨g.left, g.bottom - 1⟩, ⟨g.right, g.top + 1⟩⟩) else g) c ↔
        (if g.left = g.right ∨ g.bottom = g.top then
          g.left - (e.unit.x.natAbs : Int) ≤ c.x ∧ c.x < g.right + (e.unit.x.natAbs : Int) ∧
          g.bottom - (e.unit.y.natAbs : Int) ≤ c.y ∧ c.y < g.top + (e.unit.y.natAbs : Int)
        else CellOf g c) := by
      intro c
      by_cases hfl : g.left = g.right ∨ g.bottom = g.top
      · simp only [hfl, if_true]
        rcases he.cases with ⟨hd, hu, -⟩ | ⟨hd, hu, -⟩ | ⟨hd, hu, -⟩ | ⟨hd, hu, -⟩ <;>
          simp [hd, hu, CellOf, Box.left, Box.right, Box.bottom, Box.top]
      · simp only [hfl, if_false]
    constructor
    · intro h r hr cl hc hcon
      apply h r hr
      rw [meetInside_iff]
      exact ⟨cl, (hcell cl).2 hcon, hc⟩
    · intro h r hr hm
      obtain ⟨cl, c1, c2⟩ := meetInside_iff.1 hm
      exact h r hr cl c2 ((hcell cl).1 c1)
  unfold eolHelper
  simp only [hg]
  revert hclear
  generalize D.rects.any _ = A
  intro hclear
  constructor
  · intro hm
    cases A with
    | true => simp at hm
    | false =>
      simp only [Bool.false_eq_true, if_false, List.mem_singleton] at hm
      subst hm
      exact ⟨⟨rfl, rfl, rfl, (hsrc _).2 rfl⟩, hclear.1 rfl⟩
  · rintro ⟨⟨h1, h2, h3, h4⟩, h5⟩
    rw [h1] at h5
    rw [hclear.2 h5]
    simp only [Bool.false_eq_true, if_false, List.mem_singleton]
    have := (hsrc _).1 h4
    cases m
    simp only at h1 h2 h3 this
    simp only [h1, h2, h3, this]

/-- what the check of one edge against one rule reports, with the order of the query results in view -/
theorem eolEdge_spec {D : EolDb} (hD : D.Ok) {c : EolRule} (hc : c.Ok) {query : Box → List LEdge} (hq : EdgeQuery D query) {e : LEdge} (he : e ∈ D.edges) (m : GMk) :
    m ∈ eolEdge D c query e ↔ EndOfLine c e ∧ Triggered D c e ∧ ∃ l1 f l2, query (eolBox c e) = l1 ++ f :: l2 ∧ Opposite D c e f ∧ EolMarker D c e f m ∧
      ClearGap D e m.box ∧ (RoutedSelf D c e ∨ ∃ g ∈ l1 ++ [f], OppositeRouted D c e g) := by
  obtain ⟨heo, het⟩ := hD.edges e he
  obtain ⟨p1, p2⟩ := hasParallel_spec hD hc hq heo _ (selfRouted_iff (D := D) heo)
  unfold eolEdge
  rw [← c61_end_of_line c e heo het]
  by_cases h1 : isEolEdge c e = true
  · simp only [h1, Bool.not_true, Bool.false_eq_true, if_false, true_and]
    rw [← p1]
    generalize hasParallel D c query e _ = t at *
    by_cases h2 : t.1 = true
    · simp only [h2, Bool.not_true, Bool.false_eq_true, if_false, true_and]
      rw [eolLoop_spec]
      constructor
      · rintro ⟨l1, f, l2, e1, e2, e3, e4⟩
        have hmem : ∀ g ∈ l1 ++ [f], g ∈ D.edges := by
          intro g hg
          refine ((hq (eolBox c e) (eolBox_proper hc heo) g).1 ?_).1
          rw [e1]
          rcases List.mem_append.1 hg with hg | hg
          · exact List.mem_append.2 (Or.inl hg)
          · rw [List.mem_singleton.1 hg]; simp
        have hfe := hmem f (by simp)
        obtain ⟨x1, x2⟩ := (eolHelper_iff hD heo (hD.edges f hfe).1 m).1 e3
        refine ⟨l1, f, l2, e1, (oppGood_iff hD hc heo hfe).1 e2, x1, x2, ?_⟩
        rcases e4 with e4 | ⟨g, g1, g2⟩
        · exact Or.inl (p2.1 e4)
        · exact Or.inr ⟨g, g1, (oppRouted_iff hD hc heo (hmem g g1)).1 g2⟩
      · rintro ⟨l1, f, l2, e1, e2, x1, x2, e4⟩
        refine ⟨l1, f, l2, e1, (oppGood_iff hD hc heo e2.1).2 e2, (eolHelper_iff hD heo (hD.edges f e2.1).1 m).2 ⟨x1, x2⟩, ?_⟩
        rcases e4 with e4 | ⟨g, g1, g2⟩
        · exact Or.inl (p2.2 e4)
        · exact Or.inr ⟨g, g1, (oppRouted_iff hD hc heo g2.1.1).2 g2⟩
    · simp [h2]
  · simp [h1]

/-- **C61** everything reported is an end-of-line violation in which routed metal takes part -/
theorem c61_sound (D : EolDb) (hD : D.Ok) (cons : List EolRule) (hc : ∀ c ∈ cons, c.Ok) (query : Box → List LEdge) (hq : EdgeQuery D query)
    (es : List LEdge) (he : ∀ e ∈ es, e ∈ D.edges) (m : GMk) (hm : m ∈ eolCheck D cons query es) :
    ∃ e ∈ es, ∃ c ∈ cons, ∃ f, EolViolation D c e f m ∧ (RoutedSelf D c e ∨ ∃ g, OppositeRouted D c e g) := by
  simp only [eolCheck, List.mem_flatMap] at hm
  obtain ⟨e, h1, c, h2, h3⟩ := hm
  obtain ⟨a1, a2, l1, f, l2, b1, b2, b3, b4, b5⟩ := (eolEdge_spec hD (hc c h2) hq (he e h1) m).1 h3
  refine ⟨e, h1, c, h2, f, ⟨a1, a2, b2, b3, b4⟩, ?_⟩
  rcases b5 with b | ⟨g, -, b⟩
  · exact Or.inl b
  · exact Or.inr ⟨g, b⟩

/-- **C61** every end-of-line violation is reported, whatever the order of the query results, if the end of the line, the metal running
alongside or the metal opposite is routed -/
theorem c61_complete (D : EolDb) (hD : D.Ok) (cons : List EolRule) (hc : ∀ c ∈ cons, c.Ok) (query : Box → List LEdge) (hq : EdgeQuery D query)
    (es : List LEdge) (he : ∀ e ∈ es, e ∈ D.edges) (m : GMk) (e : LEdge) (h1 : e ∈ es) (c : EolRule) (h2 : c ∈ cons) (f : LEdge)
    (hv : EolViolation D c e f m) (hr : RoutedSelf D c e ∨ OppositeRouted D c e f) : m ∈ eolCheck D cons query es := by
  simp only [eolCheck, List.mem_flatMap]
  refine ⟨e, h1, c, h2, (eolEdge_spec hD (hc c h2) hq (he e h1) m).2 ?_⟩
  obtain ⟨a1, a2, a3, a4, a5⟩ := hv
  have hfo := (hD.edges f a3.1).1
  have heo := (hD.edges e (he e h1)).1
  have hg := (oppGood_iff hD (hc c h2) heo a3.1).2 a3
  have hmem : f ∈ query (eolBox c e) := (hq _ (eolBox_proper (hc c h2) heo) _).2 ⟨a3.1, strip_touches hfo hg.2⟩
  obtain ⟨l1, l2, hl⟩ := List.append_of_mem hmem
  refine ⟨a1, a2, l1, f, l2, hl, a3, a4, a5, ?_⟩
  rcases hr with hr | hr
  · exact Or.inl hr
  · exact Or.inr ⟨f, by simp, hr⟩

/-- **C61** if the end of the line or metal alongside is routed, the result is exact -/
theorem c61_exact (D : EolDb) (hD : D.Ok) (c : EolRule) (hc : c.Ok) (query : Box → List LEdge) (hq : EdgeQuery D query)
    (e : LEdge) (he : e ∈ D.edges) (hr : RoutedSelf D c e) (m : GMk) : m ∈ eolEdge D c query e ↔ ∃ f, EolViolation D c e f m := by
  constructor
  · intro hm
    obtain ⟨a1, a2, l1, f, l2, b1, b2, b3, b4, b5⟩ := (eolEdge_spec hD hc hq he m).1 hm
    exact ⟨f, a1, a2, b2, b3, b4⟩
  · rintro ⟨f, hv⟩
    have := c61_complete D hD [c] (by simpa using hc) query hq [e] (by simpa using he) m e (by simp) c (by simp) f hv (Or.inl hr)
    simpa [eolCheck] using this

/-! ### examples -/

/-- the four edges of a rectangle, counterclockwise -/
def boxLEdges (net : Nat) (fixed : Bool) (b : Box) : List LEdge :=
  let p : Point := ⟨b.left, b.bottom⟩; let q : Point := ⟨b.right, b.bottom⟩; let r : Point := ⟨b.right, b.top⟩; let s : Point := ⟨b.left, b.top⟩
  [⟨s, p, q, r, net, fixed⟩, ⟨p, q, r, s, net, fixed⟩, ⟨q, r, s, p, net, fixed⟩, ⟨r, s, p, q, net, fixed⟩]

/-- a fixed vertical line ending above two shapes, one of them routed -/
def exEolDb : EolDb where
  layer := 4
  owner := fun n => n
  route := fun n => if n = 2 then [⟨⟨6, -20⟩, ⟨12, -2⟩⟩] else []
  rects := [⟨⟨0, 0⟩, ⟨10, 100⟩⟩, ⟨⟨-3, -20⟩, ⟨4, -2⟩⟩, ⟨⟨6, -20⟩, ⟨12, -2⟩⟩]
  edges := boxLEdges 0 true ⟨⟨0, 0⟩, ⟨10, 100⟩⟩ ++ boxLEdges 1 true ⟨⟨-3, -20⟩, ⟨4, -2⟩⟩ ++ boxLEdges 2 false ⟨⟨6, -20⟩, ⟨12, -2⟩⟩

def exEolRule : EolRule := ⟨7, 5, 20, 3, -1, 0, false⟩

def exEolQuery (b : Box) : List LEdge := exEolDb.edges.filter (fun e =>
  b.overlaps ⟨⟨min e.lo.x e.hi.x, min e.lo.y e.hi.y⟩, ⟨max e.lo.x e.hi.x, max e.lo.y e.hi.y⟩⟩)

theorem exEol_ok : exEolDb.Ok ∧ exEolRule.Ok := by
  refine ⟨⟨?_, ?_⟩, ?_⟩
  · simp only [exEolDb, boxLEdges, LEdge.Ok, LEdge.Turns, Box.left, Box.right, Box.bottom, Box.top]; decide
  · simp only [exEolDb, Box.left, Box.right, Box.bottom, Box.top]; decide
  · simp only [EolRule.Ok, exEolRule]; decide

theorem exEol_query (order : List LEdge → List LEdge) (ho : ∀ l x, x ∈ order l ↔ x ∈ l) : EdgeQuery exEolDb (fun b => order (exEolQuery b)) := by
  intro b hb e
  simp only [ho, exEolQuery, List.mem_filter]
  rw [overlaps_iff_touches hb (by simp only [Box.Proper, Box.left, Box.right, Box.bottom, Box.top]; omega)]
  refine and_congr_right (fun _ => ?_)
  simp only [Touches, Box.Has, Box.left, Box.right, Box.bottom, Box.top, and_assoc]

/-- **C61** whether the gap between two fixed shapes is reported depends on the order in which the query returns the shapes below: once
routed metal has been met, later fixed shapes are reported too -/
theorem c61_order_dependent :
    (eolCheck exEolDb [exEolRule] exEolQuery (boxLEdges 0 true ⟨⟨0, 0⟩, ⟨10, 100⟩⟩)).map (·.srcs) = [[0, 2]] ∧
    (eolCheck exEolDb [exEolRule] (fun b => (exEolQuery b).reverse) (boxLEdges 0 true ⟨⟨0, 0⟩, ⟨10, 100⟩⟩)).map (·.srcs) = [[0, 2], [0, 1]] ∧
    EdgeQuery exEolDb exEolQuery ∧ EdgeQuery exEolDb (fun b => (exEolQuery b).reverse) ∧ exEolDb.Ok ∧ exEolRule.Ok := by
  refine ⟨by decide, by decide, ?_, ?_, exEol_ok.1, exEol_ok.2⟩
  · exact exEol_query id (fun _ _ => Iff.rfl)
  · exact exEol_query List.reverse (fun _ _ => List.mem_reverse)

/-- a routed line with metal on both sides and an end opposite to it -/
def exEolDb2 : EolDb where
  layer := 4
  owner := fun n => n
  route := fun n => if n = 0 then [⟨⟨0, 0⟩, ⟨10, 100⟩⟩] else []
  rects := [⟨⟨0, 0⟩, ⟨10, 100⟩⟩, ⟨⟨-8, 2⟩, ⟨-2, 40⟩⟩, ⟨⟨13, 4⟩, ⟨20, 60⟩⟩, ⟨⟨2, -9⟩, ⟨8, -2⟩⟩]
  edges := boxLEdges 0 false ⟨⟨0, 0⟩, ⟨10, 100⟩⟩ ++ boxLEdges 1 true ⟨⟨-8, 2⟩, ⟨-2, 40⟩⟩ ++ boxLEdges 2 true ⟨⟨13, 4⟩, ⟨20, 60⟩⟩ ++
    boxLEdges 3 true ⟨⟨2, -9⟩, ⟨8, -2⟩⟩

example : eolCheck exEolDb2 [⟨7, 5, 20, 3, 4, 6, true⟩] (fun _ => exEolDb2.edges) (boxLEdges 0 false ⟨⟨0, 0⟩, ⟨10, 100⟩⟩) =
    [⟨⟨⟨2, -2⟩, ⟨8, 0⟩⟩, 4, .other 7, [0, 3]⟩] := by decide
example : eolCheck exEolDb2 [⟨7, 5, 20, 3, 2, 6, true⟩] (fun _ => exEolDb2.edges) (boxLEdges 0 false ⟨⟨0, 0⟩, ⟨10, 100⟩⟩) = [] := by decide
example : eolCheck exEolDb2 [⟨7, 5, 20, 3, 3, 6, false⟩] (fun _ => exEolDb2.edges) (boxLEdges 0 false ⟨⟨0, 0⟩, ⟨10, 100⟩⟩) =
    [⟨⟨⟨2, -2⟩, ⟨8, 0⟩⟩, 4, .other 7, [0, 3]⟩] := by decide

end TR
