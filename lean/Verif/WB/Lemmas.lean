import Verif.WB.Spec
namespace TR

@[simp] theorem ptAC_a (h : Bool) (a c : Int) : (ptAC h a c).a h = a := by cases h <;> rfl
@[simp] theorem ptAC_c (h : Bool) (a c : Int) : (ptAC h a c).c h = c := by cases h <;> rfl
theorem ptAC_eta (h : Bool) (p : Point) : ptAC h (p.a h) (p.c h) = p := by cases h <;> rfl
theorem pt_ext_ac (h : Bool) {p q : Point} (h1 : p.a h = q.a h) (h2 : p.c h = q.c h) : p = q := by
  rw [← ptAC_eta h p, ← ptAC_eta h q, h1, h2]

theorem dseg_on_iff (h : Bool) (s : DSeg) (p : Point) :
    s.On p ↔ s.b.a h ≤ p.a h ∧ p.a h ≤ s.e.a h ∧ s.b.c h ≤ p.c h ∧ p.c h ≤ s.e.c h := by
  unfold DSeg.On Point.a Point.c
  cases h <;> simp <;> omega

theorem has_iff (h : Bool) (R : Box) (p : Point) :
    R.Has p ↔ R.loA h ≤ p.a h ∧ p.a h ≤ R.hiA h ∧ R.loC h ≤ p.c h ∧ p.c h ≤ R.hiC h := by
  unfold Box.Has Box.loA Box.hiA Box.loC Box.hiC Point.a Point.c
  cases h <;> simp <;> omega

theorem inner_iff (h : Bool) (R : Box) (p : Point) :
    R.Inner p ↔ R.loA h < p.a h ∧ p.a h < R.hiA h ∧ R.loC h < p.c h ∧ p.c h < R.hiC h := by
  unfold Box.Inner Box.loA Box.hiA Box.loC Box.hiC Point.a Point.c
  cases h <;> simp <;> omega

theorem proper_iff (h : Bool) (R : Box) : R.Proper ↔ R.loA h ≤ R.hiA h ∧ R.loC h ≤ R.hiC h := by
  unfold Box.Proper Box.loA Box.hiA Box.loC Box.hiC
  cases h <;> simp <;> omega

/-- in coordinates along and across, a well-formed wire is an interval -/
theorem DSeg.Ok.ac {s : DSeg} (hs : s.Ok) : s.e.c s.horz = s.b.c s.horz ∧ s.b.a s.horz ≤ s.e.a s.horz ∧
    (s.horz = true → s.b.a s.horz < s.e.a s.horz) := by
  unfold DSeg.Ok at hs
  by_cases hx : s.b.x = s.e.x
  · have : s.horz = false := by unfold DSeg.horz; simp [hx]
    rw [this]
    unfold Point.a Point.c
    simp only [Bool.false_eq_true, if_false, false_implies, and_true]
    omega
  · have : s.horz = true := by unfold DSeg.horz; simp [hx]
    rw [this]
    unfold Point.a Point.c
    simp only [if_true, true_implies]
    omega

theorem ok_of_ac (h : Bool) {s : DSeg} (h1 : s.e.c h = s.b.c h) (h2 : s.b.a h ≤ s.e.a h) : s.Ok := by
  unfold DSeg.Ok
  unfold Point.a at h2
  unfold Point.c at h1
  cases h <;> simp at h1 h2 <;> omega

theorem DSeg.Ok.straight {s : DSeg} (hs : s.Ok) : (s.horz && decide (s.b.y ≠ s.e.y)) = false := by
  have := hs.ac
  cases hh : s.horz
  · rfl
  · rw [hh] at this
    unfold Point.c at this
    simp at this ⊢
    omega

theorem overlaps_pt {R c : Box} {p : Point} (h1 : R.Has p) (h2 : c.Has p) : R.overlaps c = true := by
  unfold Box.Has at h1 h2
  unfold Box.overlaps
  simp
  omega

theorem mk4_of_le {a b c d : Int} (h1 : a ≤ c) (h2 : b ≤ d) : Box.mk4 a b c d = ⟨⟨a, b⟩, ⟨c, d⟩⟩ := by
  unfold Box.mk4
  rw [if_neg (by omega), if_neg (by omega), if_neg (by omega), if_neg (by omega)]

/-- the box of a wire covers its centre line -/
theorem bbox_has {s : DSeg} (hs : s.Ok) {p : Point} (hp : s.On p) : s.bbox.Has p := by
  have hn : (0 : Int) ≤ ((s.st.width / 2 : Nat) : Int) := Int.natCast_nonneg _
  have h1 : (0 : Int) ≤ (s.st.beginExt : Int) := Int.natCast_nonneg _
  have h2 : (0 : Int) ≤ (s.st.endExt : Int) := Int.natCast_nonneg _
  unfold DSeg.On at hp
  unfold DSeg.bbox
  generalize ((s.st.width / 2 : Nat) : Int) = w at *
  simp only
  split
  · rw [mk4_of_le (by omega) (by omega)]
    simp only [Box.Has, Box.left, Box.right, Box.bottom, Box.top]
    omega
  · rw [mk4_of_le (by omega) (by omega)]
    simp only [Box.Has, Box.left, Box.right, Box.bottom, Box.top]
    omega

/-- what `removeSeg` does, in coordinates along and across -/
theorem removeSeg_some {init : Bool} {R : Box} {w : Nat} {s : DSeg} {r : List DSeg × List Node} (h : removeSeg init R w s = some r) :
    trackIn init R s.horz (s.b.c s.horz) = true ∧ s.b.a s.horz ≤ R.hiA s.horz ∧ R.loA s.horz ≤ s.e.a s.horz ∧
    r.1 = (if s.b.a s.horz < R.loA s.horz then [lowPart R w s] else []) ++ (if s.e.a s.horz > R.hiA s.horz then [highPart R w s] else []) ∧
    r.2 = (if s.b.a s.horz < R.loA s.horz then [⟨(lowPart R w s).e, s.layer⟩] else []) ++
      (if s.e.a s.horz > R.hiA s.horz then [⟨(highPart R w s).b, s.layer⟩] else []) := by
  unfold removeSeg at h
  simp only at h
  split at h
  · simp at h
  · split at h
    · rename_i hc
      simp only [Bool.and_eq_true, Bool.not_eq_true', Bool.or_eq_false_iff, decide_eq_false_iff_not] at hc
      obtain ⟨c1, c2, c3⟩ := hc
      simp only [Option.some.injEq] at h
      subst h
      refine ⟨c1, by omega, by omega, by simp, ?_⟩
      simp only [decide_eq_true_eq]
      congr 1
      · by_cases hb : s.b.a s.horz < R.loA s.horz
        · rw [if_pos hb, if_pos (by simp [hb]; omega)]
        · rw [if_neg hb, if_neg (by simp [hb])]
      · by_cases hb : s.e.a s.horz > R.hiA s.horz
        · rw [if_pos hb, if_pos (by simp; omega)]
        · rw [if_neg hb, if_neg (by simp; omega)]
    · simp at h

theorem trackIn_iff {init : Bool} {R : Box} {h : Bool} {c : Int} :
    trackIn init R h c = true ↔ R.loC h ≤ c ∧ c ≤ R.hiC h ∧ (init = true → c < R.hiC h) := by
  unfold trackIn
  cases init <;> simp <;> omega

theorem removeSeg_none {init : Bool} {R : Box} {w : Nat} {s : DSeg} (hs : s.Ok) (h : removeSeg init R w s = none) :
    trackIn init R s.horz (s.b.c s.horz) = false ∨ R.hiA s.horz < s.b.a s.horz ∨ s.e.a s.horz < R.loA s.horz := by
  unfold removeSeg at h
  simp only [hs.straight] at h
  rw [if_neg (by simp)] at h
  split at h
  · simp at h
  · rename_i hc
    cases ht : trackIn init R s.horz (s.b.c s.horz)
    · exact .inl rfl
    · rw [ht] at hc
      simp at hc
      omega

/-- a wire that is cut is found by the query -/
theorem removeSeg_found {init : Bool} {R : Box} {w : Nat} {s : DSeg} (hR : R.Proper) (hs : s.Ok) {r : List DSeg × List Node}
    (h : removeSeg init R w s = some r) : R.overlaps s.bbox = true := by
  obtain ⟨h1, h2, h3, _⟩ := removeSeg_some h
  rw [trackIn_iff] at h1
  obtain ⟨e1, e2, _⟩ := hs.ac
  have hp := (proper_iff s.horz R).1 hR
  have : ∃ p, R.Has p ∧ s.On p := by
    refine ⟨ptAC s.horz (max (s.b.a s.horz) (R.loA s.horz)) (s.b.c s.horz), ?_, ?_⟩
    · rw [has_iff s.horz, ptAC_a, ptAC_c]; omega
    · rw [dseg_on_iff s.horz, ptAC_a, ptAC_c]; omega
  obtain ⟨p, hp1, hp2⟩ := this
  exact overlaps_pt hp1 (bbox_has hs hp2)

theorem removeObj_seg {init : Bool} {R : Box} {width : Int → Nat} {mod : Nat → Bool} {s : DSeg} (hR : R.Proper) (hs : s.Ok)
    (hm : mod s.net = true) :
    removeObj init R width mod (.seg s) = match removeSeg init R (width s.layer) s with
      | none => ([.seg s], [])
      | some r => (r.1.map .seg, r.2.map (fun n => (s.net, n))) := by
  unfold removeObj
  cases hr : removeSeg init R (width s.layer) s with
  | none => simp only [hr]; split <;> rfl
  | some r => rw [if_pos (by rw [show (DObj.seg s).bbox = s.bbox from rfl, removeSeg_found hR hs hr]; exact hm)]; simp only [hr]

theorem removeObj_unmod {init : Bool} {R : Box} {width : Int → Nat} {mod : Nat → Bool} {o : DObj} (hm : mod o.net = false) :
    removeObj init R width mod o = ([o], []) := by
  unfold removeObj
  rw [if_neg (by simp [hm])]

theorem low_on {R : Box} {w : Nat} {s : DSeg} (p : Point) : (lowPart R w s).On p ↔ s.On p ∧ p.a s.horz ≤ R.loA s.horz := by
  rw [dseg_on_iff s.horz, dseg_on_iff s.horz]
  unfold lowPart
  simp only [ptAC_a, ptAC_c]
  omega

theorem high_on {R : Box} {w : Nat} {s : DSeg} (p : Point) : (highPart R w s).On p ↔ s.On p ∧ R.hiA s.horz ≤ p.a s.horz := by
  rw [dseg_on_iff s.horz, dseg_on_iff s.horz]
  unfold highPart
  simp only [ptAC_a, ptAC_c]
  omega

theorem low_ok {R : Box} {w : Nat} {s : DSeg} (hs : s.Ok) (hb : s.b.a s.horz < R.loA s.horz) : (lowPart R w s).Ok := by
  obtain ⟨e1, e2, _⟩ := hs.ac
  apply ok_of_ac s.horz
  · unfold lowPart; simp only [ptAC_c]; omega
  · unfold lowPart; simp only [ptAC_a]; omega

theorem high_ok {R : Box} {w : Nat} {s : DSeg} (hs : s.Ok) (hb : s.e.a s.horz > R.hiA s.horz) : (highPart R w s).Ok := by
  obtain ⟨e1, e2, _⟩ := hs.ac
  apply ok_of_ac s.horz
  · unfold highPart; simp only [ptAC_c]; omega
  · unfold highPart; simp only [ptAC_a]; omega

/-- the wires after removal: untouched ones and parts -/
theorem removed_seg {init : Bool} {R : Box} {width : Int → Nat} {mod : Nat → Bool} {objs : List DObj} (hR : R.Proper)
    (hok : WiresOk objs) (t : DSeg) :
    .seg t ∈ (removeNets init R width mod objs).1 ↔ ∃ s, .seg s ∈ objs ∧
      ((mod s.net = false ∨ removeSeg init R (width s.layer) s = none) ∧ t = s ∨
       mod s.net = true ∧ ∃ r, removeSeg init R (width s.layer) s = some r ∧ t ∈ r.1) := by
  unfold removeNets
  simp only [List.mem_flatMap]
  constructor
  · rintro ⟨o, ho, ht⟩
    cases o with
    | seg s =>
      refine ⟨s, ho, ?_⟩
      cases hm : mod s.net
      · rw [removeObj_unmod (by exact hm)] at ht
        simp at ht
        exact .inl ⟨.inl rfl, ht⟩
      · rw [removeObj_seg hR (hok s ho) hm] at ht
        cases hr : removeSeg init R (width s.layer) s with
        | none => rw [hr] at ht; simp at ht; exact .inl ⟨.inr rfl, ht⟩
        | some r =>
          rw [hr] at ht
          simp at ht
          exact .inr ⟨rfl, r, rfl, ht⟩
    | via v =>
      exfalso
      unfold removeObj at ht
      simp only at ht
      split at ht
      · split at ht <;> simp at ht
      · simp at ht
    | patch v =>
      exfalso
      unfold removeObj at ht
      simp only at ht
      split at ht
      · split at ht <;> simp at ht
      · simp at ht
  · rintro ⟨s, hs, h | ⟨hm, r, hr, ht⟩⟩
    · obtain ⟨h1, rfl⟩ := h
      refine ⟨.seg t, hs, ?_⟩
      cases hm : mod t.net
      · rw [removeObj_unmod (by exact hm)]; simp
      · rw [removeObj_seg hR (hok t hs) hm]
        rcases h1 with h1 | h1
        · rw [hm] at h1; simp at h1
        · rw [h1]; simp
    · refine ⟨.seg s, hs, ?_⟩
      rw [removeObj_seg hR (hok s hs) hm, hr]
      simp [ht]

theorem removed_ok {init : Bool} {R : Box} {width : Int → Nat} {mod : Nat → Bool} {objs : List DObj} (hR : R.Proper)
    (hok : WiresOk objs) : WiresOk (removeNets init R width mod objs).1 := by
  intro t ht
  obtain ⟨s, hs, ⟨_, rfl⟩ | ⟨_, r, hr, ht⟩⟩ := (removed_seg hR hok t).1 ht
  · exact hok _ hs
  · obtain ⟨_, _, _, e, _⟩ := removeSeg_some hr
    rw [e] at ht
    rcases List.mem_append.1 ht with ht | ht <;> split at ht <;> simp at ht <;> subst ht
    · exact low_ok (hok _ hs) (by assumption)
    · exact high_ok (hok _ hs) (by assumption)

end TR
