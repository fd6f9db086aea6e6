import Verif.WB.Lemmas
/-! # Loading and writing back: properties C25–C28 and C56 -/
namespace TR

/-! ### C25: removal -/

variable {init : Bool} {R : Box} {width : Int → Nat} {mod : Nat → Bool} {objs : List DObj}

/-- the part of a cut wire that survives, as a set of points -/
theorem part_points {w : Nat} {s : DSeg} {r : List DSeg × List Node} (hs : s.Ok) (h : removeSeg init R w s = some r) (p : Point) :
    (∃ t ∈ r.1, t.On p) ↔ s.On p ∧ (s.b.a s.horz < R.loA s.horz ∧ p.a s.horz ≤ R.loA s.horz ∨
      s.e.a s.horz > R.hiA s.horz ∧ R.hiA s.horz ≤ p.a s.horz) := by
  obtain ⟨_, _, _, e, _⟩ := removeSeg_some h
  rw [e]
  constructor
  · rintro ⟨t, ht, hp⟩
    rcases List.mem_append.1 ht with ht | ht <;> split at ht <;> simp at ht <;> subst ht
    · rw [low_on] at hp; exact ⟨hp.1, .inl ⟨by assumption, hp.2⟩⟩
    · rw [high_on] at hp; exact ⟨hp.1, .inr ⟨by assumption, hp.2⟩⟩
  · rintro ⟨hp, ⟨h1, h2⟩ | ⟨h1, h2⟩⟩
    · exact ⟨lowPart R w s, by rw [if_pos h1]; simp, (low_on p).2 ⟨hp, h2⟩⟩
    · exact ⟨highPart R w s, by rw [if_pos h1]; simp, (high_on p).2 ⟨hp, h2⟩⟩

theorem low_net {w : Nat} {s : DSeg} : (lowPart R w s).net = s.net ∧ (lowPart R w s).layer = s.layer ∧ (lowPart R w s).st.width = s.st.width := by
  unfold lowPart; simp only; split <;> simp
theorem high_net {w : Nat} {s : DSeg} : (highPart R w s).net = s.net ∧ (highPart R w s).layer = s.layer ∧ (highPart R w s).st.width = s.st.width := by
  unfold highPart; simp only; split <;> simp

theorem part_net {w : Nat} {s t : DSeg} {r : List DSeg × List Node} (h : removeSeg init R w s = some r) (ht : t ∈ r.1) :
    t.net = s.net ∧ t.layer = s.layer ∧ t.st.width = s.st.width := by
  obtain ⟨_, _, _, e, _⟩ := removeSeg_some h
  rw [e] at ht
  rcases List.mem_append.1 ht with ht | ht <;> split at ht <;> simp at ht <;> subst ht
  · exact low_net
  · exact high_net

/-- C25: outside the region no point of any wire is lost, and none appears. -/
theorem c25_outside_kept (hR : R.Proper) (hok : WiresOk objs) (net : Nat) (l : Int) {p : Point} (hp : ¬ R.Has p) :
    Wired (removeNets init R width mod objs).1 net l p ↔ Wired objs net l p := by
  constructor
  · rintro ⟨t, ht, h1, h2, h3⟩
    obtain ⟨s, hs, ⟨_, rfl⟩ | ⟨_, r, hr, htr⟩⟩ := (removed_seg hR hok t).1 ht
    · exact ⟨_, hs, h1, h2, h3⟩
    · obtain ⟨a1, a2, _⟩ := part_net hr htr
      exact ⟨s, hs, by omega, by omega, ((part_points (hok s hs) hr p).1 ⟨t, htr, h3⟩).1⟩
  · rintro ⟨s, hs, h1, h2, h3⟩
    by_cases hm : mod s.net = false ∨ removeSeg init R (width s.layer) s = none
    · exact ⟨s, (removed_seg hR hok s).2 ⟨s, hs, .inl ⟨hm, rfl⟩⟩, h1, h2, h3⟩
    · have hm1 : mod s.net = true := by
        cases h : mod s.net
        · exact absurd (.inl h) hm
        · rfl
      cases hr : removeSeg init R (width s.layer) s with
      | none => exact absurd (.inr hr) hm
      | some r =>
        obtain ⟨g1, g2, g3, _⟩ := removeSeg_some hr
        rw [trackIn_iff] at g1
        obtain ⟨e1, e2, _⟩ := (hok s hs).ac
        have hon := (dseg_on_iff s.horz s p).1 h3
        rw [has_iff s.horz] at hp
        obtain ⟨t, ht, htp⟩ := (part_points (hok s hs) hr p).2 ⟨h3, by omega⟩
        obtain ⟨a1, a2, _⟩ := part_net hr ht
        exact ⟨t, (removed_seg hR hok t).2 ⟨s, hs, .inr ⟨hm1, r, hr, ht⟩⟩, by omega, by omega, htp⟩

/-- C25: no wire of a modified net runs inside the region afterwards: a surviving wire has at most one point in
the closed region; in the first pass, wires along the upper and right border, which belong to the
neighbouring worker, also stay. -/
theorem c25_inside_removed (hR : R.Proper) (hok : WiresOk objs) {t : DSeg} (ht : .seg t ∈ (removeNets init R width mod objs).1)
    (hm : mod t.net = true) {p q : Point} (hp : t.On p) (hq : t.On q) (hRp : R.Has p) (hRq : R.Has q) :
    p = q ∨ (init = true ∧ ((p.y = R.top ∧ q.y = R.top) ∨ (p.x = R.right ∧ q.x = R.right))) := by
  obtain ⟨s, hs, ⟨h1, rfl⟩ | ⟨_, r, hr, htr⟩⟩ := (removed_seg hR hok t).1 ht
  · rcases h1 with h1 | h1
    · rw [hm] at h1; simp at h1
    · have hn := removeSeg_none (hok _ hs) h1
      obtain ⟨e1, e2, _⟩ := (hok _ hs).ac
      have a1 := (dseg_on_iff t.horz t p).1 hp
      have a2 := (dseg_on_iff t.horz t q).1 hq
      have b1 := (has_iff t.horz R p).1 hRp
      have b2 := (has_iff t.horz R q).1 hRq
      rcases hn with hn | hn
      · have : ¬ (R.loC t.horz ≤ t.b.c t.horz ∧ t.b.c t.horz ≤ R.hiC t.horz ∧ (init = true → t.b.c t.horz < R.hiC t.horz)) := by
          rw [← trackIn_iff, hn]; simp
        have hi : init = true := by
          cases init
          · exact absurd ⟨by omega, by omega, by simp⟩ this
          · rfl
        have hc : t.b.c t.horz = R.hiC t.horz := by
          have : ¬ (t.b.c t.horz < R.hiC t.horz) := fun h => this ⟨by omega, by omega, fun _ => h⟩
          omega
        right
        refine ⟨hi, ?_⟩
        have c1 : p.c t.horz = R.hiC t.horz := by omega
        have c2 : q.c t.horz = R.hiC t.horz := by omega
        cases hh : t.horz <;> rw [hh] at c1 c2
        · exact .inr ⟨c1, c2⟩
        · exact .inl ⟨c1, c2⟩
      · omega
  · obtain ⟨_, _, _, e, _⟩ := removeSeg_some hr
    obtain ⟨e1, e2, _⟩ := (hok _ hs).ac
    have hpR := (proper_iff s.horz R).1 hR
    have b1 := (has_iff s.horz R p).1 hRp
    have b2 := (has_iff s.horz R q).1 hRq
    rw [e] at htr
    left
    rcases List.mem_append.1 htr with htr | htr <;> split at htr <;> simp at htr <;> subst htr
    · rw [low_on, dseg_on_iff s.horz] at hp hq
      exact pt_ext_ac s.horz (by omega) (by omega)
    · rw [high_on, dseg_on_iff s.horz] at hp hq
      exact pt_ext_ac s.horz (by omega) (by omega)

/-- C25: in particular no centre-line point strictly inside survives -/
theorem c25_inside_removed_pts (hR : R.Proper) (hok : WiresOk objs) {net : Nat} (hm : mod net = true) {l : Int} {p : Point} (hp : R.Inner p) :
    ¬ Wired (removeNets init R width mod objs).1 net l p := by
  rintro ⟨t, ht, rfl, h2, h3⟩
  obtain ⟨s, hs, ⟨h1, rfl⟩ | ⟨_, r, hr, htr⟩⟩ := (removed_seg hR hok t).1 ht
  · rcases h1 with h1 | h1
    · rw [hm] at h1; simp at h1
    · obtain ⟨e1, e2, _⟩ := (hok _ hs).ac
      have a1 := (dseg_on_iff t.horz t p).1 h3
      have b1 := (inner_iff t.horz R p).1 hp
      rcases removeSeg_none (hok _ hs) h1 with hn | hn
      · have := (trackIn_iff (init := init) (R := R) (h := t.horz) (c := t.b.c t.horz)).2 ⟨by omega, by omega, fun _ => by omega⟩
        rw [hn] at this; simp at this
      · omega
  · have a := (part_points (hok _ hs) hr p).1 ⟨t, htr, h3⟩
    have b := (inner_iff s.horz R p).1 hp
    omega

/-- the frame, in coordinates along and across -/
theorem frame_of {h : Bool} {p : Point} (hR : R.Proper) (hc : R.loC h ≤ p.c h ∧ p.c h ≤ R.hiC h) (ha : p.a h = R.loA h ∨ p.a h = R.hiA h) : R.Frame p := by
  have := (proper_iff h R).1 hR
  refine ⟨(has_iff h R p).2 (by omega), ?_⟩
  rw [inner_iff h]
  omega

/-- C25: a surviving wire of a modified net is part of an original wire of the same layer and width; each of its
ends is an end of the original wire with its style, or it is a cut on the frame of the region, where the wire
is extended by half the default width and which is recorded as boundary point. -/
theorem c25_cut_ends (hR : R.Proper) (hok : WiresOk objs) {t : DSeg} (ht : .seg t ∈ (removeNets init R width mod objs).1) :
    ∃ s, .seg s ∈ objs ∧ s.net = t.net ∧ s.layer = t.layer ∧ s.st.width = t.st.width ∧ (∀ p, t.On p → s.On p) ∧
      (t.b = s.b ∧ t.st.beginKind = s.st.beginKind ∧ t.st.beginExt = s.st.beginExt ∨
        R.Frame t.b ∧ t.st.beginKind = .extend ∧ t.st.beginExt = width t.layer / 2 ∧ (t.net, ⟨t.b, t.layer⟩) ∈ (removeNets init R width mod objs).2) ∧
      (t.e = s.e ∧ t.st.endKind = s.st.endKind ∧ t.st.endExt = s.st.endExt ∨
        R.Frame t.e ∧ t.st.endKind = .extend ∧ t.st.endExt = width t.layer / 2 ∧ (t.net, ⟨t.e, t.layer⟩) ∈ (removeNets init R width mod objs).2) := by
  obtain ⟨s, hs, ⟨h1, rfl⟩ | ⟨hm, r, hr, htr⟩⟩ := (removed_seg hR hok t).1 ht
  · exact ⟨t, hs, rfl, rfl, rfl, fun _ h => h, .inl ⟨rfl, rfl, rfl⟩, .inl ⟨rfl, rfl, rfl⟩⟩
  · obtain ⟨n1, n2, n3⟩ := part_net hr htr
    refine ⟨s, hs, n1.symm, n2.symm, n3.symm, fun p hp => ((part_points (hok s hs) hr p).1 ⟨t, htr, hp⟩).1, ?_⟩
    have hb : ∀ n ∈ r.2, (s.net, n) ∈ (removeNets init R width mod objs).2 := by
      intro n hn
      unfold removeNets
      simp only [List.mem_flatMap]
      refine ⟨.seg s, hs, ?_⟩
      rw [removeObj_seg hR (hok s hs) hm, hr]
      simp [hn]
    obtain ⟨e1, e2, _⟩ := (hok _ hs).ac
    obtain ⟨g1, g2, g3, e, e'⟩ := removeSeg_some hr
    rw [trackIn_iff] at g1
    rw [n1, n2]
    rw [e] at htr
    rcases List.mem_append.1 htr with htr | htr <;> split at htr <;> simp at htr <;> subst htr
    · rename_i hlo
      constructor
      · left
        unfold lowPart
        simp only
        split <;> simp
      · by_cases hc : s.e.a s.horz > R.loA s.horz
        · right
          refine ⟨?_, ?_, ?_, ?_⟩
          · apply frame_of (h := s.horz) hR
            · unfold lowPart; simp only [ptAC_c]; omega
            · unfold lowPart; simp only [ptAC_a]; omega
          · unfold lowPart; simp only; rw [if_pos hc]
          · unfold lowPart; simp only; rw [if_pos hc]
          · exact hb _ (by rw [e', if_pos hlo]; simp)
        · left
          unfold lowPart
          simp only
          rw [if_neg hc]
          refine ⟨pt_ext_ac s.horz ?_ ?_, rfl, rfl⟩
          · rw [ptAC_a]; omega
          · rw [ptAC_c]
    · rename_i hhi
      constructor
      · by_cases hc : s.b.a s.horz < R.hiA s.horz
        · right
          refine ⟨?_, ?_, ?_, ?_⟩
          · apply frame_of (h := s.horz) hR
            · unfold highPart; simp only [ptAC_c]; omega
            · unfold highPart; simp only [ptAC_a]; omega
          · unfold highPart; simp only; rw [if_pos hc]
          · unfold highPart; simp only; rw [if_pos hc]
          · exact hb _ (by rw [e', if_pos hhi]; simp)
        · left
          unfold highPart
          simp only
          rw [if_neg hc]
          refine ⟨pt_ext_ac s.horz ?_ ?_, rfl, rfl⟩
          · rw [ptAC_a]; omega
          · rw [ptAC_c]
      · left
        unfold highPart
        simp only
        split <;> simp

/-- C25: every recorded boundary point lies on the frame of the region and is an end of a surviving wire of its
net and layer. -/
theorem c25_boundary_points (hR : R.Proper) (hok : WiresOk objs) {net : Nat} {n : Node} (h : (net, n) ∈ (removeNets init R width mod objs).2) :
    R.Frame n.pt ∧ ∃ t, .seg t ∈ (removeNets init R width mod objs).1 ∧ t.net = net ∧ t.layer = n.layer ∧ (t.b = n.pt ∨ t.e = n.pt) := by
  have h' := h
  unfold removeNets at h
  simp only [List.mem_flatMap] at h
  obtain ⟨o, ho, hn⟩ := h
  cases o with
  | seg s =>
    cases hm : mod s.net
    · rw [removeObj_unmod (by exact hm)] at hn; simp at hn
    · rw [removeObj_seg hR (hok s ho) hm] at hn
      cases hr : removeSeg init R (width s.layer) s with
      | none => rw [hr] at hn; simp at hn
      | some r =>
        rw [hr] at hn
        simp only [List.mem_map, Prod.mk.injEq] at hn
        obtain ⟨m, hm2, rfl, rfl⟩ := hn
        have hin : ∀ t ∈ r.1, .seg t ∈ (removeNets init R width mod objs).1 := fun t ht => (removed_seg hR hok t).2 ⟨s, ho, .inr ⟨hm, r, hr, ht⟩⟩
        obtain ⟨e1, e2, _⟩ := (hok _ ho).ac
        obtain ⟨g1, g2, g3, e, e'⟩ := removeSeg_some hr
        rw [trackIn_iff] at g1
        rw [e'] at hm2
        rw [e] at hin
        rcases List.mem_append.1 hm2 with hm2 | hm2 <;> split at hm2 <;> simp at hm2 <;> subst hm2
        · rename_i hlo
          refine ⟨?_, lowPart R (width s.layer) s, hin _ (by rw [if_pos hlo]; simp), low_net.1, low_net.2.1, .inr rfl⟩
          apply frame_of (h := s.horz) hR
          · unfold lowPart; simp only [ptAC_c]; omega
          · unfold lowPart; simp only [ptAC_a]; omega
        · rename_i hhi
          refine ⟨?_, highPart R (width s.layer) s, hin _ (by rw [if_pos hhi]; simp), high_net.1, high_net.2.1, .inl rfl⟩
          apply frame_of (h := s.horz) hR
          · unfold highPart; simp only [ptAC_c]; omega
          · unfold highPart; simp only [ptAC_a]; omega
  | via v =>
    exfalso
    unfold removeObj at hn
    simp only at hn
    split at hn
    · split at hn <;> simp at hn
    · simp at hn
  | patch v =>
    exfalso
    unfold removeObj at hn
    simp only at hn
    split at hn
    · split at hn <;> simp at hn
    · simp at hn

/-- C25: objects of nets that were not modified stay as they are, in the same order. -/
theorem c25_unmodified (init : Bool) (R : Box) (width : Int → Nat) (mod : Nat → Bool) (objs : List DObj) {net : Nat} (hm : mod net = false) :
    (removeNets init R width mod objs).1.filter (fun o => decide (o.net = net)) = objs.filter (fun o => decide (o.net = net)) := by
  unfold removeNets
  simp only
  induction objs with
  | nil => rfl
  | cons o os ih =>
    rw [List.flatMap_cons, List.filter_append, ih]
    by_cases ho : o.net = net
    · rw [removeObj_unmod (by rw [ho]; exact hm)]
      simp [ho]
    · rw [List.filter_cons, if_neg (by simpa using ho)]
      have : (removeObj init R width mod o).1.filter (fun o => decide (o.net = net)) = [] := by
        rw [List.filter_eq_nil_iff]
        intro t ht
        have : t.net = o.net := by
          unfold removeObj at ht
          split at ht
          · split at ht
            · split at ht
              · simp at ht; rw [ht]
              · rename_i hr
                simp only [List.mem_map] at ht
                obtain ⟨u, hu, rfl⟩ := ht
                exact (part_net hr hu).1
            · split at ht <;> simp at ht; rw [ht]
            · split at ht <;> simp at ht; rw [ht]
          · simp at ht; rw [ht]
        simp [this, ho]
      rw [this]
      rfl

/-- C25: a via or patch of a modified net whose box covers its origin is removed exactly when its origin is in
the region (without the upper and right border in the first pass). -/
theorem c25_vias (hv : ∀ v, .via v ∈ objs → (v.off.at v.o).Has v.o) {v : DVia} (hm : mod v.net = true) :
    .via v ∈ (removeNets init R width mod objs).1 ↔ .via v ∈ objs ∧ ¬ (R.Has v.o ∧ (init = true → v.o.x < R.right ∧ v.o.y < R.top)) := by
  have hin : ∀ p : Point, originIn init R p = true ↔ R.Has p ∧ (init = true → p.x < R.right ∧ p.y < R.top) := by
    intro p
    unfold originIn Box.Has
    cases init <;> simp <;> omega
  rw [← hin]
  unfold removeNets
  simp only [List.mem_flatMap]
  constructor
  · rintro ⟨o, ho, h⟩
    unfold removeObj at h
    split at h
    · split at h
      · split at h <;> simp at h
      · split at h
        · simp at h
        · simp at h; subst h; exact ⟨ho, by assumption⟩
      · split at h <;> simp at h
    · rename_i hq
      simp at h
      subst h
      refine ⟨ho, fun hc => hq ?_⟩
      rw [show (DObj.via v).net = v.net from rfl, hm, Bool.and_true]
      exact overlaps_pt ((hin _).1 hc).1 (hv v ho)
  · rintro ⟨ho, hc⟩
    refine ⟨_, ho, ?_⟩
    unfold removeObj
    simp only
    rw [if_neg (c := originIn init R v.o = true) hc]
    split <;> simp

theorem c25_patches (hv : ∀ v, .patch v ∈ objs → (v.off.at v.o).Has v.o) {v : DPatch} (hm : mod v.net = true) :
    .patch v ∈ (removeNets init R width mod objs).1 ↔ .patch v ∈ objs ∧ ¬ (R.Has v.o ∧ (init = true → v.o.x < R.right ∧ v.o.y < R.top)) := by
  have hin : ∀ p : Point, originIn init R p = true ↔ R.Has p ∧ (init = true → p.x < R.right ∧ p.y < R.top) := by
    intro p
    unfold originIn Box.Has
    cases init <;> simp <;> omega
  rw [← hin]
  unfold removeNets
  simp only [List.mem_flatMap]
  constructor
  · rintro ⟨o, ho, h⟩
    unfold removeObj at h
    split at h
    · split at h
      · split at h <;> simp at h
      · split at h <;> simp at h
      · split at h
        · simp at h
        · simp at h; subst h; exact ⟨ho, by assumption⟩
    · rename_i hq
      simp at h
      subst h
      refine ⟨ho, fun hc => hq ?_⟩
      rw [show (DObj.patch v).net = v.net from rfl, hm, Bool.and_true]
      exact overlaps_pt ((hin _).1 hc).1 (hv v ho)
  · rintro ⟨ho, hc⟩
    refine ⟨_, ho, ?_⟩
    unfold removeObj
    simp only
    rw [if_neg (c := originIn init R v.o = true) hc]
    split <;> simp

end TR
