import Verif.Def.Stages
/-! # Properties of the routes that are written: C80-C84 -/
namespace TR

theorem mem_figSegs (figs : List OFig) (s : DSeg) : s ∈ figSegs figs ↔ OWire figs s := by
  unfold figSegs OWire
  rw [List.mem_filterMap]
  constructor
  · rintro ⟨f, hf, e⟩
    cases f with
    | seg t => simp only [Option.some.injEq] at e; subst e; exact hf
    | via v => cases e
    | patch p => cases e
  · intro h; exact ⟨_, h, rfl⟩

theorem figSegs_append (a b : List OFig) : figSegs (a ++ b) = figSegs a ++ figSegs b := by
  unfold figSegs; rw [List.filterMap_append]

theorem figSegs_seg (l : List DSeg) : figSegs (l.map .seg) = l := by
  induction l with
  | nil => rfl
  | cons x r ih => rw [List.map_cons, show figSegs (OFig.seg x :: r.map .seg) = x :: figSegs (r.map .seg) from rfl, ih]

theorem figSegs_via (l : List OVia) : figSegs (l.map .via) = [] := by
  induction l with
  | nil => rfl
  | cons x r ih => rw [List.map_cons, show figSegs (OFig.via x :: r.map .via) = figSegs (r.map .via) from rfl, ih]

theorem on_track_iff {s : DSeg} {h : Bool} {c : Int} (h1 : s.b.c h = c) (h2 : s.e.c h = c) (p : Point) :
    s.On p ↔ p.c h = c ∧ s.b.a h ≤ p.a h ∧ p.a h ≤ s.e.a h := by
  unfold DSeg.On
  unfold Point.a Point.c at *
  cases h <;> simp only [Bool.false_eq_true, if_false, if_true] at * <;> omega

theorem near_cov {V : List DSeg} {h : Bool} {c : Int} (hV : ∀ s ∈ V, s.b.c h = c ∧ s.e.c h = c) {p q : Point}
    (hn : NearPts p q) : (∃ s ∈ V, s.On p ∧ s.On q) ↔ p.c h = c ∧ q.c h = c ∧
      CovStep V h (min (p.a h) (q.a h)) (max (p.a h) (q.a h) - min (p.a h) (q.a h)) := by
  constructor
  · rintro ⟨s, hs, hp, hq⟩
    rw [on_track_iff (hV s hs).1 (hV s hs).2] at hp hq
    exact ⟨hp.1, hq.1, s, hs, by omega, by omega⟩
  · rintro ⟨hp, hq, s, hs, e1, e2⟩
    refine ⟨s, hs, ?_, ?_⟩
    · rw [on_track_iff (hV s hs).1 (hV s hs).2]; exact ⟨hp, by omega, by omega⟩
    · rw [on_track_iff (hV s hs).1 (hV s hs).2]; exact ⟨hq, by omega, by omega⟩

theorem near_step {p q : Point} (hn : NearPts p q) (h : Bool) :
    0 ≤ max (p.a h) (q.a h) - min (p.a h) (q.a h) ∧ max (p.a h) (q.a h) - min (p.a h) (q.a h) ≤ 1 := by
  unfold NearPts at hn
  unfold Point.a
  cases h <;> simp <;> omega

/-- The written wires of a net after merging and splitting cover, layer by layer, exactly the centre lines of the
assigned wires. -/
theorem c81_lines (width : Int → Nat) (figs : List OFig) (hok : OWiresOk figs) (n : Nat)
    (hn : ∀ s, OWire figs s → s.net = n) (l : Int) (p q : Point) (hpq : NearPts p q) :
    OnLine figs l p q ↔ OnLine (mergeSplit width figs) l p q := by
  have hsub := final_sub width figs hok n hn
  have hok' : ∀ s ∈ longSegs figs, s.Ok ∧ s.b ≠ s.e := fun s hs => by
    rw [mem_longSegs] at hs; exact ⟨hok s hs.1, hs.2⟩
  have key : ∀ k, (∃ s ∈ keySegs (longSegs figs) k, s.On p ∧ s.On q) ↔ (∃ s ∈ finalMap width figs k, s.On p ∧ s.On q) := by
    intro k
    have hT := keySegs_track (longSegs figs) hok' k
    rw [near_cov (h := keyH k) (c := k.2.2) (fun s hs => ⟨(hT s hs).2.2.1, (hT s hs).2.2.2.1⟩) hpq,
      near_cov (h := keyH k) (c := k.2.2) (fun s hs => ⟨((hsub k).place s hs).2.2.1, ((hsub k).place s hs).2.2.2.1⟩) hpq,
      (hsub k).cov _ _ (near_step hpq _).1 (near_step hpq _).2]
  constructor
  · rintro ⟨s, hs, hne, hl, hp, hq⟩
    obtain ⟨o, ho, g1, g2⟩ := (key s.mkey).mp
      ⟨s, (mem_keySegs _ _ _).mpr ⟨(mem_longSegs _ _).mpr ⟨hs, hne⟩, rfl⟩, hp, hq⟩
    have hpl := (hsub s.mkey).place o ho
    refine ⟨o, (wire_mergeSplit width figs hok n hn o).mpr ⟨_, ho⟩, ?_, ?_, g1, g2⟩
    · intro e; have := hpl.2.2.2.2; rw [e] at this; omega
    · rw [hpl.1, ← hl]; rfl
  · rintro ⟨o, ho, hne, hl, hp, hq⟩
    obtain ⟨k, hk⟩ := (wire_mergeSplit width figs hok n hn o).mp ho
    obtain ⟨s, hs, g1, g2⟩ := (key k).mpr ⟨o, hk, hp, hq⟩
    obtain ⟨hs1, hs2⟩ := (mem_keySegs _ _ _).mp hs
    obtain ⟨hs3, hs4⟩ := (mem_longSegs _ _).mp hs1
    refine ⟨s, hs3, hs4, ?_, g1, g2⟩
    have e1 : s.mkey.1 = k.1 := by rw [hs2]
    have e2 : s.layer = k.1 := e1
    rw [e2, ← ((hsub k).place o hk).1, hl]

/-- Every written wire of a merged net is horizontal or vertical, has its ends in order and positive length. -/
theorem c81_wires_ok (width : Int → Nat) (figs : List OFig) (hok : OWiresOk figs) (n : Nat)
    (hn : ∀ s, OWire figs s → s.net = n) (o : DSeg) (ho : OWire (mergeSplit width figs) o) :
    o.Ok ∧ o.b ≠ o.e ∧ o.net = n := by
  obtain ⟨k, hk⟩ := (wire_mergeSplit width figs hok n hn o).mp ho
  obtain ⟨_, h2, h3, h4, h5⟩ := (final_sub width figs hok n hn k).place o hk
  refine ⟨?_, ?_, h2⟩
  · unfold DSeg.Ok
    unfold Point.a Point.c at *
    cases h : keyH k <;> simp only [h, Bool.false_eq_true, if_false, if_true] at h3 h4 h5 <;> omega
  · intro e; rw [e] at h5; omega

/-- No part of a wire is written twice: two written wires of one layer have at most one point in common. -/
theorem c81_once (width : Int → Nat) (figs : List OFig) (hok : OWiresOk figs) (n : Nat)
    (hn : ∀ s, OWire figs s → s.net = n) :
    (figSegs (mergeSplit width figs)).Pairwise (fun s t => s.layer = t.layer →
      ∀ p q, s.On p → t.On p → s.On q → t.On q → p = q) := by
  have hsub := final_sub width figs hok n hn
  have he : figSegs (mergeSplit width figs) = (segKeys (longSegs figs)).flatMap (finalMap width figs) := by
    rw [mergeSplit_eq width figs hok]
    rw [figSegs_append, figSegs_seg, figSegs_via, List.append_nil]
  have hpt : ∀ p q : Point, p.x = q.x → p.y = q.y → p = q := fun p q h1 h2 => by
    cases p; cases q; simp only at h1 h2; rw [h1, h2]
  rw [he, List.pairwise_flatMap]
  constructor
  · intro k _
    have H := hsub k
    refine List.Pairwise.imp_of_mem ?_ H.apart
    intro s t hs ht hap _ p q p1 p2 q1 q2
    rw [on_track_iff (H.place s hs).2.2.1 (H.place s hs).2.2.2.1] at p1 q1
    rw [on_track_iff (H.place t ht).2.2.1 (H.place t ht).2.2.2.1] at p2 q2
    have ea : p.a (keyH k) = q.a (keyH k) := by omega
    have ec : p.c (keyH k) = q.c (keyH k) := by rw [p1.1, q1.1]
    unfold Point.a at ea
    unfold Point.c at ec
    cases h : keyH k <;> simp only [h, Bool.false_eq_true, if_false, if_true] at ea ec
    · exact hpt p q ec ea
    · exact hpt p q ea ec
  · have hnd : (segKeys (longSegs figs)).Nodup := sortKeys_nodup keyLt_lt3 _
    refine List.Pairwise.imp_of_mem ?_ hnd
    intro k k' hk hk' hne s hs t ht hl p q p1 p2 q1 q2
    obtain ⟨u, _, rfl⟩ := List.mem_map.mp ((mem_sortKeys keyLt_lt3 _ _).mp hk)
    obtain ⟨u', _, rfl⟩ := List.mem_map.mp ((mem_sortKeys keyLt_lt3 _ _).mp hk')
    have Hs := (hsub u.mkey).place s hs
    have Ht := (hsub u'.mkey).place t ht
    rw [on_track_iff Hs.2.2.1 Hs.2.2.2.1] at p1 q1
    rw [on_track_iff Ht.2.2.1 Ht.2.2.2.1] at p2 q2
    rw [mkey_keyH] at p1 q1 p2 q2
    have hl' : u.layer = u'.layer := by
      have h1 : s.layer = u.layer := Hs.1
      have h2 : t.layer = u'.layer := Ht.1
      rw [← h1, ← h2, hl]
    have a1 := p1.1
    have a2 := q1.1
    have b1 := p2.1
    have b2 := q2.1
    cases h1 : u.horz <;> cases h2 : u'.horz <;>
      simp only [h1, h2, Point.c, DSeg.mkey, Bool.false_eq_true, if_false, if_true] at a1 a2 b1 b2
    · exfalso; apply hne
      unfold DSeg.mkey Point.c
      rw [h1, h2, hl']
      simp only [Bool.false_eq_true, if_false, Prod.mk.injEq, true_and]
      omega
    · exact hpt p q (by omega) (by omega)
    · exact hpt p q (by omega) (by omega)
    · exfalso; apply hne
      unfold DSeg.mkey Point.c
      rw [h1, h2, hl']
      simp only [if_true, Prod.mk.injEq, true_and]
      omega

/-! ### C82: ends of the written wires -/

theorem sameLine_key {s t : DSeg} (hs : s.Ok) (hns : s.b ≠ s.e) (ht : t.Ok) (hnt : t.b ≠ t.e) :
    SameLine s t ↔ s.mkey = t.mkey := by
  have h1 := ok_horz hs hns
  have h2 := ok_horz ht hnt
  unfold SameLine DSeg.mkey
  have hx : s.horz = decide (s.b.x ≠ s.e.x) := rfl
  have hy : t.horz = decide (t.b.x ≠ t.e.x) := rfl
  unfold Point.a Point.c at h1 h2
  unfold Point.c
  cases e1 : s.horz <;> cases e2 : t.horz <;> rw [e1] at h1 hx <;> rw [e2] at h2 hy <;>
    simp only [Bool.false_eq_true, if_false, if_true, Prod.mk.injEq, true_and] at h1 h2 ⊢ <;>
    simp only [Bool.true_eq, Bool.false_eq, decide_eq_true_eq, decide_eq_false_iff_not, ne_eq,
      Decidable.not_not] at hx hy <;> constructor <;> intro hh <;> omega

/-- An end of a written wire that no assigned wire of the same line goes beyond has the largest extension of the
assigned wires that end there. -/
theorem c82_ends (width : Int → Nat) (figs : List OFig) (hok : OWiresOk figs) (n : Nat)
    (hn : ∀ s, OWire figs s → s.net = n) (o : DSeg) (ho : OWire (mergeSplit width figs) o) :
    ((∀ t, OWire figs t → t.b ≠ t.e → SameLine t o → t.On o.b → t.b = o.b) →
      (∀ t, OWire figs t → t.b ≠ t.e → SameLine t o → t.b = o.b → t.st.beginExt ≤ o.st.beginExt) ∧
      ∃ t, OWire figs t ∧ t.b ≠ t.e ∧ SameLine t o ∧ t.b = o.b ∧ t.st.beginExt = o.st.beginExt) ∧
    ((∀ t, OWire figs t → t.b ≠ t.e → SameLine t o → t.On o.e → t.e = o.e) →
      (∀ t, OWire figs t → t.b ≠ t.e → SameLine t o → t.e = o.e → t.st.endExt ≤ o.st.endExt) ∧
      ∃ t, OWire figs t ∧ t.b ≠ t.e ∧ SameLine t o ∧ t.e = o.e ∧ t.st.endExt = o.st.endExt) := by
  obtain ⟨hoo, hone, _⟩ := c81_wires_ok width figs hok n hn o ho
  obtain ⟨k, hk⟩ := (wire_mergeSplit width figs hok n hn o).mp ho
  have H := final_sub width figs hok n hn k
  have hok' : ∀ s ∈ longSegs figs, s.Ok ∧ s.b ≠ s.e := fun s hs => by
    rw [mem_longSegs] at hs; exact ⟨hok s hs.1, hs.2⟩
  have hT := keySegs_track (longSegs figs) hok' k
  obtain ⟨p1, _, p3, p4, p5⟩ := H.place o hk
  have hcl : ∀ t, t ∈ keySegs (longSegs figs) k ↔ OWire figs t ∧ t.b ≠ t.e ∧ SameLine t o := by
    -- the key of the written wire
    obtain ⟨s, hs, _⟩ := (H.cov (o.b.a (keyH k)) 0 (by omega) (by omega)).mpr ⟨o, hk, Int.le_refl _, by omega⟩
    have hko : o.mkey = k := by
      have hsk := ((mem_keySegs _ _ _).mp hs).2
      have hkh : keyH k = s.horz := by rw [← hsk, mkey_keyH]
      have hoh : o.horz = keyH k := by
        unfold DSeg.horz
        unfold Point.a Point.c at *
        cases h : keyH k <;> simp only [h, Bool.false_eq_true, if_false, if_true] at p3 p4 p5
        · simp; omega
        · simp; omega
      unfold DSeg.mkey
      rw [hoh, p1, p3]
      have : (if keyH k = true then (1 : Int) else 0) = k.2.1 := by
        rw [hkh, ← hsk]; rfl
      rw [this]
    intro t
    rw [mem_keySegs, mem_longSegs]
    constructor
    · rintro ⟨⟨h1, h2⟩, h3⟩
      refine ⟨h1, h2, (sameLine_key (hok t h1) h2 hoo hone).mpr ?_⟩
      rw [h3, hko]
    · rintro ⟨h1, h2, h3⟩
      refine ⟨⟨h1, h2⟩, ?_⟩
      rw [(sameLine_key (hok t h1) h2 hoo hone).mp h3, hko]
  have hpt : ∀ p q : Point, p.c (keyH k) = q.c (keyH k) → (p.a (keyH k) = q.a (keyH k) ↔ p = q) := by
    intro p q hc
    constructor
    · intro ha
      unfold Point.a Point.c at *
      cases p; cases q
      cases h : keyH k <;> simp only [h, Bool.false_eq_true, if_false, if_true] at ha hc <;> rw [ha, hc]
    · intro e; rw [e]
  have hbb : ∀ t ∈ keySegs (longSegs figs) k, (t.b.a (keyH k) = o.b.a (keyH k) ↔ t.b = o.b) := fun t ht =>
    hpt _ _ (by rw [(hT t ht).2.2.1, p3])
  have hee : ∀ t ∈ keySegs (longSegs figs) k, (t.e.a (keyH k) = o.e.a (keyH k) ↔ t.e = o.e) := fun t ht =>
    hpt _ _ (by rw [(hT t ht).2.2.2.1, p4])
  obtain ⟨hB, hE⟩ := H.ends o hk
  constructor
  · intro hstart
    rcases hB with ⟨_, ⟨s, hs, hsb⟩, hle, hex⟩ | ⟨⟨t, ht, g1, g2⟩, _⟩
    · refine ⟨fun t h1 h2 h3 h4 => ?_, ?_⟩
      · have ht := (hcl t).mpr ⟨h1, h2, h3⟩
        exact hle t ht ((hbb t ht).mpr h4)
      · rcases hex with ⟨e0, _⟩ | ⟨t, ht, e1, e2, _⟩
        · obtain ⟨h1, h2, h3⟩ := (hcl s).mp hs
          refine ⟨s, h1, h2, h3, (hbb s hs).mp hsb, ?_⟩
          have := hle s hs hsb
          omega
        · obtain ⟨h1, h2, h3⟩ := (hcl t).mp ht
          exact ⟨t, h1, h2, h3, (hbb t ht).mp e1, e2⟩
    · exfalso
      obtain ⟨h1, h2, h3⟩ := (hcl t).mp ht
      have : t.On o.b := by
        rw [on_track_iff (hT t ht).2.2.1 (hT t ht).2.2.2.1]
        exact ⟨p3, by omega, by omega⟩
      have := hstart t h1 h2 h3 this
      rw [this] at g1
      omega
  · intro hend
    rcases hE with ⟨_, ⟨s, hs, hsb⟩, hle, hex⟩ | ⟨⟨t, ht, g1, g2⟩, _⟩
    · refine ⟨fun t h1 h2 h3 h4 => ?_, ?_⟩
      · have ht := (hcl t).mpr ⟨h1, h2, h3⟩
        exact hle t ht ((hee t ht).mpr h4)
      · rcases hex with ⟨e0, _⟩ | ⟨t, ht, e1, e2, _⟩
        · obtain ⟨h1, h2, h3⟩ := (hcl s).mp hs
          refine ⟨s, h1, h2, h3, (hee s hs).mp hsb, ?_⟩
          have := hle s hs hsb
          omega
        · obtain ⟨h1, h2, h3⟩ := (hcl t).mp ht
          exact ⟨t, h1, h2, h3, (hee t ht).mp e1, e2⟩
    · exfalso
      obtain ⟨h1, h2, h3⟩ := (hcl t).mp ht
      have : t.On o.e := by
        rw [on_track_iff (hT t ht).2.2.1 (hT t ht).2.2.2.1]
        exact ⟨p4, by omega, by omega⟩
      have := hend t h1 h2 h3 this
      rw [this] at g2
      omega

end TR
