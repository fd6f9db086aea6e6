import Verif.Region.Pieces
/-! # Properties: rerouting a region keeps the connections of a net (C71) -/
namespace TR

variable {R ext : Box} {width : Int → Nat} {O : List DObj} {pinAt : Nat → Node → Bool} {nPins : Nat}

/-- the parts of an object -/
def parts (R : Box) (width : Int → Nat) (o : DObj) : List DObj := (loadParts false R width o).1 ++ (loadParts false R width o).2

theorem originIn_has {R : Box} {p : Point} : originIn false R p = true ↔ R.Has p := by
  unfold originIn Box.Has
  simp
  omega

theorem mem_parts_seg {s : DSeg} {o : DObj} : o ∈ parts R width (.seg s) ↔ ∃ t ∈ pieces false R (width s.layer) s, o = .seg t := by
  unfold parts pieces
  simp only [loadParts, List.mem_append, List.mem_map]
  constructor
  · rintro (⟨t, h, rfl⟩ | ⟨t, h, rfl⟩)
    · exact ⟨t, .inl h, rfl⟩
    · exact ⟨t, .inr h, rfl⟩
  · rintro ⟨t, h | h, rfl⟩
    · exact .inl ⟨t, h, rfl⟩
    · exact .inr ⟨t, h, rfl⟩

theorem parts_other {x : DObj} (h : ∀ s, x ≠ .seg s) : parts R width x = [x] := by
  cases x with
  | seg s => exact absurd rfl (h s)
  | via v => unfold parts; simp only [loadParts]; split <;> rfl
  | patch p => unfold parts; simp only [loadParts]; split <;> rfl

/-- vias and patches contain their origin -/
def OriginsIn (O : List DObj) : Prop := (∀ v, .via v ∈ O → (v.off.at v.o).Has v.o) ∧ (∀ p, .patch p ∈ O → (p.off.at p.o).Has p.o)

/-- every object of the region is found: membership in the loaded objects -/
theorem mem_load1 (hR : R.Strict) (hext : ∀ p, R.Has p → ext.Has p) (hO : TidyNet O) (hv : OriginsIn O) {o : DObj} :
    o ∈ (loadNet false R ext width O).1 ↔ ∃ x ∈ O, o ∈ (loadParts false R width x).1 := by
  unfold loadNet
  simp only [List.mem_flatMap, List.mem_filter]
  constructor
  · rintro ⟨x, ⟨h1, _⟩, h2⟩
    exact ⟨x, h1, h2⟩
  · rintro ⟨x, h1, h2⟩
    refine ⟨x, ⟨h1, ?_⟩, h2⟩
    cases x with
    | seg s =>
      simp only [loadParts, List.mem_map] at h2
      obtain ⟨t, ht, rfl⟩ := h2
      obtain ⟨p, hp1, hp2⟩ := piece_in (hO.pos s h1) hR ht
      have := (piece_of (init := false) (w := width s.layer) hR (hO.pos s h1) (t := t) (by unfold pieces; exact List.mem_append_left _ ht)).sub p hp1
      exact overlaps_pt (hext p hp2) (bbox_has (hO.pos s h1).1 this)
    | via v =>
      simp only [loadParts] at h2
      split at h2
      · rename_i hc
        exact overlaps_pt (hext _ (originIn_has.1 hc)) (hv.1 v h1)
      · cases h2
    | patch p =>
      simp only [loadParts] at h2
      split at h2
      · rename_i hc
        exact overlaps_pt (hext _ (originIn_has.1 hc)) (hv.2 p h1)
      · cases h2

theorem mem_load2 {o : DObj} (h : o ∈ (loadNet false R ext width O).2) : ∃ x ∈ O, o ∈ (loadParts false R width x).2 := by
  unfold loadNet at h
  simp only [List.mem_flatMap, List.mem_filter] at h
  obtain ⟨x, ⟨h1, _⟩, h2⟩ := h
  exact ⟨x, h1, h2⟩

/-- the parts outside have no node in the region -/
theorem out_at (hR : R.Strict) (hO : TidyNet O) {x o : DObj} (hx : x ∈ O) (ho : o ∈ (loadParts false R width x).2) {n : Node} (hn : o.At n) : ¬ R.Has n.pt := by
  cases x with
  | seg s =>
    simp only [loadParts, List.mem_map] at ho
    obtain ⟨t, ht, rfl⟩ := ho
    exact piece_out (hO.pos s hx) hR ht hn.2
  | via v =>
    simp only [loadParts] at ho
    split at ho
    · cases ho
    · rename_i hc
      simp only [List.mem_singleton] at ho
      subst ho
      rw [hn.1]
      exact fun h => hc (originIn_has.2 h)
  | patch p =>
    simp only [loadParts] at ho
    split at ho
    · cases ho
    · rename_i hc
      simp only [List.mem_singleton] at ho
      subst ho
      rw [hn.1]
      exact fun h => hc (originIn_has.2 h)

/-- the objects of the region have a node in it -/
theorem in_at (hR : R.Strict) (hO : TidyNet O) {x o : DObj} (hx : x ∈ O) (ho : o ∈ (loadParts false R width x).1) : ∃ n, o.At n ∧ R.Has n.pt := by
  cases x with
  | seg s =>
    simp only [loadParts, List.mem_map] at ho
    obtain ⟨t, ht, rfl⟩ := ho
    obtain ⟨p, h1, h2⟩ := piece_in (hO.pos s hx) hR ht
    exact ⟨⟨p, t.layer⟩, ⟨rfl, h1⟩, h2⟩
  | via v =>
    simp only [loadParts] at ho
    split at ho
    · rename_i hc
      simp only [List.mem_singleton] at ho
      subst ho
      exact ⟨⟨v.o, v.cut - 1⟩, ⟨rfl, .inl rfl⟩, originIn_has.1 hc⟩
    · cases ho
  | patch p =>
    simp only [loadParts] at ho
    split at ho
    · rename_i hc
      simp only [List.mem_singleton] at ho
      subst ho
      exact ⟨⟨p.o, p.layer⟩, ⟨rfl, rfl⟩, originIn_has.1 hc⟩
    · cases ho

/-- objects that may be changed lie in the region -/
theorem inner_at (hR : R.Strict) (hO : TidyNet O) {x o : DObj} (hx : x ∈ O) (ho : o ∈ (loadParts false R width x).1) (hi : o.isInner R = true) {n : Node}
    (hn : o.At n) : R.Has n.pt := by
  cases x with
  | seg s =>
    simp only [loadParts, List.mem_map] at ho
    obtain ⟨t, ht, rfl⟩ := ho
    simp only [DObj.isInner, Bool.and_eq_true, containsPt_has] at hi
    obtain ⟨⟨a1, a2, a3, a4⟩, b1, b2, b3, b4⟩ := hi
    obtain ⟨_, c1, c2, c3, c4⟩ := hn
    exact ⟨by omega, by omega, by omega, by omega⟩
  | via v =>
    simp only [loadParts] at ho
    split at ho
    · rename_i hc
      simp only [List.mem_singleton] at ho
      subst ho
      rw [hn.1]
      exact originIn_has.1 hc
    · cases ho
  | patch p =>
    simp only [loadParts] at ho
    split at ho
    · rename_i hc
      simp only [List.mem_singleton] at ho
      subst ho
      rw [hn.1]
      exact originIn_has.1 hc
    · cases ho

theorem load_tidy (hR : R.Strict) (hO : TidyNet O) : TidyNet (loadNet false R ext width O).1 := by
  have hpart : ∀ {x : DObj} {t : DSeg}, x ∈ O → .seg t ∈ (loadParts false R width x).1 → ∃ s, x = .seg s ∧ t ∈ (loadSeg false R (width s.layer) s).1 := by
    intro x t hx ht
    cases x with
    | seg s =>
      simp only [loadParts, List.mem_map, DObj.seg.injEq, exists_eq_right] at ht
      exact ⟨s, rfl, ht⟩
    | via v => simp only [loadParts] at ht; split at ht <;> simp at ht
    | patch p => simp only [loadParts] at ht; split at ht <;> simp at ht
  constructor
  · intro t ht
    unfold loadNet at ht
    simp only [List.mem_flatMap, List.mem_filter] at ht
    obtain ⟨x, ⟨h1, _⟩, h2⟩ := ht
    obtain ⟨s, rfl, hs⟩ := hpart h1 h2
    exact (piece_of (init := false) (w := width s.layer) hR (hO.pos s h1) (by unfold pieces; exact List.mem_append_left _ hs)).pos
  · unfold loadNet
    simp only
    rw [List.pairwise_flatMap]
    constructor
    · intro x hx
      have hx := (List.mem_filter.1 hx).1
      cases x with
      | seg s =>
        simp only [loadParts]
        rw [List.pairwise_map]
        refine (pieces_apart hR (hO.pos s hx)).imp ?_
        intro t u h s' t' e1 e2
        cases e1
        cases e2
        exact h
      | via v => simp only [loadParts]; split <;> simp
      | patch p => simp only [loadParts]; split <;> simp
    · refine (hO.apart.sublist List.filter_sublist).imp_of_mem ?_
      intro x y hx hy hxy o ho o' ho' t u e1 e2 hov
      have hx := (List.mem_filter.1 hx).1
      have hy := (List.mem_filter.1 hy).1
      rw [e1] at ho
      rw [e2] at ho'
      obtain ⟨s, rfl, hs⟩ := hpart hx ho
      obtain ⟨s', rfl, hs'⟩ := hpart hy ho'
      have p1 := piece_of (init := false) (w := width s.layer) hR (hO.pos s hx) (t := t) (by unfold pieces; exact List.mem_append_left _ hs)
      have p2 := piece_of (init := false) (w := width s'.layer) hR (hO.pos s' hy) (t := u) (by unfold pieces; exact List.mem_append_left _ hs')
      obtain ⟨h0, p, q, hpq, a1, a2, a3, a4⟩ := hov
      exact hxy s s' rfl rfl ⟨by rw [← p1.layer, ← p2.layer]; exact h0, p, q, hpq, p1.sub _ a1, p1.sub _ a2, p2.sub _ a3, p2.sub _ a4⟩

/-- what removal keeps: the parts outside and the border pieces -/
theorem mem_kept (hR : R.Strict) (hO : TidyNet O) {mod : Nat → Bool} {x o : DObj} (hx : x ∈ O) (hm : mod x.net = true)
    (ho : o ∈ (loadParts false R width x).2 ∨ (o ∈ (loadParts false R width x).1 ∧ o.isInner R = false)) : o ∈ (removeObj false R width mod x).1 := by
  cases x with
  | seg s =>
    have hsame := c56_same_outside (init := false) (w := width s.layer) hR.proper (hO.pos s hx).1
    have hmem : ∃ t, o = .seg t ∧ t ∈ (loadSplit R (loadSeg false R (width s.layer) s)).2 := by
      simp only [loadParts, List.mem_map] at ho
      unfold loadSplit
      simp only [List.mem_append, List.mem_filter]
      rcases ho with ⟨t, h1, rfl⟩ | ⟨⟨t, h1, rfl⟩, h2⟩
      · exact ⟨t, rfl, .inl h1⟩
      · refine ⟨t, rfl, .inr ⟨h1, ?_⟩⟩
        simp only [DObj.isInner] at h2
        rw [h2]
        rfl
    obtain ⟨t, rfl, ht⟩ := hmem
    rw [hsame] at ht
    rw [removeObj_seg hR.proper (hO.pos s hx).1 hm]
    cases hr : removeSeg false R (width s.layer) s with
    | none =>
      rw [hr] at ht
      simp only [List.mem_singleton] at ht ⊢
      rw [ht]
    | some r =>
      rw [hr] at ht
      exact List.mem_map_of_mem ht
  | via v =>
    simp only [loadParts] at ho
    split at ho
    · rcases ho with h | ⟨h1, h2⟩
      · cases h
      · simp only [List.mem_singleton] at h1
        rw [h1] at h2
        simp [DObj.isInner] at h2
    · rename_i hc
      rcases ho with h | ⟨h1, h2⟩
      · simp only [List.mem_singleton] at h
        unfold removeObj
        split
        · simp only
          rw [if_neg hc, h]
          exact List.mem_cons_self
        · rw [h]
          exact List.mem_cons_self
      · cases h1
  | patch v =>
    simp only [loadParts] at ho
    split at ho
    · rcases ho with h | ⟨h1, h2⟩
      · cases h
      · simp only [List.mem_singleton] at h1
        rw [h1] at h2
        simp [DObj.isInner] at h2
    · rename_i hc
      rcases ho with h | ⟨h1, h2⟩
      · simp only [List.mem_singleton] at h
        unfold removeObj
        split
        · simp only
          rw [if_neg hc, h]
          exact List.mem_cons_self
        · rw [h]
          exact List.mem_cons_self
      · cases h1

/-- the pieces of all objects -/
def cutAll (R : Box) (width : Int → Nat) (O : List DObj) : List DObj := O.flatMap (parts R width)

theorem mem_cutAll {o : DObj} : o ∈ cutAll R width O ↔ ∃ x ∈ O, o ∈ parts R width x := List.mem_flatMap

theorem joins_mono {A B : List DObj} (h : ∀ o ∈ A, o ∈ B) {a b : RElem} (hj : a.Joins A pinAt b) : a.Joins B pinAt b := by
  have hg : ∀ (e : RElem) n, e.GAt A pinAt n → e.GAt B pinAt n := by
    intro e n he
    cases e with
    | obj o => exact he
    | pin k =>
      obtain ⟨h1, o, ho, h2⟩ := he
      exact ⟨h1, o, h o ho, h2⟩
  obtain ⟨n, h1, h2, o, ho, h3⟩ := hj
  exact ⟨n, hg _ _ h1, hg _ _ h2, o, h o ho, h3⟩

theorem conducts_mono {A B : List DObj} (h : ∀ o ∈ A, o ∈ B) {a : RElem} (hc : a.Conducts A nPins) : a.Conducts B nPins := by
  cases a with
  | obj o => exact ⟨h o hc.1, hc.2⟩
  | pin k => exact hc

theorem connected_mono {A B : List DObj} (h : ∀ o ∈ A, o ∈ B) {a b : RElem} (hc : Connected A pinAt nPins a b) : Connected B pinAt nPins a b := by
  unfold Connected at hc ⊢
  induction hc with
  | refl hk => exact .refl (conducts_mono h hk)
  | step _ hj hk ih => exact .step ih (joins_mono h hj) (conducts_mono h hk)

theorem part_at (hR : R.Strict) (hO : TidyNet O) {x : DObj} (hx : x ∈ O) {n : Node} (hn : x.At n) : ∃ o ∈ parts R width x, o.At n := by
  cases x with
  | seg s =>
    obtain ⟨t, h1, h2⟩ := piece_cover (init := false) (w := width s.layer) hR (hO.pos s hx) hn.2
    exact ⟨.seg t, mem_parts_seg.2 ⟨t, h1, rfl⟩, by have := (piece_of hR (hO.pos s hx) h1).layer; exact ⟨this.trans hn.1, h2⟩⟩
  | via v => exact ⟨.via v, by rw [parts_other (by simp)]; exact List.mem_cons_self, hn⟩
  | patch p => exact ⟨.patch p, by rw [parts_other (by simp)]; exact List.mem_cons_self, hn⟩

theorem part_endsAt (hR : R.Strict) (hO : TidyNet O) {x : DObj} (hx : x ∈ O) {n : Node} (hn : x.EndsAt n) : ∃ o ∈ parts R width x, o.EndsAt n := by
  cases x with
  | seg s =>
    obtain ⟨⟨t, t1, t2, _⟩, u, u1, u2, _⟩ := piece_ends (init := false) (w := width s.layer) (hO.pos s hx) hR
    obtain ⟨h1, h2 | h2⟩ := hn
    · exact ⟨.seg t, mem_parts_seg.2 ⟨t, t1, rfl⟩, (piece_of hR (hO.pos s hx) t1).layer.trans h1, .inl (t2.trans h2)⟩
    · exact ⟨.seg u, mem_parts_seg.2 ⟨u, u1, rfl⟩, (piece_of hR (hO.pos s hx) u1).layer.trans h1, .inr (u2.trans h2)⟩
  | via v => exact ⟨.via v, by rw [parts_other (by simp)]; exact List.mem_cons_self, hn⟩
  | patch p => exact hn.elim

theorem part_access (hR : R.Strict) (hO : TidyNet O) {x : DObj} (hx : x ∈ O) {n : Node} (hn : x.Access n) : ∃ o ∈ parts R width x, o.Access n := by
  cases x with
  | seg s =>
    obtain ⟨⟨t, t1, t2, t3⟩, u, u1, u2, u3⟩ := piece_ends (init := false) (w := width s.layer) (hO.pos s hx) hR
    obtain ⟨h1, h2 | h2⟩ := hn
    · exact ⟨.seg t, mem_parts_seg.2 ⟨t, t1, rfl⟩, (piece_of hR (hO.pos s hx) t1).layer.trans h1, .inl ⟨t3.trans h2.1, t2.trans h2.2⟩⟩
    · exact ⟨.seg u, mem_parts_seg.2 ⟨u, u1, rfl⟩, (piece_of hR (hO.pos s hx) u1).layer.trans h1, .inr ⟨u3.trans h2.1, u2.trans h2.2⟩⟩
  | via v => exact ⟨.via v, by rw [parts_other (by simp)]; exact List.mem_cons_self, hn⟩
  | patch p => exact hn.elim

theorem part_isPatch {x o : DObj} (h : o ∈ parts R width x) : o.isPatch = x.isPatch := by
  cases x with
  | seg s =>
    obtain ⟨t, _, rfl⟩ := mem_parts_seg.1 h
    rfl
  | via v => rw [parts_other (by simp)] at h; rw [List.mem_singleton] at h; rw [h]
  | patch p => rw [parts_other (by simp)] at h; rw [List.mem_singleton] at h; rw [h]

/-- two pieces of an object are connected -/
theorem parts_connected (hR : R.Strict) (hO : TidyNet O) {x o o' : DObj} (hx : x ∈ O) (hp : x.isPatch = false) (h : o ∈ parts R width x) (h' : o' ∈ parts R width x) :
    Connected (cutAll R width O) pinAt nPins (.obj o) (.obj o') := by
  have hin : ∀ {o}, o ∈ parts R width x → RElem.Conducts (cutAll R width O) nPins (.obj o) := fun ho =>
    ⟨mem_cutAll.2 ⟨x, hx, ho⟩, by rw [part_isPatch ho, hp]⟩
  cases x with
  | seg s =>
    obtain ⟨t, ht, rfl⟩ := mem_parts_seg.1 h
    obtain ⟨u, hu, rfl⟩ := mem_parts_seg.1 h'
    obtain ⟨m, hm, h1, h2⟩ := pieces_join (hO.pos s hx) hR ht hu
    have hpos := hO.pos s hx
    have key : ∀ (a b : DSeg), a ∈ pieces false R (width s.layer) s → b ∈ pieces false R (width s.layer) s → (a = b ∨ a.e = b.b ∨ b.e = a.b) →
        Connected (cutAll R width O) pinAt nPins (.obj (.seg a)) (.obj (.seg b)) := by
      intro a b ha hb hab
      have pa := piece_of hR hpos ha
      have pb := piece_of hR hpos hb
      have ia := hin (mem_parts_seg.2 ⟨a, ha, rfl⟩)
      have ib := hin (mem_parts_seg.2 ⟨b, hb, rfl⟩)
      rcases hab with rfl | hab | hab
      · exact .refl ia
      · refine .step (.refl ia) ⟨⟨a.e, a.layer⟩, ⟨rfl, (dseg_ends_on pa.pos.1).2⟩, ⟨pb.layer.trans pa.layer.symm, ?_⟩, _, ia.1, rfl, .inr rfl⟩ ib
        simp only [hab]
        exact (dseg_ends_on pb.pos.1).1
      · refine .step (.refl ia) ⟨⟨a.b, a.layer⟩, ⟨rfl, (dseg_ends_on pa.pos.1).1⟩, ⟨pb.layer.trans pa.layer.symm, ?_⟩, _, ia.1, rfl, .inl rfl⟩ ib
        simp only [← hab]
        exact (dseg_ends_on pb.pos.1).2
    exact Chain.trans (key t m ht hm h1) (key m u hm hu h2)
  | via v =>
    rw [parts_other (by simp), List.mem_singleton] at h h'
    rw [h, h']
    exact .refl (hin (by rw [parts_other (by simp)]; exact List.mem_cons_self))
  | patch p => cases hp

/-- cutting wires at the border keeps connections -/
theorem cut_connected (hR : R.Strict) (hO : TidyNet O) {j k : Nat} (h : Connected O pinAt nPins (.pin j) (.pin k)) :
    Connected (cutAll R width O) pinAt nPins (.pin j) (.pin k) := by
  have hat : ∀ {e : RElem} {n}, e.Conducts O nPins → e.GAt O pinAt n →
      ∃ e' : RElem, e'.Conducts (cutAll R width O) nPins ∧ e'.GAt (cutAll R width O) pinAt n ∧
        ((∃ k, e = .pin k ∧ e' = .pin k) ∨ ∃ x o, e = .obj x ∧ e' = .obj o ∧ o ∈ parts R width x) := by
    intro e n hc hg
    cases e with
    | obj x =>
      obtain ⟨o, h1, h2⟩ := part_at (width := width) hR hO hc.1 hg
      exact ⟨.obj o, ⟨mem_cutAll.2 ⟨x, hc.1, h1⟩, by rw [part_isPatch h1, hc.2]⟩, h2, .inr ⟨x, o, rfl, rfl, h1⟩⟩
    | pin k =>
      obtain ⟨h1, x, hx, h2⟩ := hg
      obtain ⟨o, h3, h4⟩ := part_access (width := width) hR hO hx h2
      exact ⟨.pin k, hc, ⟨h1, o, mem_cutAll.2 ⟨x, hx, h3⟩, h4⟩, .inl ⟨k, rfl, rfl⟩⟩
  have : ∀ e, Connected O pinAt nPins (.pin j) e → (∀ k, e = .pin k → Connected (cutAll R width O) pinAt nPins (.pin j) (.pin k)) ∧
      (∀ x, e = .obj x → ∀ o ∈ parts R width x, Connected (cutAll R width O) pinAt nPins (.pin j) (.obj o)) := by
    intro e he
    induction he with
    | refl hk =>
      refine ⟨fun k e => ?_, fun x e => by cases e⟩
      cases e
      exact .refl hk
    | @step b c hb hj hk ih =>
      obtain ⟨n, h1, h2, x, hx, h3⟩ := hj
      obtain ⟨b', hb1, hb2, hb3⟩ := hat (Chain.mem hb) h1
      obtain ⟨c', hc1, hc2, hc3⟩ := hat hk h2
      obtain ⟨o, ho1, ho2⟩ := part_endsAt (width := width) hR hO hx h3
      have hjb : Connected (cutAll R width O) pinAt nPins (.pin j) b' := by
        rcases hb3 with ⟨k, e1, e2⟩ | ⟨y, o', e1, e2, e3⟩
        · rw [e2]; exact ih.1 k e1
        · rw [e2]; exact ih.2 y e1 o' e3
      have hjc : Connected (cutAll R width O) pinAt nPins (.pin j) c' := .step hjb ⟨n, hb2, hc2, o, mem_cutAll.2 ⟨x, hx, ho1⟩, ho2⟩ hc1
      constructor
      · intro k e
        rcases hc3 with ⟨k', e1, e2⟩ | ⟨y, o', e1, _⟩
        · rw [e] at e1
          cases e1
          rw [← e2]
          exact hjc
        · rw [e] at e1; cases e1
      · intro y e o' ho'
        rcases hc3 with ⟨k', e1, _⟩ | ⟨y', o'', e1, e2, e3⟩
        · rw [e] at e1; cases e1
        · rw [e] at e1 hk
          cases e1
          rw [e2] at hjc
          exact Chain.trans hjc (parts_connected hR hO hk.1 hk.2 e3 ho')
  exact (this _ h).1 k rfl

/-- what a subnet has to connect: its wires that cross the border and its pins -/
def Subnet.Terminal (R : Box) (s : Subnet) : RElem → Prop
  | .obj o => o ∈ s.exts ∧ ∃ n, o.At n ∧ R.Has n.pt
  | .pin k => k ∈ s.pins

/-- **C71.** Rip-up and reroute of a region: let the objects of a net in a region be divided into subnets and removed, and let new objects connect, for every
subnet, all its border-crossing wires and pins with each other. Then any two pins of the net that were connected are connected afterwards.
`F` is any net that contains what was kept and the new objects. -/
theorem c71_reroute (hR : R.Strict) (hext : ∀ p, R.Has p → ext.Has p) (hO : TidyNet O) (hv : OriginsIn O) (width : Int → Nat) (pinAt : Nat → Node → Bool) (nPins : Nat)
    (pick : List Nat → Nat) :
    ∃ subs, regionSubnets R (loadNet false R ext width O).1 (loadNet false R ext width O).2 pinAt nPins pick = some subs ∧
      ∀ (new : Nat → List DObj) (F : List DObj),
        (∀ i s, subs[i]? = some s → ∀ a b, s.Terminal R a → s.Terminal R b → Connected (s.exts ++ new i) pinAt nPins a b) →
        (∀ o ∈ (removeNets false R width (fun _ => true) O).1, o ∈ F) → (∀ i s, subs[i]? = some s → ∀ o ∈ new i, o ∈ F) →
        ∀ j k, Connected O pinAt nPins (.pin j) (.pin k) → Connected F pinAt nPins (.pin j) (.pin k) := by
  have htidy := load_tidy (ext := ext) (width := width) hR hO
  have hpure : ∀ o ∈ (loadNet false R ext width O).2, o ∉ (loadNet false R ext width O).1 := by
    intro o ho ho'
    obtain ⟨x, hx, h1⟩ := mem_load2 ho
    obtain ⟨y, hy, h2⟩ := (mem_load1 hR hext hO hv).1 ho'
    obtain ⟨n, hn1, hn2⟩ := in_at hR hO hy h2
    exact out_at hR hO hx h1 hn1 hn2
  obtain ⟨subs, hsub, hiff⟩ := c70_subnets (R := R) (pinAt := pinAt) (nPins := nPins) htidy hpure pick
  obtain ⟨subs', hsub', hperm, _, hpins, _, hexts⟩ := c70_partition (R := R) (pure := (loadNet false R ext width O).2) (pinAt := pinAt) (nPins := nPins) htidy pick
  rw [hsub] at hsub'
  cases hsub'
  refine ⟨subs, hsub, ?_⟩
  intro new F hnew hkeep hadd j k hjk
  -- what is kept
  have hkept : ∀ {x o}, x ∈ O → (o ∈ (loadParts false R width x).2 ∨ (o ∈ (loadParts false R width x).1 ∧ o.isInner R = false)) → o ∈ F := by
    intro x o hx ho
    exact hkeep o (List.mem_flatMap.2 ⟨x, hx, mem_kept (mod := fun _ => true) hR hO hx rfl ho⟩)
  have hextF : ∀ s ∈ subs, ∀ o ∈ s.exts, o ∈ F := by
    intro s hs o ho
    rcases hexts s hs o ho with h | ⟨w, rfl, h⟩
    · obtain ⟨x, hx, h1⟩ := mem_load2 h
      exact hkept hx (.inl h1)
    · have hm : DObj.seg w ∈ (loadNet false R ext width O).1 ++ (loadNet false R ext width O).2 :=
        hperm.mem_iff.1 (List.mem_flatMap.2 ⟨s, hs, List.mem_append_right _ ho⟩)
      rcases List.mem_append.1 hm with hm | hm
      · obtain ⟨x, hx, h1⟩ := (mem_load1 hR hext hO hv).1 hm
        refine hkept hx (.inr ⟨h1, ?_⟩)
        rw [← containsPt_has, ← containsPt_has, ← Bool.and_eq_true] at h
        simp only [DObj.isInner]
        simpa only [Bool.not_eq_true] using h
      · obtain ⟨x, hx, h1⟩ := mem_load2 hm
        exact hkept hx (.inl h1)
  have hnewF : ∀ (i : Nat) (s : Subnet), subs[i]? = some s → ∀ a b, s.Terminal R a → s.Terminal R b → Connected F pinAt nPins a b := by
    intro i s hi a b ha hb
    refine connected_mono ?_ (hnew i s hi a b ha hb)
    intro o ho
    rcases List.mem_append.1 ho with ho | ho
    · exact hextF s (List.mem_of_getElem? hi) o ho
    · exact hadd i s hi o ho
  -- a piece is a loaded object or lies outside
  have hsplit : ∀ {o}, o ∈ cutAll R width O → (o ∈ (loadNet false R ext width O).1) ∨ ∃ x ∈ O, o ∈ (loadParts false R width x).2 := by
    intro o ho
    obtain ⟨x, hx, h1⟩ := mem_cutAll.1 ho
    rcases List.mem_append.1 h1 with h1 | h1
    · exact .inl ((mem_load1 hR hext hO hv).2 ⟨x, hx, h1⟩)
    · exact .inr ⟨x, hx, h1⟩
  -- elements that remain
  have hstay : ∀ {o}, o ∈ cutAll R width O → ¬ (o ∈ (loadNet false R ext width O).1 ∧ o.isInner R = true) → o ∈ F := by
    intro o ho hn
    rcases hsplit ho with h | ⟨x, hx, h⟩
    · obtain ⟨x, hx, h1⟩ := (mem_load1 hR hext hO hv).1 h
      refine hkept hx (.inr ⟨h1, ?_⟩)
      cases hi : o.isInner R with
      | false => rfl
      | true => exact absurd ⟨h, hi⟩ hn
    · exact hkept hx (.inl h)
  have hinR : ∀ {o n}, o ∈ cutAll R width O → o.At n → R.Has n.pt → o ∈ (loadNet false R ext width O).1 := by
    intro o n ho hn hRn
    rcases hsplit ho with h | ⟨x, hx, h⟩
    · exact h
    · exact absurd hRn (out_at hR hO hx h hn)
  have hoff : ∀ {o n}, o ∈ cutAll R width O → o.At n → ¬ R.Has n.pt → o ∈ F := by
    intro o n ho hn hRn
    refine hstay ho ?_
    rintro ⟨h1, h2⟩
    obtain ⟨x, hx, h3⟩ := (mem_load1 hR hext hO hv).1 h1
    exact hRn (inner_at hR hO hx h3 h2 hn)
  have hpos : ∀ {o}, o ∈ cutAll R width O → ∀ n, o.EndsAt n → o.At n := by
    intro o ho n hn
    cases o with
    | seg t =>
      obtain ⟨x, hx, h1⟩ := mem_cutAll.1 ho
      have hok : t.Ok := by
        cases x with
        | seg s =>
          obtain ⟨u, hu, e⟩ := mem_parts_seg.1 h1
          cases e
          exact (piece_of hR (hO.pos s hx) hu).pos.1
        | via v => rw [parts_other (by simp)] at h1; simp at h1
        | patch p => rw [parts_other (by simp)] at h1; simp at h1
      obtain ⟨h2, h3 | h3⟩ := hn
      · exact ⟨h2, h3 ▸ (dseg_ends_on hok).1⟩
      · exact ⟨h2, h3 ▸ (dseg_ends_on hok).2⟩
    | via v => exact hn
    | patch p => exact hn.elim
  -- the subnet of an element of the region
  have hshare : ∀ {a b}, Chain (RElem.Meets R (loadNet false R ext width O).1 pinAt) (RElem.InNet R (loadNet false R ext width O).1 pinAt nPins) a b →
      ∃ (i : Nat) (s : Subnet), subs[i]? = some s ∧ s.Has a ∧ s.Has b := by
    intro a b hc
    obtain ⟨s, hs, h1, h2⟩ := (hiff a b (Chain.start hc) (Chain.mem hc)).2 hc
    obtain ⟨i, hi⟩ := List.mem_iff_getElem?.1 hs
    exact ⟨i, s, hi, h1, h2⟩
  -- `T e`: an element that remains
  let T : RElem → Prop := fun e => match e with
    | .obj o => o ∈ cutAll R width O ∧ ¬ (o ∈ (loadNet false R ext width O).1 ∧ o.isInner R = true)
    | .pin _ => True
  have hterm : ∀ {i : Nat} {s : Subnet} {e : RElem}, subs[i]? = some s → s.Has e → T e → e.InNet R (loadNet false R ext width O).1 pinAt nPins → s.Terminal R e := by
    intro i s e hi hh hT hin
    cases e with
    | pin k => exact hh
    | obj o =>
      have ho : o ∈ (loadNet false R ext width O).1 := hin
      have hni : o.isInner R = false := by
        cases hb : o.isInner R with
        | false => rfl
        | true => exact absurd ⟨ho, hb⟩ hT.2
      have hsm := List.mem_of_getElem? hi
      refine ⟨?_, ?_⟩
      · rcases hh with hh | hh
        · exfalso
          have hbad : o.isInner R = true := by
            unfold regionSubnets at hsub
            obtain ⟨⟨comp, num⟩, hc1, hc2⟩ := Option.map_eq_some_iff.1 hsub
            rw [← hc2] at hsm
            unfold mkSubnets at hsm
            obtain ⟨q, _, rfl⟩ := List.mem_map.1 hsm
            exact (List.mem_filter.1 hh).2
          rw [hni] at hbad
          cases hbad
        · exact hh
      · obtain ⟨x, hx, h1⟩ := (mem_load1 hR hext hO hv).1 ho
        exact in_at hR hO hx h1
  have main : ∀ e, Connected (cutAll R width O) pinAt nPins (.pin j) e →
      (T e → Connected F pinAt nPins (.pin j) e) ∧
      (¬ T e → ∃ t, T t ∧ Connected F pinAt nPins (.pin j) t ∧
        Chain (RElem.Meets R (loadNet false R ext width O).1 pinAt) (RElem.InNet R (loadNet false R ext width O).1 pinAt nPins) t e) := by
    intro e he
    induction he with
    | refl hk => exact ⟨fun _ => .refl hk, fun h => absurd (show T (.pin j) from trivial) h⟩
    | @step b c hb hj hk ih =>
      have hbc := Chain.mem hb
      obtain ⟨n, h1, h2, o, ho, h3⟩ := hj
      by_cases hn : R.Has n.pt
      · -- in the region
        have hin : ∀ {e : RElem}, e.Conducts (cutAll R width O) nPins → e.GAt (cutAll R width O) pinAt n →
            e.At R (loadNet false R ext width O).1 pinAt n ∧ e.InNet R (loadNet false R ext width O).1 pinAt nPins := by
          intro e hc hg
          cases e with
          | obj x => exact ⟨hg, hinR hc.1 hg hn⟩
          | pin q =>
            obtain ⟨g1, x, hx, g2⟩ := hg
            have : (RElem.pin q).At R (loadNet false R ext width O).1 pinAt n := ⟨g1, hn, x, hinR hx (hpos hx n (access_ends g2)) hn, g2⟩
            exact ⟨this, hc, n, this⟩
        have hb' := hin hbc h1
        have hc' := hin hk h2
        have hm : RElem.Meets R (loadNet false R ext width O).1 pinAt b c := ⟨n, hb'.1, hc'.1, .inl ⟨o, hinR ho (hpos ho n h3) hn, h3⟩⟩
        -- a remaining element from which `c` is reached in the region
        have hfrom : ∃ t, T t ∧ Connected F pinAt nPins (.pin j) t ∧
            Chain (RElem.Meets R (loadNet false R ext width O).1 pinAt) (RElem.InNet R (loadNet false R ext width O).1 pinAt nPins) t c := by
          by_cases hT : T b
          · exact ⟨b, hT, ih.1 hT, .step (.refl hb'.2) hm hc'.2⟩
          · obtain ⟨t, t1, t2, t3⟩ := ih.2 hT
            exact ⟨t, t1, t2, .step t3 hm hc'.2⟩
        refine ⟨fun hTc => ?_, fun _ => hfrom⟩
        obtain ⟨t, t1, t2, t3⟩ := hfrom
        obtain ⟨i, s, hi, s1, s2⟩ := hshare t3
        exact Chain.trans t2 (hnewF i s hi t c (hterm hi s1 t1 (Chain.start t3)) (hterm hi s2 hTc (Chain.mem t3)))
      · -- outside
        have hoF : o ∈ F := hoff ho (hpos ho n h3) hn
        have hG : ∀ {e : RElem}, e.Conducts (cutAll R width O) nPins → e.GAt (cutAll R width O) pinAt n →
            T e ∧ e.GAt F pinAt n ∧ e.Conducts F nPins := by
          intro e hc hg
          cases e with
          | obj x =>
            refine ⟨⟨hc.1, ?_⟩, hg, hoff hc.1 hg hn, hc.2⟩
            rintro ⟨g1, g2⟩
            obtain ⟨y, hy, g3⟩ := (mem_load1 hR hext hO hv).1 g1
            exact hn (inner_at hR hO hy g3 g2 hg)
          | pin q =>
            obtain ⟨g1, x, hx, g2⟩ := hg
            exact ⟨trivial, ⟨g1, x, hoff hx (hpos hx n (access_ends g2)) hn, g2⟩, hc⟩
        have hb' := hG hbc h1
        have hc' := hG hk h2
        exact ⟨fun _ => .step (ih.1 hb'.1) ⟨n, hb'.2.1, hc'.2.1, o, hoF, h3⟩ hc'.2.2, fun h => absurd hc'.1 h⟩
  exact (main _ (cut_connected hR hO hjk)).1 trivial

end TR
