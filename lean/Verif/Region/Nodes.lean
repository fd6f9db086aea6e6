import Verif.Region.Comp
import Verif.Region.Spec
import Verif.Conn.NodeLemmas
import Verif.WB.End
/-! # The node map of a region -/
namespace TR

theorem toC_ends (o : DObj) (n : Node) : n ∈ o.toC.ends ↔ n ∈ o.ends := by
  cases o <;> simp [DObj.toC, CObj.ends, DObj.ends]

theorem mem_ends (o : DObj) (n : Node) : n ∈ o.ends ↔ o.EndsAt n ∨ (o.isPatch = true ∧ o.At n) := by
  obtain ⟨p, l⟩ := n
  cases o with
  | seg s =>
    simp only [DObj.ends, DObj.EndsAt, DObj.isPatch, List.mem_cons, List.not_mem_nil, or_false, Node.mk.injEq, Bool.false_eq_true, false_and]
    constructor
    · rintro (⟨h1, h2⟩ | ⟨h1, h2⟩)
      · exact ⟨h2.symm, .inl h1.symm⟩
      · exact ⟨h2.symm, .inr h1.symm⟩
    · rintro ⟨h1, h2 | h2⟩
      · exact .inl ⟨h2.symm, h1.symm⟩
      · exact .inr ⟨h2.symm, h1.symm⟩
  | via v =>
    simp only [DObj.ends, DObj.EndsAt, DObj.isPatch, List.mem_cons, List.not_mem_nil, or_false, Node.mk.injEq, Bool.false_eq_true, false_and]
    constructor
    · rintro (⟨h1, h2⟩ | ⟨h1, h2⟩)
      · exact ⟨h1, .inl h2⟩
      · exact ⟨h1, .inr h2⟩
    · rintro ⟨h1, h2 | h2⟩
      · exact .inl ⟨h1, h2⟩
      · exact .inr ⟨h1, h2⟩
  | patch q => simp [DObj.ends, DObj.EndsAt, DObj.isPatch, DObj.At]

theorem endsAt_ends {o : DObj} {n : Node} (h : o.EndsAt n) : n ∈ o.ends := (mem_ends o n).2 (.inl h)

theorem patch_no_end {o : DObj} (h : o.isPatch = true) (n : Node) : ¬ o.EndsAt n := by
  cases o <;> simp_all [DObj.isPatch, DObj.EndsAt]

theorem access_ends {o : DObj} {n : Node} (h : o.Access n) : o.EndsAt n := by
  cases o with
  | seg s =>
    obtain ⟨h1, h2 | h2⟩ := h
    · exact ⟨h1, .inl h2.2⟩
    · exact ⟨h1, .inr h2.2⟩
  | via v => exact h
  | patch p => exact h

theorem seg_proper {s : DSeg} (h : s.Pos) {w : CWire} (e : (DObj.seg s).toC = .wire w) : w.Proper := by
  simp only [DObj.toC, CObj.wire.injEq] at e
  rw [← e]
  obtain ⟨h1, h2, h3, h4⟩ := h
  obtain ⟨n, l, ⟨bx, by_⟩, ⟨ex, ey⟩, st⟩ := s
  simp only [DSeg.Ok, ne_eq, Point.mk.injEq] at h1 h2 h3 h4
  refine ⟨?_, h3, h4⟩
  simp only
  omega

theorem toC_wire {o : DObj} {w : CWire} (h : o.toC = .wire w) : ∃ s, o = .seg s := by
  cases o with
  | seg s => exact ⟨s, rfl⟩
  | via v => simp [DObj.toC] at h
  | patch p => simp [DObj.toC] at h

theorem toC_on_seg {s : DSeg} (h : s.Ok) {w : CWire} (e : (DObj.seg s).toC = .wire w) (n : Node) : w.On n ↔ (DObj.seg s).At n := by
  simp only [DObj.toC, CObj.wire.injEq] at e
  rw [← e]
  unfold CWire.On DObj.At DSeg.On
  unfold DSeg.Ok at h
  simp only
  refine and_congr_right (fun _ => ?_)
  omega

theorem overlap_toC {s t : DSeg} {v w : CWire} (hv : (DObj.seg s).toC = .wire v) (hw : (DObj.seg t).toC = .wire w) (h : v.Overlap w) : s.Overlap t := by
  simp only [DObj.toC, CObj.wire.injEq] at hv hw
  obtain ⟨l, hz, p, ⟨a1, a2⟩, b1, b2⟩ := h
  rw [← hv] at a1 a2
  rw [← hw] at b1 b2
  simp only at a1 a2 b1 b2
  refine ⟨by rw [a1, b1], p, if hz then ⟨p.x + 1, p.y⟩ else ⟨p.x, p.y + 1⟩, ?_, ?_⟩
  · obtain ⟨px, py⟩ := p
    cases hz <;> simp only [Bool.false_eq_true, if_false, if_true, ne_eq, Point.mk.injEq] <;> omega
  · obtain ⟨px, py⟩ := p
    cases hz <;> simp only [Bool.false_eq_true, if_false, if_true] at * <;> unfold DSeg.On <;> simp only <;> omega

theorem DSeg.Overlap.symm {s t : DSeg} (h : s.Overlap t) : t.Overlap s := by
  obtain ⟨h, p, q, h0, h1, h2, h3, h4⟩ := h
  exact ⟨h.symm, p, q, h0, h3, h4, h1, h2⟩

theorem TidyNet.ne {objs : List DObj} (h : TidyNet objs) {i j : Nat} {s t : DSeg} (hij : i ≠ j) (hi : objs[i]? = some (.seg s)) (hj : objs[j]? = some (.seg t)) :
    ¬ s.Overlap t := by
  obtain ⟨hil, hi⟩ := List.getElem?_eq_some_iff.1 hi
  obtain ⟨hjl, hj⟩ := List.getElem?_eq_some_iff.1 hj
  have hp := List.pairwise_iff_getElem.1 h.apart
  rcases Nat.lt_or_gt_of_ne hij with hlt | hlt
  · exact hp i j hil hjl hlt s t hi hj
  · exact fun ho => hp j i hjl hil hlt t s hj hi ho.symm

theorem tidy_clean {objs : List DObj} (h : TidyNet objs) {pins : List (List Node)} (hp : ∀ ns ∈ pins, ∀ n ∈ ns, ∃ o ∈ objs, o.EndsAt n) :
    CleanNet (objs.map DObj.toC) pins := by
  refine ⟨?_, ?_, ?_⟩
  · intro w hw
    obtain ⟨o, ho, he⟩ := List.mem_map.1 hw
    obtain ⟨s, rfl⟩ := toC_wire he
    exact seg_proper (h.pos s ho) he
  · intro i j v w hij hi hj ho
    rw [List.getElem?_map, Option.map_eq_some_iff] at hi hj
    obtain ⟨o, hi, hv⟩ := hi
    obtain ⟨o', hj, hw⟩ := hj
    obtain ⟨s, rfl⟩ := toC_wire hv
    obtain ⟨t, rfl⟩ := toC_wire hw
    exact h.ne hij hi hj (overlap_toC hv hw ho)
  · intro ns hns n hn
    obtain ⟨o, ho, he⟩ := hp ns hns n hn
    exact ⟨o.toC, List.mem_map_of_mem ho, (toC_ends o n).2 (endsAt_ends he)⟩

theorem mem_regionInserts {objs : List DObj} {pins : List (List Node)} (n : Node) (i : Nat) :
    (n, i) ∈ regionInserts objs pins ↔
      (∃ o, objs[i]? = some o ∧ n ∈ o.ends) ∨ (∃ o ∈ objs, o.isPatch = false ∧ (n, i) ∈ o.toC.splits (objs.map DObj.toC)) ∨
      ∃ k ns, i = objs.length + k ∧ pins[k]? = some ns ∧ n ∈ ns := by
  unfold regionInserts
  rw [List.mem_append, List.mem_append, List.mem_flatMap, List.mem_flatMap, List.mem_flatMap]
  constructor
  · rintro ((⟨⟨o, j⟩, h1, h2⟩ | ⟨o, ho, h⟩) | ⟨⟨ns, k⟩, h1, h2⟩)
    · rw [List.mem_zipIdx_iff_getElem?] at h1
      obtain ⟨m, hm, he⟩ := List.mem_map.1 h2
      simp only [Prod.mk.injEq] at he
      obtain ⟨rfl, rfl⟩ := he
      exact .inl ⟨o, h1, hm⟩
    · obtain ⟨h1, h2⟩ := List.mem_filter.1 ho
      exact .inr (.inl ⟨o, h1, by simpa using h2, h⟩)
    · rw [List.mem_zipIdx_iff_getElem?] at h1
      obtain ⟨m, hm, he⟩ := List.mem_map.1 h2
      simp only [Prod.mk.injEq] at he
      obtain ⟨rfl, rfl⟩ := he
      exact .inr (.inr ⟨k, ns, rfl, h1, hm⟩)
  · rintro (⟨o, h1, h2⟩ | ⟨o, h1, h2, h⟩ | ⟨k, ns, rfl, h1, h2⟩)
    · exact .inl (.inl ⟨(o, i), List.mem_zipIdx_iff_getElem?.2 h1, List.mem_map.2 ⟨n, h2, rfl⟩⟩)
    · exact .inl (.inr ⟨o, List.mem_filter.2 ⟨h1, by simpa using h2⟩, h⟩)
    · exact .inr ⟨(ns, k), List.mem_zipIdx_iff_getElem?.2 h1, List.mem_map.2 ⟨n, h2, rfl⟩⟩

theorem regionNodes_sorted (objs : List DObj) (pins : List (List Node)) : (regionNodes objs pins).Sorted :=
  (foldl_ins _ [] List.Pairwise.nil).1

theorem regionNodes_has (objs : List DObj) (pins : List (List Node)) (n : Node) (i : Nat) :
    (regionNodes objs pins).Has n i ↔ (n, i) ∈ regionInserts objs pins := by
  unfold regionNodes
  rw [(foldl_ins _ [] List.Pairwise.nil).2 n i]
  simp [NodeMap.Has]

/-- the node map: an object is entered where it lies at an end of a wire or via, a patch also at its own origin -/
theorem regionNodes_exact {objs : List DObj} {pins : List (List Node)} (h : TidyNet objs) (hp : ∀ ns ∈ pins, ∀ n ∈ ns, ∃ o ∈ objs, o.EndsAt n)
    (n : Node) (i : Nat) : (regionNodes objs pins).Has n i ↔
      (∃ o, objs[i]? = some o ∧ o.At n ∧ (o.isPatch = true ∨ ∃ o' ∈ objs, o'.EndsAt n)) ∨
      ∃ k ns, i = objs.length + k ∧ pins[k]? = some ns ∧ n ∈ ns := by
  have hc := tidy_clean h hp
  rw [regionNodes_has, mem_regionInserts]
  have hat : ∀ o ∈ objs, n ∈ o.ends → o.At n := by
    intro o ho hn
    rcases (mem_ends o n).1 hn with h1 | h1
    · cases o with
      | seg s =>
        obtain ⟨ha, hb⟩ := h1
        have := dseg_ends_on (h.pos s ho).1
        rcases hb with hb | hb
        · exact ⟨ha, hb ▸ this.1⟩
        · exact ⟨ha, hb ▸ this.2⟩
      | via v => exact h1
      | patch p => exact h1.elim
    · exact h1.2
  constructor
  · rintro (⟨o, h1, h2⟩ | ⟨o, h1, hnp, h2⟩ | h1)
    · left
      have ho := List.mem_of_getElem? h1
      refine ⟨o, h1, hat o ho h2, ?_⟩
      rcases (mem_ends o n).1 h2 with h3 | h3
      · exact .inr ⟨o, ho, h3⟩
      · exact .inl h3.1
    · left
      obtain ⟨he, w, hw, hon⟩ := splits_end hc h2
      rw [List.getElem?_map, Option.map_eq_some_iff] at hw
      obtain ⟨o', ho', hw⟩ := hw
      obtain ⟨s, rfl⟩ := toC_wire hw
      refine ⟨_, ho', (toC_on_seg (h.pos s (List.mem_of_getElem? ho')).1 hw n).1 hon, .inr ⟨o, h1, ?_⟩⟩
      rcases (mem_ends o n).1 ((toC_ends o n).1 he) with h3 | h3
      · exact h3
      · rw [hnp] at h3; cases h3.1
    · exact .inr h1
  · rintro (⟨o, h1, h2, h3⟩ | h1)
    · have ho := List.mem_of_getElem? h1
      by_cases hn : n ∈ o.ends
      · exact .inl ⟨o, h1, hn⟩
      · cases o with
        | via v => exact absurd ((mem_ends (.via v) n).2 (.inl h2)) hn
        | patch p => exact absurd ((mem_ends (.patch p) n).2 (.inr ⟨rfl, h2⟩)) hn
        | seg s =>
          obtain ⟨o', ho', he⟩ := h3.resolve_left (by simp [DObj.isPatch])
          right; left
          refine ⟨o', ho', ?_, ?_⟩
          · cases hb : o'.isPatch with
            | false => rfl
            | true => exact absurd he (patch_no_end hb n)
          · obtain ⟨w, hw⟩ : ∃ w, (DObj.seg s).toC = .wire w := ⟨_, rfl⟩
            have hp' := seg_proper (h.pos s ho) hw
            have hon := (toC_on_seg (h.pos s ho).1 hw n).2 h2
            rcases (wire_on_iff hp' n).1 hon with h4 | ⟨hz, a, b, c⟩
            · rw [← hw] at h4
              exact absurd ((toC_ends _ n).1 h4) hn
            · refine splits_complete hc (List.mem_map_of_mem ho') ((toC_ends o' n).2 (endsAt_ends he)) ?_ a b c
              rw [List.getElem?_map, h1, Option.map_some, hw]
    · exact .inr (.inr h1)

theorem mem_pinLookups {R : Box} {objs : List DObj} (n : Node) : n ∈ pinLookups R objs ↔ R.Has n.pt ∧ ∃ o ∈ objs, o.Access n := by
  unfold pinLookups
  rw [List.mem_flatMap]
  obtain ⟨p, l⟩ := n
  constructor
  · rintro ⟨o, ho, h⟩
    cases o with
    | seg s =>
      simp only [List.mem_append] at h
      rcases h with h | h
      · split at h
        · rename_i hc
          simp only [List.mem_singleton, Node.mk.injEq] at h
          exact ⟨by rw [h.1]; exact containsPt_has.1 hc.2, _, ho, h.2.symm, .inl ⟨hc.1, h.1.symm⟩⟩
        · cases h
      · split at h
        · rename_i hc
          simp only [List.mem_singleton, Node.mk.injEq] at h
          exact ⟨by rw [h.1]; exact containsPt_has.1 hc.2, _, ho, h.2.symm, .inr ⟨hc.1, h.1.symm⟩⟩
        · cases h
    | via v =>
      simp only at h
      split at h
      · rename_i hc
        simp only [List.mem_cons, List.not_mem_nil, or_false, Node.mk.injEq] at h
        rcases h with h | h
        · exact ⟨by rw [h.1]; exact containsPt_has.1 hc, _, ho, h.1, .inl h.2⟩
        · exact ⟨by rw [h.1]; exact containsPt_has.1 hc, _, ho, h.1, .inr h.2⟩
      · cases h
    | patch q => cases h
  · rintro ⟨hR, o, ho, h⟩
    refine ⟨o, ho, ?_⟩
    cases o with
    | seg s =>
      obtain ⟨h1, h2 | h2⟩ := h
      · simp only at h1 h2
        have : R.containsPt s.b = true := by rw [h2.2]; exact containsPt_has.2 hR
        simp only [List.mem_append]
        left
        rw [if_pos ⟨h2.1, this⟩, h1, h2.2]
        exact List.mem_singleton.2 rfl
      · simp only at h1 h2
        have : R.containsPt s.e = true := by rw [h2.2]; exact containsPt_has.2 hR
        simp only [List.mem_append]
        right
        rw [if_pos ⟨h2.1, this⟩, h1, h2.2]
        exact List.mem_singleton.2 rfl
    | via v =>
      obtain ⟨h1, h2⟩ := h
      simp only at h1 h2
      have : R.containsPt v.o = true := by rw [← h1]; exact containsPt_has.2 hR
      simp only [this, if_true, List.mem_cons, List.not_mem_nil, or_false, Node.mk.injEq]
      rcases h2 with h2 | h2
      · exact .inl ⟨h1, h2⟩
      · exact .inr ⟨h1, h2⟩
    | patch q => exact h.elim

theorem mem_regionPins {R : Box} {objs : List DObj} {pinAt : Nat → Node → Bool} {nPins : Nat} {x : Nat × List Node} :
    x ∈ regionPins R objs pinAt nPins ↔ x.1 < nPins ∧ x.2 = (pinLookups R objs).filter (pinAt x.1) ∧ x.2 ≠ [] := by
  unfold regionPins
  rw [List.mem_filter, List.mem_map]
  constructor
  · rintro ⟨⟨k, hk, rfl⟩, h⟩
    refine ⟨List.mem_range.1 hk, rfl, ?_⟩
    intro he
    simp only at he
    simp [he] at h
  · rintro ⟨h1, h2, h3⟩
    refine ⟨⟨x.1, List.mem_range.2 h1, ?_⟩, ?_⟩
    · rw [← h2]
    · cases hx : x.2 with
      | nil => exact absurd hx h3
      | cons a t => rfl

theorem regionPins_nodup (R : Box) (objs : List DObj) (pinAt : Nat → Node → Bool) (nPins : Nat) : ((regionPins R objs pinAt nPins).map Prod.fst).Nodup := by
  unfold regionPins
  have h1 : (((List.range nPins).map (fun k => (k, (pinLookups R objs).filter (pinAt k)))).filter (fun p => !p.2.isEmpty)).Sublist
      ((List.range nPins).map (fun k => (k, (pinLookups R objs).filter (pinAt k)))) := List.filter_sublist
  have h2 := h1.map Prod.fst
  refine List.Nodup.sublist h2 ?_
  rw [List.map_map]
  have : (Prod.fst ∘ fun k => (k, (pinLookups R objs).filter (pinAt k))) = id := rfl
  rw [this, List.map_id]
  exact List.nodup_range

/-- pins of the region are entered where a wire or via ends -/
theorem regionPins_end {R : Box} {objs : List DObj} {pinAt : Nat → Node → Bool} {nPins : Nat} :
    ∀ ns ∈ (regionPins R objs pinAt nPins).map Prod.snd, ∀ n ∈ ns, ∃ o ∈ objs, o.EndsAt n := by
  intro ns hns n hn
  obtain ⟨x, hx, rfl⟩ := List.mem_map.1 hns
  obtain ⟨_, h2, _⟩ := mem_regionPins.1 hx
  rw [h2] at hn
  obtain ⟨_, o, ho, ha⟩ := (mem_pinLookups n).1 (List.mem_filter.1 hn).1
  exact ⟨o, ho, access_ends ha⟩

end TR
