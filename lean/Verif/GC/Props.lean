import Verif.GC.Edges
/-! C29, C40: the store of violations; the spacing decision. -/
namespace TR

/-! ### the store -/

def GMk.key (m : GMk) : GKey := (m.box, m.layer, m.rule, m.srcs[0]?, m.srcs[1]?)

theorem GMk.Same.refl (a : GMk) : a.Same a := ⟨rfl, rfl, rfl, .inl ⟨rfl, rfl⟩⟩

theorem GMk.Same.symm {a b : GMk} (h : a.Same b) : b.Same a := by
  obtain ⟨h1, h2, h3, h4 | h4⟩ := h
  · exact ⟨h1.symm, h2.symm, h3.symm, .inl ⟨h4.1.symm, h4.2.symm⟩⟩
  · exact ⟨h1.symm, h2.symm, h3.symm, .inr ⟨h4.2.symm, h4.1.symm⟩⟩

theorem GMk.Same.trans {a b c : GMk} (h : a.Same b) (g : b.Same c) : a.Same c := by
  obtain ⟨h1, h2, h3, h4⟩ := h
  obtain ⟨g1, g2, g3, g4⟩ := g
  refine ⟨h1.trans g1, h2.trans g2, h3.trans g3, ?_⟩
  rcases h4 with h4 | h4 <;> rcases g4 with g4 | g4
  · exact .inl ⟨h4.1.trans g4.1, h4.2.trans g4.2⟩
  · exact .inr ⟨h4.1.trans g4.1, h4.2.trans g4.2⟩
  · exact .inr ⟨h4.1.trans g4.2, h4.2.trans g4.1⟩
  · exact .inl ⟨h4.1.trans g4.2, h4.2.trans g4.1⟩

/-- the keys are those of the stored violations -/
def GStore.Ok (s : GStore) : Prop := ∀ k, k ∈ s.keys ↔ ∃ m ∈ s.markers, m.key = k

theorem addMarker_spec {s : GStore} (hs : s.Ok) (m : GMk) :
    ((∃ n ∈ s.markers, n.Same m) ∧ addMarker s m = (s, false)) ∨
    ((¬ ∃ n ∈ s.markers, n.Same m) ∧ addMarker s m = (⟨m.key :: s.keys, s.markers ++ [m]⟩, true)) := by
  have hk : ∀ k : GKey, s.keys.contains k = true ↔ ∃ n ∈ s.markers, n.key = k := fun k => by
    rw [List.contains_iff_mem]
    exact hs k
  unfold addMarker
  simp only
  by_cases h1 : s.keys.contains (m.box, m.layer, m.rule, m.srcs[0]?, m.srcs[1]?) = true
  · rw [if_pos h1]
    obtain ⟨n, hn, he⟩ := (hk _).1 h1
    simp only [GMk.key, Prod.mk.injEq] at he
    exact .inl ⟨⟨n, hn, he.1, he.2.1, he.2.2.1, .inl ⟨he.2.2.2.1, he.2.2.2.2⟩⟩, rfl⟩
  · rw [if_neg h1]
    by_cases h2 : s.keys.contains (m.box, m.layer, m.rule, m.srcs[1]?, m.srcs[0]?) = true
    · rw [if_pos h2]
      obtain ⟨n, hn, he⟩ := (hk _).1 h2
      simp only [GMk.key, Prod.mk.injEq] at he
      exact .inl ⟨⟨n, hn, he.1, he.2.1, he.2.2.1, .inr ⟨he.2.2.2.1, he.2.2.2.2⟩⟩, rfl⟩
    · rw [if_neg h2]
      refine .inr ⟨?_, rfl⟩
      rintro ⟨n, hn, q1, q2, q3, q4 | q4⟩
      · exact h1 ((hk _).2 ⟨n, hn, by simp [GMk.key, q1, q2, q3, q4]⟩)
      · exact h2 ((hk _).2 ⟨n, hn, by simp [GMk.key, q1, q2, q3, q4]⟩)

theorem addMarker_ok {s : GStore} (hs : s.Ok) (m : GMk) : (addMarker s m).1.Ok := by
  rcases addMarker_spec hs m with ⟨_, h⟩ | ⟨_, h⟩
  · rw [h]; exact hs
  · rw [h]
    intro k
    simp only [List.mem_cons, List.mem_append, List.not_mem_nil, or_false]
    constructor
    · rintro (rfl | h)
      · exact ⟨m, .inr rfl, rfl⟩
      · obtain ⟨n, hn, he⟩ := (hs k).1 h
        exact ⟨n, .inl hn, he⟩
    · rintro ⟨n, hn | rfl, he⟩
      · exact .inr ((hs k).2 ⟨n, hn, he⟩)
      · exact .inl he.symm

/-- C29: after any sequence of reports, starting from a cleared store, no two stored violations are the same, everything stored was
reported, and everything reported is stored (itself or the same violation reported before). -/
theorem c29_store (s : GStore) (ms : List GMk) :
    (addMarkers (clearMarkers s) ms).markers.Pairwise (fun a b => ¬ a.Same b) ∧
    (∀ m ∈ (addMarkers (clearMarkers s) ms).markers, m ∈ ms) ∧
    (∀ m ∈ ms, ∃ n ∈ (addMarkers (clearMarkers s) ms).markers, n.Same m) := by
  have gen : ∀ (ms : List GMk) (s : GStore), s.Ok → s.markers.Pairwise (fun a b => ¬ a.Same b) →
      (addMarkers s ms).markers.Pairwise (fun a b => ¬ a.Same b) ∧
      (∀ m ∈ (addMarkers s ms).markers, m ∈ s.markers ∨ m ∈ ms) ∧
      (∀ m, m ∈ s.markers ∨ m ∈ ms → ∃ n ∈ (addMarkers s ms).markers, n.Same m) := by
    intro ms
    induction ms with
    | nil => exact fun s _ hp => ⟨hp, fun m h => .inl h, fun m h => ⟨m, h.resolve_right (by simp), .refl m⟩⟩
    | cons m ms ih =>
      intro s hs hp
      have hstep : addMarkers s (m :: ms) = addMarkers (addMarker s m).1 ms := rfl
      rw [hstep]
      have hok := addMarker_ok hs m
      rcases addMarker_spec hs m with ⟨⟨n, hn, hnm⟩, he⟩ | ⟨hno, he⟩
      · rw [he] at hok ⊢
        obtain ⟨i1, i2, i3⟩ := ih s hs hp
        refine ⟨i1, fun x hx => (i2 x hx).imp id (List.mem_cons_of_mem _), fun x hx => ?_⟩
        rcases hx with hx | hx
        · exact i3 x (.inl hx)
        · rcases List.mem_cons.1 hx with rfl | hx
          · obtain ⟨y, hy, hyn⟩ := i3 n (.inl hn)
            exact ⟨y, hy, hyn.trans hnm⟩
          · exact i3 x (.inr hx)
      · rw [he] at hok ⊢
        obtain ⟨i1, i2, i3⟩ := ih _ hok (List.pairwise_append.2 ⟨hp, List.pairwise_singleton _ _, fun a ha b hb hab => by
          simp only [List.mem_singleton] at hb
          subst hb
          exact hno ⟨a, ha, hab⟩⟩)
        refine ⟨i1, fun x hx => ?_, fun x hx => i3 x ?_⟩
        · rcases i2 x hx with h | h
          · rcases List.mem_append.1 h with h | h
            · exact .inl h
            · exact .inr (List.mem_cons.2 (.inl (List.mem_singleton.1 h)))
          · exact .inr (List.mem_cons_of_mem _ h)
        · rcases hx with hx | hx
          · exact .inl (List.mem_append_left _ hx)
          · rcases List.mem_cons.1 hx with rfl | hx
            · exact .inl (List.mem_append_right _ (List.mem_singleton.2 rfl))
            · exact .inr hx
  obtain ⟨h1, h2, h3⟩ := gen ms (clearMarkers s) (fun k => by simp [clearMarkers]) List.Pairwise.nil
  exact ⟨h1, fun m hm => (h2 m hm).resolve_left (by simp [clearMarkers]), fun m hm => h3 m (.inr hm)⟩

/-- C29: the answer of the last report tells whether the violation is new -/
theorem c29_answer (s : GStore) (ms : List GMk) (m : GMk) :
    (addMarker (addMarkers (clearMarkers s) ms) m).2 = true ↔ ∀ n ∈ ms, ¬ n.Same m := by
  have hok : (addMarkers (clearMarkers s) ms).Ok := by
    have gen : ∀ (ms : List GMk) (s : GStore), s.Ok → (addMarkers s ms).Ok := by
      intro ms
      induction ms with
      | nil => exact fun s h => h
      | cons m ms ih => exact fun s h => ih _ (addMarker_ok h m)
    exact gen ms _ (fun k => by simp [clearMarkers])
  obtain ⟨_, h2, h3⟩ := c29_store s ms
  rcases addMarker_spec hok m with ⟨⟨n, hn, hs⟩, h⟩ | ⟨hno, h⟩
  · rw [h]
    simp only [Bool.false_eq_true, false_iff]
    exact fun hh => hh n (h2 n hn) hs
  · rw [h]
    simp only [true_iff]
    intro n hn hs
    obtain ⟨y, hy, hys⟩ := h3 n hn
    exact hno ⟨y, hy, hys.trans hs⟩

/-- C29: nothing stored is lost or moved by a report -/
theorem c29_keeps (s : GStore) (m : GMk) : ∃ l, (addMarker s m).1.markers = s.markers ++ l := by
  unfold addMarker
  simp only
  split
  · exact ⟨[], by simp⟩
  · split
    · exact ⟨[], by simp⟩
    · exact ⟨[m], rfl⟩

example : (addMarkers ⟨[], []⟩ [⟨Box.mk4 0 0 5 5, 2, .short, [1, 2]⟩, ⟨Box.mk4 0 0 5 5, 2, .short, [2, 1]⟩, ⟨Box.mk4 0 0 5 5, 2, .spacing, [1, 2]⟩,
    ⟨Box.mk4 0 0 5 5, 4, .short, [1, 2]⟩, ⟨Box.mk4 0 0 5 5, 2, .short, [1]⟩, ⟨Box.mk4 0 0 5 5, 2, .short, [1]⟩]).markers.length = 4 := by decide

/-! ### the decision for one pair -/

theorem GDb.Ok.proper {D : GDb} (hD : D.Ok) {r : GRect} (hr : r ∈ D.rects) : r.box.Proper := by
  have := hD.rects r hr
  exact ⟨by omega, by omega⟩

theorem IsBetween.proper {a b m : Box} (h : IsBetween a b m) : m.Proper := by
  obtain ⟨h1, h2, h3, h4⟩ := h
  unfold Box.Proper
  omega

theorem IsBetween.unique {a b m n : Box} (h : IsBetween a b m) (g : IsBetween a b n) : m = n := by
  obtain ⟨h1, h2, h3, h4⟩ := h
  obtain ⟨g1, g2, g3, g4⟩ := g
  obtain ⟨⟨_, _⟩, ⟨_, _⟩⟩ := m
  obtain ⟨⟨_, _⟩, ⟨_, _⟩⟩ := n
  simp only [Box.left, Box.right, Box.bottom, Box.top, Box.mk.injEq, Point.mk.injEq] at *
  omega

theorem IsBetween.symm {a b m : Box} (h : IsBetween a b m) : IsBetween b a m := by
  obtain ⟨h1, h2, h3, h4⟩ := h
  unfold IsBetween
  omega

theorem mk4_proper {m : Box} (h : m.Proper) : Box.mk4 m.left m.bottom m.right m.top = m := by
  unfold Box.mk4
  obtain ⟨⟨_, _⟩, ⟨_, _⟩⟩ := m
  simp only [Box.Proper, Box.left, Box.right, Box.bottom, Box.top, Box.mk.injEq, Point.mk.injEq] at *
  refine ⟨⟨?_, ?_⟩, ⟨?_, ?_⟩⟩ <;> split <;> omega

theorem sorted_ext : ∀ {l l' : List Nat}, l.Pairwise (· < ·) → l'.Pairwise (· < ·) → (∀ x, x ∈ l ↔ x ∈ l') → l = l'
  | [], [], _, _, _ => rfl
  | [], b :: t, _, _, h => absurd ((h b).2 (List.mem_cons_self ..)) (by simp)
  | a :: t, [], _, _, h => absurd ((h a).1 (List.mem_cons_self ..)) (by simp)
  | a :: t, b :: u, h1, h2, h => by
    obtain ⟨p1, p2⟩ := List.pairwise_cons.1 h1
    obtain ⟨q1, q2⟩ := List.pairwise_cons.1 h2
    have hab : a = b := by
      rcases List.mem_cons.1 ((h a).1 (List.mem_cons_self ..)) with e | e
      · exact e
      · rcases List.mem_cons.1 ((h b).2 (List.mem_cons_self ..)) with f | f
        · exact f.symm
        · have := p1 b f; have := q1 a e; omega
    subst hab
    congr 1
    apply sorted_ext p2 q2
    intro x
    constructor
    · intro hx
      rcases List.mem_cons.1 ((h x).1 (List.mem_cons_of_mem _ hx)) with e | e
      · subst e; have := p1 x hx; omega
      · exact e
    · intro hx
      rcases List.mem_cons.1 ((h x).2 (List.mem_cons_of_mem _ hx)) with e | e
      · subst e; have := q1 x hx; omega
      · exact e

theorem srcPair_names (D : GDb) (r s : GRect) : NamesOwners D r s (srcPair (D.net r.net).owner (D.net s.net).owner) := by
  unfold NamesOwners srcPair
  split
  · rename_i h; simp [h]
  · split
    · rename_i h1 h2; simp [h2]
    · rename_i h1 h2
      refine ⟨by simp; omega, fun o => ?_⟩
      simp only [List.mem_cons, List.not_mem_nil, or_false]
      exact Or.comm

theorem NamesOwners.unique {D : GDb} {r s : GRect} {l l' : List Nat} (h : NamesOwners D r s l) (g : NamesOwners D r s l') : l = l' :=
  sorted_ext h.1 g.1 (fun x => (h.2 x).trans (g.2 x).symm)

theorem NamesOwners.symm {D : GDb} {r s : GRect} {l : List Nat} (h : NamesOwners D r s l) : NamesOwners D s r l :=
  ⟨h.1, fun o => (h.2 o).trans Or.comm⟩

theorem pairMarker_iff {D : GDb} {r s : GRect} {g : Box} (hg : IsBetween r.box s.box g) {rule : GRule} {m : GMk} :
    pairMarker D r s g rule = m ↔ IsBetween r.box s.box m.box ∧ m.layer = D.layer.num ∧ m.rule = rule ∧ NamesOwners D r s m.srcs := by
  unfold pairMarker
  rw [mk4_proper hg.proper]
  constructor
  · rintro rfl
    exact ⟨hg, rfl, rfl, srcPair_names D r s⟩
  · rintro ⟨h1, h2, h3, h4⟩
    obtain ⟨mb, ml, mr, ms⟩ := m
    simp only at *
    rw [hg.unique h1, h2, h3, h4.unique (srcPair_names D r s)]

theorem reqSpc_iff {D : GDb} (hD : D.Ok) {r s : GRect} {q : Int} : reqSpc D r s (runLen r.box s.box) = some q ↔ Required D r s q := by
  unfold reqSpc Required
  simp only
  have hw : ∀ t : GRect, (if ((D.net t.net).obs && D.useMinObs) = true then D.layer.width else t.width) = CountedWidth D t := by
    intro t
    unfold CountedWidth GRect.width
    simp only [Bool.and_eq_true]
  rw [hw r, hw s]
  cases hm : D.layer.minSpc with
  | none => simp only [Option.some.injEq]; exact eq_comm
  | some rule =>
    cases rule with
    | fixed x => simp only [Option.some.injEq]; exact eq_comm
    | tw t => simp only [Option.some.injEq]; exact eq_comm
    | prl t =>
      simp only
      obtain ⟨_, _, l, v, _, _, _, _, hv⟩ := c37_find (hD.table t hm) (max (CountedWidth D r) (CountedWidth D s)) (runLen r.box s.box)
      rw [hv]
      simp only [Option.some.injEq]
      by_cases hsn : (!((D.net r.net).obs || (D.net s.net).obs) && r.net == s.net) = true
      · rw [if_pos hsn]
        simp only [Bool.and_eq_true, Bool.not_eq_true', Bool.or_eq_false_iff, beq_iff_eq] at hsn
        cases hsame : D.layer.samenet with
        | none =>
          simp only [SameNetRule, hsame, reduceCtorEq, false_and, exists_false, not_false_eq_true, implies_true, true_and, false_or, Option.some.injEq]
        | some xp =>
          obtain ⟨x, pg⟩ := xp
          simp only
          by_cases hpg : (!pg || (D.net r.net).pg) = true
          · rw [if_pos hpg]
            have hr : SameNetRule D r s x := ⟨pg, hsame, hsn.2, hsn.1.1, fun h => by
              rw [h] at hpg
              simpa using hpg⟩
            simp only [Option.some.injEq]
            constructor
            · intro h; exact .inl ⟨x, hr, h.symm⟩
            · rintro (⟨y, ⟨pg', hy, _⟩, hq⟩ | ⟨hn, _⟩)
              · rw [hsame] at hy
                simp only [Option.some.injEq, Prod.mk.injEq] at hy
                rw [hq, hy.1]
              · exact absurd hr (hn x)
          · rw [if_neg hpg]
            have hr : ∀ y, ¬ SameNetRule D r s y := by
              rintro y ⟨pg', hy, _, _, hp⟩
              rw [hsame] at hy
              simp only [Option.some.injEq, Prod.mk.injEq] at hy
              rw [← hy.2] at hp
              apply hpg
              cases pg
              · rfl
              · simpa using hp rfl
            simp only [Option.some.injEq]
            constructor
            · intro h; exact .inr ⟨hr, h⟩
            · rintro (⟨y, hy, _⟩ | ⟨_, h⟩)
              · exact absurd hy (hr y)
              · exact h
      · rw [if_neg hsn]
        have hr : ∀ y, ¬ SameNetRule D r s y := by
          rintro y ⟨pg', hy, h1, h2, hp⟩
          apply hsn
          rw [← h1, h2]
          simp
        simp only [Option.some.injEq]
        constructor
        · intro h; exact .inr ⟨hr, h⟩
        · rintro (⟨y, hy, _⟩ | ⟨_, h⟩)
          · exact absurd hy (hr y)
          · exact h

/-- every pair of rectangles has exactly one required spacing -/
theorem required_unique {D : GDb} (hD : D.Ok) (r s : GRect) : ∃ q, Required D r s q ∧ ∀ q', Required D r s q' → q' = q := by
  have : ∃ q, reqSpc D r s (runLen r.box s.box) = some q := by
    unfold reqSpc
    simp only
    cases hm : D.layer.minSpc with
    | none => exact ⟨_, rfl⟩
    | some rule =>
      cases rule with
      | fixed x => exact ⟨_, rfl⟩
      | tw t => exact ⟨_, rfl⟩
      | prl t =>
        simp only
        obtain ⟨_, _, l, v, _, _, _, _, hv⟩ := c37_find (hD.table t hm) _ (runLen r.box s.box)
        rw [hv]
        simp only
        split
        · split
          · exact ⟨_, rfl⟩
          · split
            · exact ⟨_, rfl⟩
            · exact ⟨_, rfl⟩
        · exact ⟨_, rfl⟩
  obtain ⟨q, hq⟩ := this
  refine ⟨q, (reqSpc_iff hD).1 hq, fun q' h => ?_⟩
  have := (reqSpc_iff hD).2 h
  rw [hq] at this
  simpa using this.symm

theorem mul32_some {a b : Int} (h0 : 0 ≤ a * b) (h : a * b ≤ 2147483647) : mul32 a b = some (a * b) := by
  unfold mul32
  rw [if_pos (by omega)]

/-- the pair check, in terms of gaps and run length -/
theorem checkPair_apart {D : GDb} {r s : GRect} (hr : r.box.Proper) (hs : s.box.Proper) (hid : r.id ≠ s.id) (ht : ¬ Touches r.box s.box) :
    checkPair D r s = prlCheck D r s (genIntersect r.box s.box) (runLen r.box s.box) (max 0 (-sharedX r.box s.box)) (max 0 (-sharedY r.box s.box)) := by
  have hb := genIntersect_between hr hs
  rw [touches_iff_shared hr hs] at ht
  have hx := ivDist_shared hr.1 hs.1
  have hy := ivDist_shared hr.2 hs.2
  unfold checkPair
  rw [if_neg hid]
  simp only
  have hx' : ivDist r.box.left r.box.right s.box.left s.box.right = max 0 (-sharedX r.box s.box) := by
    rw [hx]; unfold sharedX; omega
  have hy' : ivDist r.box.bottom r.box.top s.box.bottom s.box.top = max 0 (-sharedY r.box s.box) := by
    rw [hy]; unfold sharedY; omega
  rw [hx', hy', if_neg (by omega)]
  congr 1
  unfold runLen
  obtain ⟨b1, b2, b3, b4⟩ := hb
  unfold Box.Proper at hr hs
  unfold sharedX sharedY at *
  congr 1
  · split <;> omega
  · split <;> omega

theorem checkPair_touch {D : GDb} {r s : GRect} (hr : r.box.Proper) (hs : s.box.Proper) (hid : r.id ≠ s.id) (ht : Touches r.box s.box) :
    checkPair D r s = shortCheck D r s (genIntersect r.box s.box) := by
  rw [touches_iff_shared hr hs] at ht
  have hx := ivDist_shared hr.1 hs.1
  have hy := ivDist_shared hr.2 hs.2
  unfold checkPair
  rw [if_neg hid]
  simp only
  unfold sharedX sharedY at ht
  rw [if_pos (by omega)]

theorem shortCheck_rule {D : GDb} {r s : GRect} {g : Box} {m : GMk} (h : shortCheck D r s g = .mk m) : m.rule = .short ∨ m.rule = .nsMetal := by
  unfold shortCheck at h
  simp only at h
  split at h
  · simp at h
  · split at h
    · simp at h
    · split at h
      · simp at h
      · split at h
        · split at h
          · simp at h
          · split at h
            · simp at h
            · split at h
              · simp at h
              · simp only [GOut.mk.injEq] at h
                rw [← h]
                exact .inr rfl
        · simp only [GOut.mk.injEq] at h
          rw [← h]
          exact .inl rfl

theorem dist2_gaps {r s : GRect} (hr : r.box.Proper) (hs : s.box.Proper) : dist2 r.box s.box =
    max 0 (-sharedX r.box s.box) * max 0 (-sharedX r.box s.box) + max 0 (-sharedY r.box s.box) * max 0 (-sharedY r.box s.box) := by
  have hx' : ivDist r.box.left r.box.right s.box.left s.box.right = max 0 (-sharedX r.box s.box) := by
    rw [ivDist_shared hr.1 hs.1]; unfold sharedX; omega
  have hy' : ivDist r.box.bottom r.box.top s.box.bottom s.box.top = max 0 (-sharedY r.box s.box) := by
    rw [ivDist_shared hr.2 hs.2]; unfold sharedY; omega
  unfold dist2
  rw [hx', hy']

theorem sq_nonneg (a : Int) : 0 ≤ a * a := by
  rcases Int.le_total 0 a with h | h
  · exact Int.mul_nonneg h h
  · exact Int.mul_nonneg_of_nonpos_of_nonpos h h

/-- C40: two rectangles of a layer give a spacing violation exactly when they do not touch, at least one of them is not fixed, their
Euclidean distance is below the required spacing, the metal really ends at both sides of the gap, and routed metal lies near the gap;
the violation names the gap, the layer and the owners. -/
theorem c40_reported_iff {D : GDb} (hD : D.Ok) {r s : GRect} (hr : r ∈ D.rects) (hs : s ∈ D.rects) {q : Int} (hq : Required D r s q)
    (hfit : FitsSpc r s q) (m : GMk) :
    (checkPair D r s = .mk m ∧ m.rule = .spacing) ↔ r.id ≠ s.id ∧ SpacingViolation D r s q m := by
  have pr := hD.proper hr
  have ps := hD.proper hs
  have hb := genIntersect_between pr ps
  by_cases hid : r.id = s.id
  · simp [checkPair, hid]
  by_cases ht : Touches r.box s.box
  · rw [checkPair_touch pr ps hid ht]
    constructor
    · rintro ⟨h1, h2⟩
      rcases shortCheck_rule h1 with h | h <;> rw [h2] at h <;> simp at h
    · rintro ⟨_, h, _⟩
      exact absurd ht h
  rw [checkPair_apart pr ps hid ht]
  have hd2 := dist2_gaps pr ps
  unfold SpacingViolation
  rw [closer_iff pr ps, hd2]
  obtain ⟨f1, f2⟩ := hfit
  have n1 := sq_nonneg (max 0 (-sharedX r.box s.box))
  have n2 := sq_nonneg (max 0 (-sharedY r.box s.box))
  unfold prlCheck
  rw [(reqSpc_iff hD).2 hq]
  simp only
  by_cases hfix : (r.fixed && s.fixed) = true
  · rw [if_pos hfix]
    simp only [Bool.and_eq_true] at hfix
    simp [hfix]
  · rw [if_neg hfix]
    have hfix' : r.fixed = false ∨ s.fixed = false := by
      cases hrf : r.fixed <;> cases hsf : s.fixed <;> simp [hrf, hsf] at hfix ⊢
    rw [mul32_some n1 (by omega), mul32_some n2 (by omega), mul32_some (sq_nonneg q) f1]
    simp only
    unfold add32
    rw [if_pos (by omega)]
    simp only
    by_cases hfar : q * q ≤ max 0 (-sharedX r.box s.box) * max 0 (-sharedX r.box s.box) + max 0 (-sharedY r.box s.box) * max 0 (-sharedY r.box s.box)
    · rw [if_pos hfar]
      simp only [reduceCtorEq, false_and, false_iff]
      rintro ⟨_, _, _, h, _⟩
      omega
    · rw [if_neg hfar]
      have hexp : hasPolyEdge D r.net s.net (genIntersect r.box s.box)
          (if runLen r.box s.box ≤ 0 then 2 else if max 0 (-sharedX r.box s.box) = 0 then 0 else if max 0 (-sharedY r.box s.box) = 0 then 1 else 0)
          (runLen r.box s.box) = true ↔ Exposed (EdgesOf D r.net s.net) r.box s.box (genIntersect r.box s.box) := by
        rw [hasPolyEdge_flags]
        unfold Exposed
        rw [touches_iff_shared pr ps] at ht
        by_cases hp : runLen r.box s.box ≤ 0
        · rw [if_pos hp, ← facingCorner_iff hD hb.proper hp]
          unfold runLen at hp ⊢
          constructor
          · rintro (⟨_, h⟩ | ⟨_, h⟩)
            · exact .inl ⟨by omega, .inl h⟩
            · exact .inl ⟨by omega, .inr h⟩
          · rintro (⟨_, h | h⟩ | ⟨h, _⟩ | ⟨h, _⟩)
            · exact .inl ⟨.inr rfl, h⟩
            · exact .inr ⟨.inr rfl, h⟩
            · omega
            · omega
        · rw [if_neg hp, ← facingV_iff hD (by omega : 0 < runLen r.box s.box), ← facingH_iff hD (by omega : 0 < runLen r.box s.box)]
          by_cases hx : 0 < sharedX r.box s.box
          · rw [if_pos (by omega)]
            constructor
            · rintro (⟨_, h⟩ | ⟨h, _⟩)
              · exact .inr (.inl ⟨hx, h⟩)
              · omega
            · rintro (⟨h, _⟩ | ⟨_, h⟩ | ⟨h, _⟩)
              · omega
              · exact .inl ⟨.inl rfl, h⟩
              · omega
          · have hy : 0 < sharedY r.box s.box := by unfold runLen at hp; omega
            rw [if_neg (by omega), if_pos (by omega)]
            constructor
            · rintro (⟨h, _⟩ | ⟨_, h⟩)
              · omega
              · exact .inr (.inr ⟨hy, h⟩)
            · rintro (⟨h, _⟩ | ⟨h, _⟩ | ⟨_, h⟩)
              · omega
              · omega
              · exact .inr ⟨.inl rfl, h⟩
      cases hpe : hasPolyEdge D r.net s.net (genIntersect r.box s.box)
          (if runLen r.box s.box ≤ 0 then 2 else if max 0 (-sharedX r.box s.box) = 0 then 0 else if max 0 (-sharedY r.box s.box) = 0 then 1 else 0)
          (runLen r.box s.box) with
      | false =>
        rw [hpe] at hexp
        simp only [Bool.not_false, if_true, reduceCtorEq, false_and, false_iff]
        rintro ⟨_, _, _, _, hbt, he, _⟩
        rw [hbt.unique hb] at he
        have := hexp.2 he
        simp at this
      | true =>
        rw [hpe] at hexp
        have hexp' := hexp.1 rfl
        simp only [Bool.not_true, Bool.false_eq_true, if_false]
        by_cases hro : (hasRouteNear D (genIntersect r.box s.box) r || hasRouteNear D (genIntersect r.box s.box) s) = true
        · rw [if_pos hro]
          rw [Bool.or_eq_true, hasRouteNear_iff, hasRouteNear_iff] at hro
          simp only [GOut.mk.injEq]
          rw [pairMarker_iff hb]
          constructor
          · rintro ⟨⟨h1, h2, h3, h4⟩, _⟩
            have := hb.unique h1
            rw [this] at hexp' hro
            exact ⟨hid, ht, hfix', by omega, h1, hexp', hro, h2, h3, h4⟩
          · rintro ⟨_, _, _, _, h1, _, _, h2, h3, h4⟩
            exact ⟨⟨h1, h2, h3, h4⟩, h3⟩
        · rw [if_neg hro]
          rw [Bool.or_eq_true, hasRouteNear_iff, hasRouteNear_iff] at hro
          simp only [reduceCtorEq, false_and, false_iff]
          rintro ⟨_, _, _, _, hbt, _, h, _⟩
          rw [hbt.unique hb] at h
          exact hro h

theorem mul32_sq (a : Int) : mul32 a a = if a * a ≤ 2147483647 then some (a * a) else none := by
  have := sq_nonneg a
  unfold mul32
  by_cases h : a * a ≤ 2147483647
  · rw [if_pos ⟨by omega, h⟩, if_pos h]
  · rw [if_neg (fun g => h g.2), if_neg h]

theorem prlCheck_ub {D : GDb} {r s : GRect} {m : Box} {prl dx dy q : Int} (hq : reqSpc D r s prl = some q) (hfix : r.fixed = false ∨ s.fixed = false) :
    prlCheck D r s m prl dx dy = .ub ↔ ¬ (q * q ≤ 2147483647 ∧ dx * dx + dy * dy ≤ 2147483647) := by
  have n1 := sq_nonneg dx
  have n2 := sq_nonneg dy
  unfold prlCheck
  rw [hq]
  simp only
  rw [if_neg (by rcases hfix with h | h <;> simp [h]), mul32_sq, mul32_sq, mul32_sq]
  by_cases f1 : dx * dx ≤ 2147483647
  · by_cases f2 : dy * dy ≤ 2147483647
    · by_cases f3 : q * q ≤ 2147483647
      · rw [if_pos f1, if_pos f2, if_pos f3]
        simp only
        unfold add32
        by_cases f4 : dx * dx + dy * dy ≤ 2147483647
        · rw [if_pos ⟨by omega, f4⟩]
          simp only [f3, f4, and_self, not_true_eq_false, iff_false]
          repeat' split
          all_goals simp
        · rw [if_neg (fun g => f4 g.2)]
          simp [f4]
      · rw [if_pos f1, if_pos f2, if_neg f3]
        simp [f3]
    · rw [if_pos f1, if_neg f2]
      simp only [true_iff]
      omega
  · rw [if_neg f1]
    simp only [true_iff]
    omega

/-- C40: the check of two rectangles that are apart and not both fixed overflows exactly if one of the squares does not fit into
32 bits. -/
theorem c40_overflow {D : GDb} (hD : D.Ok) {r s : GRect} (hr : r ∈ D.rects) (hs : s ∈ D.rects) {q : Int} (hq : Required D r s q)
    (hid : r.id ≠ s.id) (ht : ¬ Touches r.box s.box) (hfix : r.fixed = false ∨ s.fixed = false) :
    checkPair D r s = .ub ↔ ¬ FitsSpc r s q := by
  rw [checkPair_apart (hD.proper hr) (hD.proper hs) hid ht, prlCheck_ub ((reqSpc_iff hD).2 hq) hfix]
  rfl

end TR
