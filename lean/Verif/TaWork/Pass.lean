import Verif.TaWork.Later
/-! The whole of a later pass. -/
namespace TR

theorem hit_iff {P : PanelTech} {net : Nat → Nat} {G : Nat → WireGuide} {figs : Nat → List TaFig} {fixed : List CostRec} {wires ext : List Nat}
    (h : TaPanel P G figs fixed wires ext) {recs : List CostRec} (hp : recs.Perm (fixed ++ allRecs P figs (wires ++ ext))) (q : Nat) :
    (∀ f ∈ figs q, ¬ HitAt net recs q f.line f.layer) ↔ ¬ TaConflict P net figs fixed (wires ++ ext) q := by
  have hprop := recs_proper h hp
  constructor
  · rintro hh ⟨f, hf, pt, hpt, hc⟩
    refine hh f hf ?_
    rcases hc with ⟨r, hr, hl, hb, ha⟩ | ⟨p, hpA, hnet, g, hg, hblk⟩
    · have hr' := hp.mem_iff.2 (List.mem_append_left _ hr)
      refine ⟨r, hr', hl, (meets_iff (line_proper f) (hprop r hr')).2 ⟨pt, hpt, hb⟩, ?_⟩
      cases ho : r.owner with
      | unknown => rfl
      | net n => rw [ho] at ha; simp only [AgainstNet] at ha; simp only [counts, decide_eq_true_eq]; exact fun he => ha he.symm
      | fig p k => exact absurd ho (h.fixedOwner r hr p k)
    · obtain ⟨r, hr, hl, hb⟩ := (blocksAt_iff _ _ _ _).1 hblk
      obtain ⟨k, hk⟩ := mem_numbered.1 hg
      have hr' : { r with owner := CostOwner.fig p k } ∈ recs := by
        refine hp.mem_iff.2 (List.mem_append_right _ ?_)
        unfold allRecs wireRecs recsOf
        refine List.mem_flatMap.2 ⟨p, hpA, List.mem_flatMap.2 ⟨(g, k), hk, ?_⟩⟩
        rw [figRecs_owner]
        exact List.mem_map.2 ⟨r, hr, rfl⟩
      refine ⟨_, hr', hl, (meets_iff (line_proper f) (hprop _ hr')).2 ⟨pt, hpt, hb⟩, ?_⟩
      simp only [counts, Bool.and_eq_true, decide_eq_true_eq]
      exact ⟨fun he => hnet (by rw [he]), fun he => hnet he.symm⟩
  · rintro hh f hf ⟨r, hr, hl, hm, hc⟩
    obtain ⟨pt, h1, h2⟩ := (meets_iff (line_proper f) (hprop r hr)).1 hm
    refine hh ⟨f, hf, pt, h1, ?_⟩
    rcases List.mem_append.1 (hp.mem_iff.1 hr) with hr | hr
    · refine .inl ⟨r, hr, hl, h2, ?_⟩
      cases ho : r.owner with
      | unknown => trivial
      | net n => rw [ho] at hc; simp only [counts, decide_eq_true_eq] at hc; exact fun he => hc he.symm
      | fig p k => exact absurd ho (h.fixedOwner r hr p k)
    · unfold allRecs wireRecs recsOf at hr
      obtain ⟨p, hpA, hr⟩ := List.mem_flatMap.1 hr
      obtain ⟨⟨g, k⟩, hk, hr⟩ := List.mem_flatMap.1 hr
      dsimp only at hr
      rw [figRecs_owner] at hr
      obtain ⟨r', hr', rfl⟩ := List.mem_map.1 hr
      simp only [counts, Bool.and_eq_true, decide_eq_true_eq] at hc
      exact .inr ⟨p, hpA, fun he => hc.2 he.symm, g, mem_numbered.2 ⟨k, hk⟩, (blocksAt_iff _ _ _ _).2 ⟨r', hr', hl, h2⟩⟩

theorem avail_ok {P : PanelTech} {G : Nat → WireGuide} {figs : Nat → List TaFig} {fixed : List CostRec} {wires ext : List Nat}
    (h : TaPanel P G figs fixed wires ext) {p : Nat} (hp : p ∈ wires) :
    0 ≤ (availTracks (P.locs (G p).l) (G p).lo (G p).hi).1 ∧
    (availTracks (P.locs (G p).l) (G p).lo (G p).hi).1 ≤ (availTracks (P.locs (G p).l) (G p).lo (G p).hi).2 ∧
    (availTracks (P.locs (G p).l) (G p).lo (G p).hi).2 < (P.locs (G p).l).length := by
  obtain ⟨t, ht, h1, h2⟩ := h.tracks p hp
  obtain ⟨i, hi⟩ := List.mem_iff_getElem?.1 ht
  have := (c34_available_tracks _ (h.locs _) _ _ i t hi).2 ⟨h1, h2⟩
  refine ⟨?_, by omega, ?_⟩
  · unfold availTracks taTrackIdx; exact Int.natCast_nonneg _
  · have hu := (upperBound_spec (h.locs (G p).l).le ((G p).hi - 1)).1
    unfold availTracks taTrackIdx
    dsimp only
    omega

/-- the chosen track is one of the panel in the wire's GCell; the recorded cost is zero if the wire is not blocked there -/
theorem choose_spec {P : PanelTech} {net : Nat → Nat} {G : Nat → WireGuide} {figs : Nat → List TaFig} {fixed : List CostRec} {wires ext : List Nat}
    (h : TaPanel P G figs fixed wires ext) {p : Nat} (hp : p ∈ wires) {recs : List CostRec} (hr : ∀ r ∈ recs, r.box.Proper) {t c : Int}
    (hch : chooseTrack P net recs p (figs p) (G p) = some (t, c)) :
    (t ∈ P.locs (G p).l ∧ (G p).lo ≤ t ∧ t < (G p).hi) ∧ 0 ≤ c ∧ ∃ d, drcCost P net recs p t (figs p) = some d ∧ (c = 0 ↔ d = 0) := by
  obtain ⟨a1, a2, a3⟩ := avail_ok h hp
  unfold chooseTrack at hch
  dsimp only at hch
  obtain ⟨⟨i, rec⟩, hb, he⟩ := Option.map_eq_some_iff.1 hch
  simp only [Prod.mk.injEq] at he
  obtain ⟨rfl, rfl⟩ := he
  obtain ⟨⟨b1, b2⟩, _, _⟩ := c34_best_available _ _ _ _ _ _ a1 a2 hb
  have hz := ((c35_recorded_cost_partial _ _ _ _ _ _ a1 a2 hb).2 rfl).2
  have hlt : i.toNat < (P.locs (G p).l).length := by omega
  have hget : (P.locs (G p).l)[i.toNat]? = some ((P.locs (G p).l).getD i.toNat 0) := by
    rw [getD_at hlt, List.getElem?_eq_getElem hlt]
  have hav := (c34_available_tracks _ (h.locs _) (G p).lo (G p).hi i.toNat _ hget).1 (by omega)
  refine ⟨⟨List.mem_of_getElem? hget, hav⟩, Int.natCast_nonneg _, ?_⟩
  obtain ⟨d, hd, hd0, _⟩ := drcCost_zero (P := P) (net := net) (p := p) (t := (P.locs (G p).l).getD i.toNat 0) (figs := figs p) hr
    fun f hf => pitch_ok h (List.mem_append_left _ hp) hf
  refine ⟨d, hd, ?_⟩
  rw [hd] at hz
  simp only [Option.getD_some] at hz
  omega

theorem takenOut_proper {P : PanelTech} {net : Nat → Nat} {G : Nat → WireGuide} {fixed : List CostRec} {wires ext : List Nat} {s : TaSt}
    (h : TaInv P net G fixed wires ext s) {p : Nat} (hp : p ∈ wires) : ∀ r ∈ (takenOut P s p).1, r.box.Proper := by
  have hpA : p ∈ wires ++ ext := List.mem_append_left _ hp
  obtain ⟨hr1, _⟩ := flatMap_perm_out h.panel.nodup hpA (fun q => wireRecs P q (numbered (s.figs q))) _ (fun q hq => rfl)
  obtain ⟨hs1, _⟩ := flatMap_perm_out h.panel.nodup hpA (fun q => wireShapes q (numbered (s.figs q))) _ (fun q hq => rfl)
  have hold : s.recs.Perm (wireRecs P p (numbered (s.figs p)) ++ (fixed ++ ((wires ++ ext).erase p).flatMap fun q => wireRecs P q (numbered (s.figs q)))) := by
    refine h.recs.trans ?_
    unfold allRecs
    refine ((hr1.append_left fixed)).trans ?_
    rw [← List.append_assoc, ← List.append_assoc]
    exact List.perm_append_comm.append_right _
  have := (removeFigs_perm (s := (s.recs, s.shapes)) hold (h.shapes.trans hs1)).1
  intro r hr
  unfold takenOut at hr
  rcases List.mem_append.1 (this.mem_iff.1 hr) with hr | hr
  · exact h.panel.proper r hr
  · obtain ⟨p', _, hr⟩ := List.mem_flatMap.1 hr
    exact panelLine_proper (wireRecs_line h.panel.locs hr)

theorem assignWire_inv {P : PanelTech} {net : Nat → Nat} {G : Nat → WireGuide} {fixed : List CostRec} {wires ext : List Nat} {s s' : TaSt} {L : List Nat}
    (h : TaInv P net G fixed wires ext s) {p : Nat} (hp : p ∈ wires) (ha : assignWire P net G s p = some (s', L)) :
    TaInv P net G fixed wires ext s' ∧ (∃ t ∈ P.locs (G p).l, (G p).lo ≤ t ∧ t < (G p).hi ∧ s'.figs p = (s.figs p).map (TaFig.onTrack P.horz t)) ∧
      (∀ q, q ≠ p → s'.figs q = s.figs q) ∧ (∀ q ∈ L, q ∈ wires) ∧ ∀ q ∈ wires, q ≠ p → q ∉ L → s'.cost q = s.cost q := by
  unfold assignWire at ha
  obtain ⟨⟨t, c⟩, hch, hre⟩ := Option.bind_eq_some_iff.1 ha
  obtain ⟨⟨h1, h2, h3⟩, hc, hz⟩ := choose_spec h.panel hp (takenOut_proper h hp) hch
  obtain ⟨s'', L', e, e1, e2, e3⟩ := reassign_inv h hp hc hz
  dsimp only at hre
  rw [e] at hre
  cases hre
  exact ⟨e1, ⟨t, h1, h2, h3, e2⟩, e3⟩

/-- an assignment ends unless the violation cost of a track is 2^32 - 1 or more -/
theorem assignWire_some {P : PanelTech} {net : Nat → Nat} {G : Nat → WireGuide} {fixed : List CostRec} {wires ext : List Nat} {s : TaSt}
    (h : TaInv P net G fixed wires ext s) {p : Nat} (hp : p ∈ wires)
    (hsm : ∀ t d, drcCost P net (takenOut P s p).1 p t (s.figs p) = some d → d < 4294967295) : ∃ x, assignWire P net G s p = some x := by
  unfold assignWire
  obtain ⟨a1, a2, a3⟩ := avail_ok h.panel hp
  have hf := c34_track_found false (fun _ => 0)
    (fun i : Int => ((drcCost P net (takenOut P s p).1 p ((P.locs (G p).l).getD i.toNat 0) (s.figs p)).getD 0).toNat) (P.locs (G p).l) (G p).w2 (G p).w a1 a2 (by
      intro i
      refine ⟨by decide, ?_⟩
      cases hd : drcCost P net (takenOut P s p).1 p ((P.locs (G p).l).getD i.toNat 0) (s.figs p) with
      | none => decide
      | some d => have := hsm _ d hd; simp only [Option.getD_some]; omega)
  obtain ⟨x, hx⟩ := Option.isSome_iff_exists.1 hf
  have hch : ∃ y, chooseTrack P net (takenOut P s p).1 p (s.figs p) (G p) = some y := by
    unfold chooseTrack
    dsimp only
    rw [hx]; exact ⟨_, rfl⟩
  obtain ⟨⟨t, c⟩, hch⟩ := hch
  obtain ⟨_, hc, hz⟩ := choose_spec h.panel hp (takenOut_proper h hp) hch
  obtain ⟨s'', L', e, _⟩ := reassign_inv h hp hc hz
  rw [hch]
  exact ⟨_, e⟩

/-! ### the beginning of the pass -/

theorem addWires_perm {P : PanelTech} {figs : Nat → List TaFig} : ∀ {A : List Nat} {s : List CostRec × TaShapes},
    (addWires P figs A s).1.Perm (s.1 ++ allRecs P figs A) ∧ (addWires P figs A s).2.Perm (s.2 ++ allShapes figs A) := by
  intro A
  induction A with
  | nil => intro s; unfold addWires allRecs allShapes; simp only [List.flatMap_nil, List.append_nil]; exact ⟨List.Perm.refl _, List.Perm.refl _⟩
  | cons p A ih =>
    intro s
    unfold addWires
    obtain ⟨h1, h2⟩ := addFigs_perm (P := P) (p := p) (L := numbered (figs p)) (s := s)
    obtain ⟨i1, i2⟩ := ih (s := (addFigs P p (numbered (figs p)) s).1)
    unfold allRecs allShapes at *
    rw [List.flatMap_cons, List.flatMap_cons, ← List.append_assoc, ← List.append_assoc]
    exact ⟨i1.trans ((h1.trans List.perm_append_comm).append_right _), i2.trans ((h2.trans List.perm_append_comm).append_right _)⟩

theorem firstCosts_spec {P : PanelTech} {net : Nat → Nat} {figs : Nat → List TaFig} {recs : List CostRec} : ∀ {L : List Nat} (m : (Nat → Int) × Int),
    L.Nodup → (∀ q ∈ L, ∃ c, freshCost P net recs (figs q) q = some c) →
    ∃ m', firstCosts P net figs recs L m = some m' ∧ m'.2 = m.2 + (L.map m'.1).sum ∧ (∀ q, q ∉ L → m'.1 q = m.1 q) ∧
      ∀ q ∈ L, freshCost P net recs (figs q) q = some (m'.1 q) := by
  intro L
  induction L with
  | nil => intro m _ _; exact ⟨m, rfl, by simp, fun _ _ => rfl, fun q hq => by cases hq⟩
  | cons a L ih =>
    intro m hn h
    rw [List.nodup_cons] at hn
    obtain ⟨c, hc⟩ := h a List.mem_cons_self
    unfold firstCosts
    rw [hc]
    dsimp only
    obtain ⟨m', h1, h2, h3, h4⟩ := ih (fun x => if x = a then c else m.1 x, m.2 + c) hn.2 fun q hq => h q (List.mem_cons_of_mem _ hq)
    have ha : m'.1 a = c := by rw [h3 a hn.1]; dsimp only; rw [if_pos rfl]
    refine ⟨m', h1, ?_, fun q hq => ?_, fun q hq => ?_⟩
    · rw [h2, List.map_cons, List.sum_cons, ha]; dsimp only; omega
    · rw [h3 q fun h => hq (List.mem_cons_of_mem _ h)]
      dsimp only
      rw [if_neg]
      rintro rfl; exact hq List.mem_cons_self
    · rcases List.mem_cons.1 hq with rfl | hq
      · rw [ha, hc]
      · exact h4 q hq

theorem initCosts_inv {P : PanelTech} (net : Nat → Nat) {G : Nat → WireGuide} {figs : Nat → List TaFig} {fixed : List CostRec} {wires ext : List Nat}
    (h : TaPanel P G figs fixed wires ext) :
    ∃ s, initCosts P net figs fixed wires ext = some s ∧ TaInv P net G fixed wires ext s ∧ s.figs = figs := by
  unfold initCosts
  dsimp only
  obtain ⟨h1, h2⟩ := addWires_perm (P := P) (figs := figs) (A := wires ++ ext) (s := (fixed, []))
  have hf := fun q (hq : q ∈ wires) => fresh_some (net := net) h h1 (List.mem_append_left ext hq)
  obtain ⟨m', e1, e2, e3, e4⟩ := firstCosts_spec (P := P) (net := net) (figs := figs) (recs := (addWires P figs (wires ++ ext) (fixed, [])).1)
    (fun _ => 0, 0) (List.nodup_append.1 h.nodup).1 fun q hq => by obtain ⟨c, hc, _⟩ := hf q hq; exact ⟨c, hc⟩
  rw [e1]
  refine ⟨_, rfl, ⟨h, h1, ?_, ?_, ?_⟩, rfl⟩
  · simpa using h2
  · intro q hq
    obtain ⟨c, hc, hc0, _⟩ := hf q hq
    have := e4 q hq
    rw [hc] at this
    cases this
    exact ⟨_, hc, hc0, hc0, Iff.rfl⟩
  · simpa using e2

/-! ### the loop -/

structure PassInv (P : PanelTech) (net : Nat → Nat) (G : Nat → WireGuide) (figs : Nat → List TaFig) (fixed : List CostRec) (wires ext : List Nat) (s : PassSt) : Prop where
  inv : TaInv P net G fixed wires ext s.st
  todo : ∀ q ∈ s.todo, q ∈ wires
  buf : ∀ q ∈ s.buf, 1 ≤ s.cnt q
  pending : ∀ q ∈ wires, s.st.cost q ≠ 0 → q ∈ s.todo ∨ 1 ≤ s.cnt q
  cnt : ∀ q, 1 ≤ s.cnt q → q ∈ wires
  kept : ∀ q, s.cnt q = 0 → s.st.figs q = figs q
  moved : ∀ q, 1 ≤ s.cnt q → ∃ t ∈ P.locs (G q).l, (G q).lo ≤ t ∧ t < (G q).hi ∧ s.st.figs q = (figs q).map (TaFig.onTrack P.horz t)

theorem mem_requeue {maxRetry : Nat} {cnt : Nat → Nat} {cost : Nat → Int} {q : Nat} : ∀ {L todo : List Nat},
    (q ∈ L.foldl (requeue maxRetry cnt cost) todo → q ∈ L ∨ q ∈ todo) ∧
    (q ∉ L → q ∈ todo → q ∈ L.foldl (requeue maxRetry cnt cost) todo) ∧
    (q ∈ L → cost q ≠ 0 → cnt q < maxRetry → q ∈ L.foldl (requeue maxRetry cnt cost) todo) := by
  intro L
  induction L with
  | nil => intro todo; exact ⟨fun h => .inr h, fun _ h => h, fun h => by cases h⟩
  | cons a L ih =>
    intro todo
    rw [List.foldl_cons]
    obtain ⟨h1, h2, h3⟩ := ih (todo := requeue maxRetry cnt cost todo a)
    have hreq : q ∈ requeue maxRetry cnt cost todo a ↔ (q = a ∧ cost a ≠ 0 ∧ cnt a < maxRetry) ∨ (q ≠ a ∧ q ∈ todo) := by
      unfold requeue
      dsimp only
      split
      · rename_i hc
        simp only [List.mem_cons, List.mem_filter, decide_eq_true_eq]
        constructor
        · rintro (h | h)
          · exact .inl ⟨h, hc⟩
          · exact .inr ⟨h.2, h.1⟩
        · rintro (h | h)
          · exact .inl h.1
          · exact .inr ⟨h.2, h.1⟩
      · rename_i hc
        simp only [List.mem_filter, decide_eq_true_eq]
        constructor
        · rintro h; exact .inr ⟨h.2, h.1⟩
        · rintro (h | h)
          · exact absurd h.2 hc
          · exact ⟨h.2, h.1⟩
    refine ⟨?_, ?_, ?_⟩
    · intro h
      rcases h1 h with h | h
      · exact .inl (List.mem_cons_of_mem _ h)
      · rcases hreq.1 h with h | h
        · exact .inl (by rw [h.1]; exact List.mem_cons_self)
        · exact .inr h.2
    · intro hn ht
      rw [List.mem_cons, not_or] at hn
      exact h2 hn.2 (hreq.2 (.inr ⟨hn.1, ht⟩))
    · intro hm hc hk
      by_cases hqL : q ∈ L
      · exact h3 hqL hc hk
      · rcases List.mem_cons.1 hm with rfl | hm
        · exact h2 hqL (hreq.2 (.inl ⟨rfl, hc, hk⟩))
        · exact absurd hm hqL

theorem map_onTrack_twice (h : Bool) (t u : Int) (l : List TaFig) : (l.map (TaFig.onTrack h t)).map (TaFig.onTrack h u) = l.map (TaFig.onTrack h u) := by
  rw [List.map_map]
  refine List.map_congr_left fun f _ => ?_
  exact onTrack_twice h t u f

theorem passStep_inv {P : PanelTech} {net : Nat → Nat} {G : Nat → WireGuide} {figs : Nat → List TaFig} {fixed : List CostRec} {wires ext : List Nat}
    {maxRetry : Nat} (hm : 1 ≤ maxRetry) {pick : Nat → Nat} {s s' : PassSt} (h : PassInv P net G figs fixed wires ext s)
    (hs : passStep P net maxRetry G pick s = some s') : PassInv P net G figs fixed wires ext s' := by
  unfold passStep at hs
  split at hs
  · cases hs; exact h
  · rename_i p hget
    have hpt : p ∈ s.todo := List.mem_of_getElem? hget
    have hp := h.todo p hpt
    dsimp only at hs
    split at hs
    · rename_i hskip
      cases hs
      have hcp : 1 ≤ s.cnt p := by
        rcases hskip with hb | hc
        · exact h.buf p hb
        · omega
      refine ⟨h.inv, fun q hq => h.todo q (List.mem_filter.1 hq).1, h.buf, ?_, h.cnt, h.kept, h.moved⟩
      intro q hq hc
      rcases h.pending q hq hc with hc | hc
      · by_cases hqp : q = p
        · subst hqp; exact .inr hcp
        · exact .inl (List.mem_filter.2 ⟨hc, by simpa using hqp⟩)
      · exact .inr hc
    · obtain ⟨⟨st, L⟩, ha, rfl⟩ := Option.map_eq_some_iff.1 hs
      obtain ⟨e1, ⟨t, ht1, ht2, ht3, e2⟩, e3, e4, e5⟩ := assignWire_inv h.inv hp ha
      dsimp only
      refine ⟨e1, ?_, ?_, ?_, ?_, ?_, ?_⟩
      · intro q hq
        rcases mem_requeue.1 hq with hq | hq
        · exact e4 q hq
        · exact h.todo q (List.mem_filter.1 hq).1
      · intro q hq
        dsimp only
        rcases List.mem_cons.1 (List.mem_of_mem_take hq) with rfl | hq
        · rw [if_pos rfl]; omega
        · have := h.buf q hq
          split <;> omega
      · intro q hq hc
        dsimp only at hc ⊢
        by_cases hqp : q = p
        · subst hqp; rw [if_pos rfl]; exact .inr (by omega)
        · rw [if_neg hqp]
          by_cases hqL : q ∈ L
          · by_cases hk : s.cnt q < maxRetry
            · exact .inl (mem_requeue.2.2 hqL hc (by rw [if_neg hqp]; exact hk))
            · exact .inr (by omega)
          · rw [e5 q hq hqp hqL] at hc
            rcases h.pending q hq hc with hc | hc
            · exact .inl (mem_requeue.2.1 hqL (List.mem_filter.2 ⟨hc, by simpa using hqp⟩))
            · exact .inr hc
      · intro q hq
        dsimp only at hq
        by_cases hqp : q = p
        · subst hqp; exact hp
        · rw [if_neg hqp] at hq; exact h.cnt q hq
      · intro q hq
        dsimp only at hq
        by_cases hqp : q = p
        · subst hqp; rw [if_pos rfl] at hq; omega
        · rw [if_neg hqp] at hq; rw [e3 q hqp]; exact h.kept q hq
      · intro q hq
        dsimp only at hq
        by_cases hqp : q = p
        · subst hqp
          refine ⟨t, ht1, ht2, ht3, ?_⟩
          rw [e2]
          by_cases hz : s.cnt q = 0
          · rw [h.kept q hz]
          · obtain ⟨t', _, _, _, he⟩ := h.moved q (by omega)
            rw [he, map_onTrack_twice]
        · rw [if_neg hqp] at hq; rw [e3 q hqp]; exact h.moved q hq

theorem passRun_inv {P : PanelTech} {net : Nat → Nat} {G : Nat → WireGuide} {figs : Nat → List TaFig} {fixed : List CostRec} {wires ext : List Nat}
    {maxRetry : Nat} (hm : 1 ≤ maxRetry) {pick : Nat → Nat} : ∀ {fuel : Nat} {s s' : PassSt}, PassInv P net G figs fixed wires ext s →
    passRun P net maxRetry G pick fuel s = some s' → PassInv P net G figs fixed wires ext s' := by
  intro fuel
  induction fuel with
  | zero => intro s s' h hs; unfold passRun at hs; cases hs; exact h
  | succ n ih =>
    intro s s' h hs
    unfold passRun at hs
    split at hs
    · cases hs; exact h
    · obtain ⟨s1, h1, h2⟩ := Option.bind_eq_some_iff.1 hs
      exact ih (passStep_inv hm h h1) h2

theorem laterPass_inv {P : PanelTech} {net : Nat → Nat} {G : Nat → WireGuide} {figs : Nat → List TaFig} {fixed : List CostRec} {wires ext : List Nat}
    (h : TaPanel P G figs fixed wires ext) {maxRetry : Nat} (hm : 1 ≤ maxRetry) {pick : Nat → Nat} {fuel : Nat} {s : PassSt}
    (hs : laterPass P net figs fixed wires ext maxRetry G pick fuel = some s) : PassInv P net G figs fixed wires ext s := by
  unfold laterPass at hs
  obtain ⟨s0, h0, hinv, hfig⟩ := initCosts_inv net h
  rw [h0, Option.bind_some] at hs
  refine passRun_inv hm ?_ hs
  refine ⟨hinv, fun q hq => (List.mem_filter.1 hq).1, fun q hq => (by cases hq), ?_, fun q hq => (by dsimp only at hq; omega), ?_, fun q hq => (by dsimp only at hq; omega)⟩
  · intro q hq hc
    exact .inl (List.mem_filter.2 ⟨hq, by simpa using hc⟩)
  · intro q _; rw [← hfig]

end TR
