import Verif.TaWork.Inv
/-! A later pass of track assignment keeps the invariant. -/
namespace TR

/-- records and shapes of the wires of a list -/
def allRecs (P : PanelTech) (figs : Nat → List TaFig) (A : List Nat) : List CostRec := A.flatMap fun p => wireRecs P p (numbered (figs p))
def allShapes (figs : Nat → List TaFig) (A : List Nat) : TaShapes := A.flatMap fun p => wireShapes p (numbered (figs p))

structure TaInv (P : PanelTech) (net : Nat → Nat) (G : Nat → WireGuide) (fixed : List CostRec) (wires ext : List Nat) (s : TaSt) : Prop where
  panel : TaPanel P G s.figs fixed wires ext
  recs : s.recs.Perm (fixed ++ allRecs P s.figs (wires ++ ext))
  shapes : s.shapes.Perm (allShapes s.figs (wires ++ ext))
  zero : ∀ q ∈ wires, ∃ c, freshCost P net s.recs (s.figs q) q = some c ∧ 0 ≤ c ∧ 0 ≤ s.cost q ∧ (s.cost q = 0 ↔ c = 0)
  tot : s.tot = (wires.map s.cost).sum

theorem mem_numbered {figs : List TaFig} {f : TaFig} : f ∈ figs ↔ ∃ k, (f, k) ∈ numbered figs := by
  unfold numbered
  constructor
  · intro h
    obtain ⟨k, hk⟩ := List.mem_iff_getElem?.1 h
    exact ⟨k, by rw [List.mem_zipIdx_iff_getElem?]; exact hk⟩
  · rintro ⟨k, h⟩
    rw [List.mem_zipIdx_iff_getElem?] at h
    exact List.mem_of_getElem? h

theorem recs_proper {P : PanelTech} {G : Nat → WireGuide} {figs figs' : Nat → List TaFig} {fixed : List CostRec} {wires ext A : List Nat} (h : TaPanel P G figs fixed wires ext)
    {recs : List CostRec} (hp : recs.Perm (fixed ++ allRecs P figs' A)) : ∀ r ∈ recs, r.box.Proper := by
  intro r hr
  rcases List.mem_append.1 (hp.mem_iff.1 hr) with hr | hr
  · exact h.proper r hr
  · obtain ⟨p, _, hr⟩ := List.mem_flatMap.1 hr
    exact panelLine_proper (wireRecs_line h.locs hr)

theorem pitch_ok {P : PanelTech} {G : Nat → WireGuide} {figs : Nat → List TaFig} {fixed : List CostRec} {wires ext : List Nat} (h : TaPanel P G figs fixed wires ext)
    {q : Nat} (hq : q ∈ wires ++ ext) {f : TaFig} (hf : f ∈ figs q) : ∃ x, pitchOf P f.layer = some x ∧ 0 < x.1 := by
  unfold pitchOf
  rcases h.pitch q hq f hf with ⟨h1, h2⟩ | ⟨h1, h2, h3, h4⟩
  · rw [if_pos h1]; exact ⟨_, rfl, h2⟩
  · rw [if_neg (by simp [h1]), if_pos ⟨h2, h3⟩]; exact ⟨_, rfl, h4⟩

/-- the cost of a wire of the panel can be computed, and it is zero if no place of the wire is blocked -/
theorem fresh_some {P : PanelTech} {net : Nat → Nat} {G : Nat → WireGuide} {figs figs' : Nat → List TaFig} {fixed : List CostRec} {wires ext A : List Nat} (h : TaPanel P G figs fixed wires ext)
    {recs : List CostRec} (hp : recs.Perm (fixed ++ allRecs P figs' A)) {q : Nat} (hq : q ∈ wires ++ ext) :
    ∃ c, freshCost P net recs (figs q) q = some c ∧ 0 ≤ c ∧ (c = 0 ↔ ∀ f ∈ figs q, ¬ HitAt net recs q f.line f.layer) := by
  obtain ⟨hseg, t, hl⟩ := h.inLine q hq
  unfold freshCost
  rw [trackOf_eq hseg hl]
  rw [Option.bind_some]
  obtain ⟨c, h1, h2, h3⟩ := drcCost_zero (net := net) (p := q) (t := t) (recs_proper h hp) fun f hf => pitch_ok h hq hf
  refine ⟨c, h1, h2, h3.trans ?_⟩
  constructor
  · intro hh f hf; have := hh f hf; rw [onTrack_iff.1 (hl f hf)] at this; exact this
  · intro hh f hf; rw [onTrack_iff.1 (hl f hf)]; exact hh f hf

/-- records that are removed or added without touching a wire do not change its cost -/
theorem fresh_same {P : PanelTech} {net : Nat → Nat} {G : Nat → WireGuide} {figs : Nat → List TaFig} {fixed : List CostRec} {wires ext : List Nat}
    (h : TaPanel P G figs fixed wires ext) {recs recs' old new rest : List CostRec}
    (h1 : recs.Perm (old ++ rest)) (h2 : recs'.Perm (new ++ rest)) (p1 : ∀ r ∈ recs, r.box.Proper) (p2 : ∀ r ∈ recs', r.box.Proper) {q : Nat} (hq : q ∈ wires ++ ext)
    (hn : ∀ r ∈ old ++ new, ∀ f ∈ figs q, r.layer = f.layer → ¬ r.box.meets f.line = true) :
    freshCost P net recs (figs q) q = freshCost P net recs' (figs q) q := by
  obtain ⟨hseg, t, hl⟩ := h.inLine q hq
  unfold freshCost
  rw [trackOf_eq hseg hl, Option.bind_some, Option.bind_some]
  refine drcCost_congr fun f hf => ?_
  refine placeCost_perm p1 (line_proper _) ?_ p2
  rw [onTrack_iff.1 (hl f hf)]
  have hnone : ∀ X : List CostRec, (∀ r ∈ X, r ∈ old ++ new) → touching X f.line f.layer = [] := by
    intro X hX
    unfold touching
    rw [List.filter_eq_nil_iff]
    intro r hr
    simp only [Bool.and_eq_true, decide_eq_true_eq, not_and]
    intro hlay
    rw [meets_comm]
    exact hn r (hX r hr) f hf hlay
  have e1 : (touching recs f.line f.layer).Perm (touching rest f.line f.layer) := by
    have := h1.filter (fun r => decide (r.layer = f.layer) && f.line.meets r.box)
    rw [List.filter_append] at this
    have h0 := hnone old fun r hr => List.mem_append_left _ hr
    unfold touching at h0
    rw [h0, List.nil_append] at this
    exact this
  have e2 : (touching recs' f.line f.layer).Perm (touching rest f.line f.layer) := by
    have := h2.filter (fun r => decide (r.layer = f.layer) && f.line.meets r.box)
    rw [List.filter_append] at this
    have h0 := hnone new fun r hr => List.mem_append_right _ hr
    unfold touching at h0
    rw [h0, List.nil_append] at this
    exact this
  exact e1.trans e2.symm

/-! ### the loop over the affected wires -/

theorem sum_update {A : List Nat} (hn : A.Nodup) {q : Nat} (hq : q ∈ A) (g : Nat → Int) (c : Int) :
    (A.map fun x => if x = q then c else g x).sum = (A.map g).sum - g q + c := by
  induction A with
  | nil => cases hq
  | cons a A ih =>
    rw [List.nodup_cons] at hn
    rw [List.map_cons, List.map_cons, List.sum_cons, List.sum_cons]
    rcases List.mem_cons.1 hq with rfl | hq
    · rw [if_pos rfl]
      have : (A.map fun x => if x = q then c else g x) = A.map g := by
        refine List.map_congr_left fun x hx => ?_
        rw [if_neg]
        rintro rfl; exact hn.1 hx
      rw [this]; omega
    · have : a ≠ q := by rintro rfl; exact hn.1 hq
      rw [if_neg this, ih hn.2 hq]; omega

theorem updateOthers_spec {P : PanelTech} {net : Nat → Nat} {figs : Nat → List TaFig} {recs : List CostRec} {wires : List Nat} (hn : wires.Nodup)
    (hc : ∀ q ∈ wires, ∃ c, freshCost P net recs (figs q) q = some c) : ∀ {L : List Nat} (m : (Nat → Int) × Int), (∀ q ∈ L, q ∈ wires) →
    m.2 = (wires.map m.1).sum →
    ∃ m', updateOthers P net figs recs L m = some m' ∧ m'.2 = (wires.map m'.1).sum ∧ (∀ q, q ∉ L → m'.1 q = m.1 q) ∧
      ∀ q ∈ L, freshCost P net recs (figs q) q = some (m'.1 q) := by
  intro L
  induction L with
  | nil => intro m _ h; exact ⟨m, rfl, h, fun _ _ => rfl, fun q hq => by cases hq⟩
  | cons a L ih =>
    intro m hL h
    obtain ⟨c, hc'⟩ := hc a (hL a List.mem_cons_self)
    unfold updateOthers
    rw [hc']
    dsimp only
    obtain ⟨m', h1, h2, h3, h4⟩ := ih (fun x => if x = a then c else m.1 x, m.2 - m.1 a + c) (fun q hq => hL q (List.mem_cons_of_mem _ hq)) (by
      dsimp only
      rw [sum_update hn (hL a List.mem_cons_self), h])
    refine ⟨m', h1, h2, fun q hq => ?_, fun q hq => ?_⟩
    · rw [h3 q fun h => hq (List.mem_cons_of_mem _ h)]
      dsimp only
      rw [if_neg]
      rintro rfl; exact hq List.mem_cons_self
    · by_cases hqL : q ∈ L
      · exact h4 q hqL
      · rcases List.mem_cons.1 hq with rfl | hq
        · rw [h3 q hqL]; dsimp only; rw [if_pos rfl]; exact hc'
        · exact absurd hq hqL

theorem hit_perm {net : Nat → Nat} {a b : List CostRec} (h : a.Perm b) (p : Nat) (q : Box) (l : Int) : HitAt net a p q l ↔ HitAt net b p q l := by
  unfold HitAt
  constructor
  · rintro ⟨r, hr, x⟩; exact ⟨r, h.mem_iff.1 hr, x⟩
  · rintro ⟨r, hr, x⟩; exact ⟨r, h.mem_iff.2 hr, x⟩

theorem wireRecs_owner {P : PanelTech} {p : Nat} {L : List (TaFig × Nat)} {r : CostRec} (hr : r ∈ wireRecs P p L) : ∃ k, r.owner = .fig p k := by
  obtain ⟨x, _, h⟩ := List.mem_flatMap.1 hr
  unfold recsOf at h
  rw [figRecs_owner] at h
  obtain ⟨r', _, rfl⟩ := List.mem_map.1 h
  exact ⟨x.2, rfl⟩

/-- the records of a wire do not count for itself -/
theorem hit_own {P : PanelTech} {net : Nat → Nat} {p : Nat} {L : List (TaFig × Nat)} {rest : List CostRec} {q : Box} {l : Int} :
    HitAt net (wireRecs P p L ++ rest) p q l ↔ HitAt net rest p q l := by
  constructor
  · rintro ⟨r, hr, h1, h2, h3⟩
    rcases List.mem_append.1 hr with hr | hr
    · obtain ⟨k, hk⟩ := wireRecs_owner hr
      rw [hk] at h3
      simp [counts] at h3
    · exact ⟨r, hr, h1, h2, h3⟩
  · rintro ⟨r, hr, h⟩; exact ⟨r, List.mem_append_right _ hr, h⟩

theorem mem_allShapes {figs : Nat → List TaFig} {A : List Nat} {l : Int} {b : Box} {q k : Nat} :
    (l, b, q, k) ∈ allShapes figs A ↔ q ∈ A ∧ ∃ f, (f, k) ∈ numbered (figs q) ∧ l = f.layer ∧ b = f.line := by
  unfold allShapes wireShapes shapeOf
  rw [List.mem_flatMap]
  constructor
  · rintro ⟨p, hp, h⟩
    obtain ⟨⟨f, k'⟩, hf, he⟩ := List.mem_map.1 h
    simp only [Prod.mk.injEq] at he
    obtain ⟨h1, h2, h3, h4⟩ := he
    subst h3 h4
    exact ⟨hp, f, hf, h1.symm, h2.symm⟩
  · rintro ⟨hq, f, hf, rfl, rfl⟩
    exact ⟨q, hq, List.mem_map.2 ⟨(f, k), hf, rfl⟩⟩

/-- taking wire `p` from its place and putting it on track `t` keeps the invariant; the wires looked at are wires of the panel -/
theorem reassign_inv {P : PanelTech} {net : Nat → Nat} {G : Nat → WireGuide} {fixed : List CostRec} {wires ext : List Nat} {s : TaSt}
    (h : TaInv P net G fixed wires ext s) {p : Nat} (hp : p ∈ wires) {t c : Int} (hc : 0 ≤ c)
    (hz : ∃ d, drcCost P net (takenOut P s p).1 p t (s.figs p) = some d ∧ (c = 0 ↔ d = 0)) :
    ∃ s' L, reassign P net s p t c = some (s', L) ∧ TaInv P net G fixed wires ext s' ∧ s'.figs p = (s.figs p).map (TaFig.onTrack P.horz t) ∧
      (∀ q, q ≠ p → s'.figs q = s.figs q) ∧ (∀ q ∈ L, q ∈ wires) ∧ ∀ q ∈ wires, q ≠ p → q ∉ L → s'.cost q = s.cost q := by
  have hA := h.panel.nodup
  have hnw : wires.Nodup := (List.nodup_append.1 hA).1
  have hpA : p ∈ wires ++ ext := List.mem_append_left _ hp
  unfold takenOut at hz
  unfold reassign
  dsimp only
  generalize hfs : (s.figs p).map (TaFig.onTrack P.horz t) = fs at *
  have hfig : ∀ q, q ≠ p → (fun q => if q = p then fs else s.figs q) q = s.figs q := fun q hq => by dsimp only; rw [if_neg hq]
  have hfigp : (fun q => if q = p then fs else s.figs q) p = fs := by dsimp only; rw [if_pos rfl]
  generalize hff : (fun q => if q = p then fs else s.figs q) = figs' at *
  -- records and shapes without wire p
  obtain ⟨hr1, hr2⟩ := flatMap_perm_out hA hpA (fun q => wireRecs P q (numbered (s.figs q))) (fun q => wireRecs P q (numbered (figs' q)))
    (fun q hq => by rw [hfig q hq])
  obtain ⟨hr1', _⟩ := flatMap_perm_out hA hpA (fun q => wireRecs P q (numbered (figs' q))) (fun q => wireRecs P q (numbered (figs' q))) (fun q hq => rfl)
  obtain ⟨hs1, hs2⟩ := flatMap_perm_out hA hpA (fun q => wireShapes q (numbered (s.figs q))) (fun q => wireShapes q (numbered (figs' q)))
    (fun q hq => by rw [hfig q hq])
  obtain ⟨hs1', _⟩ := flatMap_perm_out hA hpA (fun q => wireShapes q (numbered (figs' q))) (fun q => wireShapes q (numbered (figs' q))) (fun q hq => rfl)
  rw [hfigp, ← hr2] at hr1'
  rw [hfigp, ← hs2] at hs1'
  have hsrest : ∀ {l b q k}, q ≠ p → (l, b, q, k) ∈ s.shapes →
      (l, b, q, k) ∈ ((wires ++ ext).erase p).flatMap (fun q => wireShapes q (numbered (s.figs q))) := by
    intro l b q k hq hm
    rcases List.mem_append.1 (hs1.mem_iff.1 (h.shapes.mem_iff.1 hm)) with hm | hm
    · unfold wireShapes at hm
      obtain ⟨x, _, he⟩ := List.mem_map.1 hm
      unfold shapeOf at he
      simp only [Prod.mk.injEq] at he
      exact absurd he.2.2.1.symm hq
    · exact hm
  have hsall : ∀ {x}, x ∈ ((wires ++ ext).erase p).flatMap (fun q => wireShapes q (numbered (s.figs q))) → x ∈ allShapes s.figs (wires ++ ext) :=
    fun hm => hs1.mem_iff.2 (List.mem_append_right _ hm)
  generalize hR : ((wires ++ ext).erase p).flatMap (fun q => wireRecs P q (numbered (s.figs q))) = R at *
  generalize hS : ((wires ++ ext).erase p).flatMap (fun q => wireShapes q (numbered (s.figs q))) = S at *
  have hold : s.recs.Perm (wireRecs P p (numbered (s.figs p)) ++ (fixed ++ R)) := by
    refine h.recs.trans ?_
    unfold allRecs
    refine ((hr1.append_left fixed)).trans ?_
    rw [← List.append_assoc, ← List.append_assoc]
    exact List.perm_append_comm.append_right _
  have hsold : s.shapes.Perm (wireShapes p (numbered (s.figs p)) ++ S) := h.shapes.trans hs1
  have hrem := removeFigs_perm (s := (s.recs, s.shapes)) hold hsold
  have hfr : ∀ q, q ∈ (removeFigs P p (numbered (s.figs p)) (s.recs, s.shapes)).2 →
      ∃ r ∈ wireRecs P p (numbered (s.figs p)), ∃ b k, (r.layer, b, q, k) ∈ s.shapes ∧ r.box.meets b = true := fun q hq => removeFigs_found hq
  have hfr' : ∀ q, q ≠ p → ∀ r ∈ wireRecs P p (numbered (s.figs p)), ∀ b k, (r.layer, b, q, k) ∈ s.shapes → r.box.meets b = true →
      q ∈ (removeFigs P p (numbered (s.figs p)) (s.recs, s.shapes)).2 := fun q hq r hr b k hb hm => removeFigs_finds hq hr hb hm
  generalize removeFigs P p (numbered (s.figs p)) (s.recs, s.shapes) = rem at *
  obtain ⟨hadd1, hadd2⟩ := addFigs_perm (P := P) (p := p) (L := numbered fs) (s := rem.1)
  have hfa : ∀ q, q ∈ (addFigs P p (numbered fs) rem.1).2 → q = p ∨
      ∃ r ∈ wireRecs P p (numbered fs), ∃ b k, (r.layer, b, q, k) ∈ rem.1.2 ∧ r.box.meets b = true := fun q hq => addFigs_found hq
  have hfa' : ∀ q, ∀ r ∈ wireRecs P p (numbered fs), ∀ b k, (r.layer, b, q, k) ∈ rem.1.2 → r.box.meets b = true →
      q ∈ (addFigs P p (numbered fs) rem.1).2 := fun q r hr b k hb hm => addFigs_finds hr hb hm
  generalize addFigs P p (numbered fs) rem.1 = add at *
  have hnew : add.1.1.Perm (wireRecs P p (numbered fs) ++ (fixed ++ R)) := hadd1.trans (hrem.1.append_left _)
  have hrecs' : add.1.1.Perm (fixed ++ allRecs P figs' (wires ++ ext)) := by
    refine hnew.trans ?_
    rw [← List.append_assoc]
    refine (List.perm_append_comm.append_right _).trans ?_
    rw [List.append_assoc]
    exact hr1'.symm.append_left _
  have hshapes' : add.1.2.Perm (allShapes figs' (wires ++ ext)) := (hadd2.trans (hrem.2.append_left _)).trans hs1'.symm
  -- the panel
  have hpan : TaPanel P G figs' fixed wires ext := by
    refine ⟨h.panel.nodup, h.panel.locs, h.panel.proper, h.panel.fixedOwner, ?_, ?_, ?_, h.panel.tracks⟩
    · intro q hq
      by_cases hqp : q = p
      · subst hqp
        rw [hfigp, ← hfs]
        obtain ⟨⟨f, hf, hseg⟩, _⟩ := h.panel.inLine q hq
        refine ⟨⟨_, List.mem_map.2 ⟨f, hf, rfl⟩, (onTrack_seg _ _ _).2 hseg⟩, t, ?_⟩
        intro f' hf'
        obtain ⟨f, _, rfl⟩ := List.mem_map.1 hf'
        exact onTrack_line _ _ _
      · rw [hfig q hqp]; exact h.panel.inLine q hq
    · intro q hq f hf
      by_cases hqp : q = p
      · subst hqp
        rw [hfigp, ← hfs] at hf
        obtain ⟨f', hf', rfl⟩ := List.mem_map.1 hf
        rw [onTrack_layer]
        exact h.panel.pitch q hq f' hf'
      · rw [hfig q hqp] at hf; exact h.panel.pitch q hq f hf
    · intro q hq f hf
      have hqp : q ≠ p := by
        rintro rfl
        exact (List.nodup_append.1 hA).2.2 q hp q hq rfl
      rw [hfig q hqp] at hf; exact h.panel.away q hq f hf
  -- only wires of the panel are found
  have hin : ∀ q r b k, PanelLine P (CostRec.box r) → (r.layer, b, q, k) ∈ allShapes s.figs (wires ++ ext) → r.box.meets b = true → q ∈ wires := by
    intro q r b k hr hb hm
    obtain ⟨hq, f, hf, _, rfl⟩ := mem_allShapes.1 hb
    rcases List.mem_append.1 hq with hq' | hq'
    · exact hq'
    · exfalso
      have hf' := mem_numbered.2 ⟨k, hf⟩
      obtain ⟨_, u, hu⟩ := h.panel.inLine q hq
      obtain ⟨fl, hfl⟩ := meets_track hr (hu f hf') hm
      exact h.panel.away q hq' f hf' fl u hfl (hu f hf')
  have hL : ∀ q ∈ rem.2 ++ add.2, q ∈ wires := by
    intro q hq
    rcases List.mem_append.1 hq with hq | hq
    · obtain ⟨r, hr, b, k, hb, hm⟩ := hfr q hq
      exact hin q r b k (wireRecs_line h.panel.locs hr) (h.shapes.mem_iff.1 hb) hm
    · rcases hfa q hq with rfl | ⟨r, hr, b, k, hb, hm⟩
      · exact hp
      · exact hin q r b k (wireRecs_line h.panel.locs hr) (hsall (hrem.2.mem_iff.1 hb)) hm
  obtain ⟨m', hm1, hm2, hm3, hm4⟩ := updateOthers_spec (P := P) (net := net) (figs := figs') (recs := add.1.1) hnw
    (fun q hq => by
      obtain ⟨c, hc, _⟩ := fresh_some (net := net) hpan hrecs' (List.mem_append_left _ hq)
      exact ⟨c, hc⟩) (fun q => if q = p then c else s.cost q, s.tot - s.cost p + c) hL (by
      dsimp only; rw [sum_update hnw hp, h.tot])
  rw [hm1]
  refine ⟨_, _, rfl, ⟨hpan, hrecs', hshapes', ?_, hm2⟩, hfigp, hfig, hL, ?_⟩
  · intro q hq
    have hqA : q ∈ wires ++ ext := List.mem_append_left _ hq
    dsimp only
    obtain ⟨c', hc1, hc2, hc3⟩ := fresh_some (net := net) hpan hrecs' hqA
    by_cases hqL : q ∈ rem.2 ++ add.2
    · have := hm4 q hqL
      rw [hc1] at this
      cases this
      exact ⟨_, hc1, hc2, hc2, Iff.rfl⟩
    · by_cases hqp : q = p
      · subst hqp
        rw [hm3 q hqL]
        dsimp only
        rw [if_pos rfl]
        refine ⟨c', hc1, hc2, hc, ?_⟩
        obtain ⟨d, hd1, hd2⟩ := hz
        obtain ⟨d', hd1', _, hd3⟩ := drcCost_zero (P := P) (net := net) (recs := rem.1.1) (p := q) (t := t) (figs := s.figs q)
          (by
            intro r hr
            rcases List.mem_append.1 (hrem.1.mem_iff.1 hr) with hr | hr
            · exact h.panel.proper r hr
            · rw [← hR] at hr
              obtain ⟨p', _, hr⟩ := List.mem_flatMap.1 hr
              exact panelLine_proper (wireRecs_line h.panel.locs hr))
          (fun f hf => pitch_ok h.panel hqA hf)
        rw [hd1] at hd1'
        cases hd1'
        rw [hd2, hd3, hc3, hfigp, ← hfs]
        rw [List.forall_mem_map]
        constructor
        · intro hh f hf
          rw [onTrack_layer]
          exact fun hit => hh f hf ((hit_perm hrem.1 _ _ _).2 (hit_own.1 ((hit_perm hnew _ _ _).1 hit)))
        · intro hh f hf hit
          have := hh f hf
          rw [onTrack_layer] at this
          exact this ((hit_perm hnew _ _ _).2 (hit_own.2 ((hit_perm hrem.1 _ _ _).1 hit)))
      · rw [hm3 q hqL]
        dsimp only
        rw [if_neg hqp]
        obtain ⟨c0, e1, e2, e3, e4⟩ := h.zero q hq
        refine ⟨c0, ?_, e2, e3, e4⟩
        rw [hfig q hqp, ← e1]
        refine (fresh_same h.panel hold hnew (recs_proper h.panel h.recs) (recs_proper hpan hrecs') hqA ?_).symm
        intro r hr f hf hlay hm
        obtain ⟨k, hk⟩ := mem_numbered.1 hf
        have hsh : (r.layer, f.line, q, k) ∈ s.shapes := h.shapes.mem_iff.2 (mem_allShapes.2 ⟨hqA, f, hk, hlay, rfl⟩)
        rcases List.mem_append.1 hr with hr | hr
        · exact hqL (List.mem_append_left _ (hfr' q hqp r hr _ k hsh hm))
        · exact hqL (List.mem_append_right _ (hfa' q r hr _ k (hrem.2.mem_iff.2 (hsrest hqp hsh)) hm))
  · intro q hq hqp hqL
    dsimp only
    rw [hm3 q hqL]
    dsimp only
    rw [if_neg hqp]

end TR
