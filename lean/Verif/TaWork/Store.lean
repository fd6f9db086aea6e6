import Verif.TaWork.Blocks
import Verif.TA.Props
/-! The trees of a panel hold the shapes and the records of the wires at their present places. -/
namespace TR

/-- records and shapes of a wire -/
def wireRecs (P : PanelTech) (p : Nat) (L : List (TaFig × Nat)) : List CostRec := L.flatMap fun x => recsOf P p x.1 x.2
def wireShapes (p : Nat) (L : List (TaFig × Nat)) : TaShapes := L.map fun x => shapeOf p x.1 x.2

theorem eraseAll_perm {rest : List CostRec} : ∀ {rs l : List CostRec}, l.Perm (rs ++ rest) → (eraseAll rs l).Perm rest := by
  intro rs
  induction rs with
  | nil => intro l h; exact h
  | cons r rs ih =>
    intro l h
    unfold eraseAll
    rw [List.foldl_cons]
    refine ih (l := l.erase r) ?_
    have := h.erase r
    rw [List.cons_append, List.erase_cons_head] at this
    exact this

theorem removeFigs_perm {P : PanelTech} {p : Nat} {rest : List CostRec} {srest : TaShapes} : ∀ {L : List (TaFig × Nat)} {s : List CostRec × TaShapes},
    s.1.Perm (wireRecs P p L ++ rest) → s.2.Perm (wireShapes p L ++ srest) →
    (removeFigs P p L s).1.1.Perm rest ∧ (removeFigs P p L s).1.2.Perm srest := by
  intro L
  induction L with
  | nil => intro s h1 h2; exact ⟨h1, h2⟩
  | cons x L ih =>
    intro s h1 h2
    obtain ⟨f, k⟩ := x
    unfold removeFigs
    dsimp only
    unfold wireRecs at h1; rw [List.flatMap_cons, List.append_assoc] at h1
    unfold wireShapes at h2; rw [List.map_cons] at h2
    refine ih (eraseAll_perm h1) ?_
    have := h2.erase (shapeOf p f k)
    rw [List.cons_append, List.erase_cons_head] at this
    exact this

theorem addFigs_perm {P : PanelTech} {p : Nat} : ∀ {L : List (TaFig × Nat)} {s : List CostRec × TaShapes},
    (addFigs P p L s).1.1.Perm (wireRecs P p L ++ s.1) ∧ (addFigs P p L s).1.2.Perm (wireShapes p L ++ s.2) := by
  intro L
  induction L with
  | nil => intro s; exact ⟨List.Perm.refl _, List.Perm.refl _⟩
  | cons x L ih =>
    intro s
    obtain ⟨f, k⟩ := x
    unfold addFigs
    dsimp only
    obtain ⟨h1, h2⟩ := ih (s := (recsOf P p f k ++ s.1, shapeOf p f k :: s.2))
    refine ⟨h1.trans ?_, h2.trans ?_⟩
    · unfold wireRecs
      rw [List.flatMap_cons, List.append_assoc, ← List.append_assoc, ← List.append_assoc]
      exact List.perm_append_comm.append_right _
    · unfold wireShapes
      rw [List.map_cons]
      exact List.perm_middle

theorem mem_wiresAt {sh : TaShapes} {q : Box} {l : Int} {w : Nat} :
    w ∈ wiresAt sh q l ↔ ∃ b k, (l, b, w, k) ∈ sh ∧ q.meets b = true := by
  unfold wiresAt
  rw [List.mem_map]
  constructor
  · rintro ⟨⟨l', b, w', k⟩, hm, rfl⟩
    rw [List.mem_filter] at hm
    simp only [Bool.and_eq_true, decide_eq_true_eq] at hm
    obtain ⟨h1, rfl, h3⟩ := hm
    exact ⟨b, k, h1, h3⟩
  · rintro ⟨b, k, h1, h2⟩
    exact ⟨(l, b, w, k), List.mem_filter.2 ⟨h1, by simp [h2]⟩, rfl⟩

theorem mem_foundBy {sh : TaShapes} {rs : List CostRec} {w : Nat} :
    w ∈ foundBy sh rs ↔ ∃ r ∈ rs, ∃ b k, (r.layer, b, w, k) ∈ sh ∧ r.box.meets b = true := by
  unfold foundBy
  rw [List.mem_flatMap]
  constructor
  · rintro ⟨r, hr, h⟩; exact ⟨r, hr, mem_wiresAt.1 h⟩
  · rintro ⟨r, hr, h⟩; exact ⟨r, hr, mem_wiresAt.2 h⟩

/-- while a wire is taken out, the other wires touched by its records are found … -/
theorem removeFigs_finds {P : PanelTech} {p w : Nat} (hw : w ≠ p) : ∀ {L : List (TaFig × Nat)} {s : List CostRec × TaShapes} {r : CostRec} {b : Box} {k : Nat},
    r ∈ wireRecs P p L → (r.layer, b, w, k) ∈ s.2 → r.box.meets b = true → w ∈ (removeFigs P p L s).2 := by
  intro L
  induction L with
  | nil => intro s r b k h; cases h
  | cons x L ih =>
    intro s r b k hr hs hm
    obtain ⟨f, j⟩ := x
    unfold removeFigs
    dsimp only
    have hs' : (r.layer, b, w, k) ∈ s.2.erase (shapeOf p f j) :=
      (List.mem_erase_of_ne (by unfold shapeOf; intro h; simp only [Prod.mk.injEq] at h; exact hw h.2.2.1)).2 hs
    unfold wireRecs at hr; rw [List.flatMap_cons] at hr
    rw [List.mem_append]
    rcases List.mem_append.1 hr with h | h
    · exact .inl (mem_foundBy.2 ⟨r, h, b, k, hs', hm⟩)
    · exact .inr (ih h hs' hm)

/-- … and nothing else -/
theorem removeFigs_found {P : PanelTech} {p w : Nat} : ∀ {L : List (TaFig × Nat)} {s : List CostRec × TaShapes},
    w ∈ (removeFigs P p L s).2 → ∃ r ∈ wireRecs P p L, ∃ b k, (r.layer, b, w, k) ∈ s.2 ∧ r.box.meets b = true := by
  intro L
  induction L with
  | nil => intro s h; cases h
  | cons x L ih =>
    intro s h
    obtain ⟨f, j⟩ := x
    unfold removeFigs at h
    dsimp only at h
    unfold wireRecs
    rw [List.flatMap_cons]
    rcases List.mem_append.1 h with h | h
    · obtain ⟨r, hr, b, k, hb, hm⟩ := mem_foundBy.1 h
      exact ⟨r, List.mem_append_left _ hr, b, k, List.mem_of_mem_erase hb, hm⟩
    · obtain ⟨r, hr, b, k, hb, hm⟩ := ih h
      exact ⟨r, List.mem_append_right _ hr, b, k, List.mem_of_mem_erase hb, hm⟩

theorem addFigs_finds {P : PanelTech} {p w : Nat} : ∀ {L : List (TaFig × Nat)} {s : List CostRec × TaShapes} {r : CostRec} {b : Box} {k : Nat},
    r ∈ wireRecs P p L → (r.layer, b, w, k) ∈ s.2 → r.box.meets b = true → w ∈ (addFigs P p L s).2 := by
  intro L
  induction L with
  | nil => intro s r b k h; cases h
  | cons x L ih =>
    intro s r b k hr hs hm
    obtain ⟨f, j⟩ := x
    unfold addFigs
    dsimp only
    unfold wireRecs at hr; rw [List.flatMap_cons] at hr
    rw [List.mem_append]
    rcases List.mem_append.1 hr with h | h
    · exact .inl (mem_foundBy.2 ⟨r, h, b, k, hs, hm⟩)
    · exact .inr (ih h (List.mem_cons_of_mem _ hs) hm)

theorem addFigs_found {P : PanelTech} {p w : Nat} : ∀ {L : List (TaFig × Nat)} {s : List CostRec × TaShapes},
    w ∈ (addFigs P p L s).2 → w = p ∨ ∃ r ∈ wireRecs P p L, ∃ b k, (r.layer, b, w, k) ∈ s.2 ∧ r.box.meets b = true := by
  intro L
  induction L with
  | nil => intro s h; cases h
  | cons x L ih =>
    intro s h
    obtain ⟨f, j⟩ := x
    unfold addFigs at h
    dsimp only at h
    unfold wireRecs
    rw [List.flatMap_cons]
    rcases List.mem_append.1 h with h | h
    · obtain ⟨r, hr, b, k, hb, hm⟩ := mem_foundBy.1 h
      exact .inr ⟨r, List.mem_append_left _ hr, b, k, hb, hm⟩
    · rcases ih h with h | ⟨r, hr, b, k, hb, hm⟩
      · exact .inl h
      · rcases List.mem_cons.1 hb with h | hb
        · unfold shapeOf at h; simp only [Prod.mk.injEq] at h; exact .inl h.2.2.1
        · exact .inr ⟨r, List.mem_append_right _ hr, b, k, hb, hm⟩

theorem flatMap_perm_out {α : Type} {A : List Nat} (hn : A.Nodup) {p : Nat} (hp : p ∈ A) (g g' : Nat → List α) (h : ∀ q, q ≠ p → g q = g' q) :
    (A.flatMap g).Perm (g p ++ (A.erase p).flatMap g) ∧ (A.erase p).flatMap g = (A.erase p).flatMap g' := by
  constructor
  · have := (List.perm_cons_erase hp).flatMap_right g
    rw [List.flatMap_cons] at this
    exact this
  · have : ∀ q ∈ A.erase p, g q = g' q := fun q hq => h q (List.Nodup.mem_erase_iff hn |>.1 hq).1
    generalize A.erase p = B at this
    induction B with
    | nil => rfl
    | cons b B ih =>
      rw [List.flatMap_cons, List.flatMap_cons, this b List.mem_cons_self, ih fun q hq => this q (List.mem_cons_of_mem _ hq)]

/-! ### costs -/

theorem overlap_pos {q b : Box} (hq : q.Proper) (hb : b.Proper) (h : q.meets b = true) : 0 < overlapLen q b := by
  unfold Box.meets at h
  simp only [Bool.and_eq_true, decide_eq_true_eq] at h
  unfold Box.Proper at hq hb
  unfold overlapLen
  omega

/-- what a record adds to the cost of a place -/
def recWeight (net : Nat → Nat) (p : Nat) (q : Box) (r : CostRec) : Int := if counts net p r.owner then overlapLen q r.box else 0

theorem sumOverlap_eq {net : Nat → Nat} {p : Nat} {q : Box} : ∀ {rs : List CostRec}, (∀ r ∈ rs, 0 < overlapLen q r.box) →
    sumOverlap net p q rs = some ((rs.map (recWeight net p q)).sum) := by
  intro rs
  induction rs with
  | nil => intro _; rfl
  | cons r rs ih =>
    intro h
    unfold sumOverlap
    dsimp only
    rw [if_neg (by have := h r List.mem_cons_self; omega), ih fun r hr => h r (List.mem_cons_of_mem _ hr)]
    rfl

/-- records that touch place `q` of layer `l` -/
def touching (recs : List CostRec) (q : Box) (l : Int) : List CostRec := recs.filter fun r => decide (r.layer = l) && q.meets r.box

theorem placeCost_eq {P : PanelTech} {net : Nat → Nat} {recs : List CostRec} {p : Nat} {q : Box} {l : Int} (hr : ∀ r ∈ recs, r.box.Proper) (hq : q.Proper) :
    placeCost P net recs p q l = (pitchOf P l).map fun (x : Int × Bool) =>
      let o : Int := ((touching recs q l).map (recWeight net p q)).sum
      if o = 0 then (0 : Int) else if x.2 then x.1 * (2 : Int) else max (x.1 * (2 : Int)) o := by
  unfold placeCost
  have h : ∀ r ∈ touching recs q l, 0 < overlapLen q r.box := by
    intro r hm
    unfold touching at hm
    rw [List.mem_filter] at hm
    simp only [Bool.and_eq_true, decide_eq_true_eq] at hm
    exact overlap_pos hq (hr r hm.1) hm.2.2
  have he := sumOverlap_eq (net := net) (p := p) h
  unfold touching at he ⊢
  rw [he]
  cases pitchOf P l with
  | none => rfl
  | some x => rfl

theorem line_proper (f : TaFig) : f.line.Proper := by
  cases f <;> unfold TaFig.line Box.mk4 Box.Proper <;> simp only [Box.left, Box.right, Box.bottom, Box.top] <;> (repeat' split) <;> omega

theorem lineBox_proper (h : Bool) (a b t : Int) : (lineBox h a b t).Proper := by
  unfold lineBox
  refine fr_proper h ?_
  unfold Box.mk4 Box.Proper; simp only [Box.left, Box.right, Box.bottom, Box.top]; (repeat' split) <;> omega

theorem perm_sum {l l' : List Int} (h : l.Perm l') : l.sum = l'.sum := by
  induction h with
  | nil => rfl
  | cons x _ ih => rw [List.sum_cons, List.sum_cons, ih]
  | swap x y l => simp only [List.sum_cons]; omega
  | trans _ _ ih1 ih2 => rw [ih1, ih2]

/-- the cost does not depend on the order of the records -/
theorem placeCost_perm {P : PanelTech} {net : Nat → Nat} {recs recs' : List CostRec} {p : Nat} {q : Box} {l : Int} (hr : ∀ r ∈ recs, r.box.Proper)
    (hq : q.Proper) (h : (touching recs q l).Perm (touching recs' q l)) (hr' : ∀ r ∈ recs', r.box.Proper) :
    placeCost P net recs p q l = placeCost P net recs' p q l := by
  rw [placeCost_eq hr hq, placeCost_eq hr' hq]
  have : ((touching recs q l).map (recWeight net p q)).sum = ((touching recs' q l).map (recWeight net p q)).sum := perm_sum (h.map _)
  rw [this]

theorem drcCost_congr {P : PanelTech} {net : Nat → Nat} {recs recs' : List CostRec} {p : Nat} {t : Int} : ∀ {figs : List TaFig},
    (∀ f ∈ figs, placeCost P net recs p (f.onTrack P.horz t).line f.layer = placeCost P net recs' p (f.onTrack P.horz t).line f.layer) →
    drcCost P net recs p t figs = drcCost P net recs' p t figs := by
  intro figs
  induction figs with
  | nil => intro _; rfl
  | cons f fs ih =>
    intro h
    unfold drcCost
    rw [h f List.mem_cons_self, ih fun g hg => h g (List.mem_cons_of_mem _ hg)]

/-- a place of wire `p` is blocked by a record that counts -/
def HitAt (net : Nat → Nat) (recs : List CostRec) (p : Nat) (q : Box) (l : Int) : Prop :=
  ∃ r ∈ recs, r.layer = l ∧ q.meets r.box = true ∧ counts net p r.owner = true

theorem sum_nonneg_zero {α : Type} (g : α → Int) : ∀ (l : List α), (∀ a ∈ l, 0 ≤ g a) → 0 ≤ (l.map g).sum ∧ ((l.map g).sum = 0 ↔ ∀ a ∈ l, g a = 0) := by
  intro l
  induction l with
  | nil => intro _; exact ⟨by simp, by simp⟩
  | cons a l ih =>
    intro h
    obtain ⟨h1, h2⟩ := ih fun b hb => h b (List.mem_cons_of_mem _ hb)
    have h0 := h a List.mem_cons_self
    rw [List.map_cons, List.sum_cons, List.forall_mem_cons, ← h2]
    exact ⟨by omega, by omega⟩

theorem placeCost_zero {P : PanelTech} {net : Nat → Nat} {recs : List CostRec} {p : Nat} {q : Box} {l : Int} (hr : ∀ r ∈ recs, r.box.Proper) (hq : q.Proper)
    {x : Int × Bool} (hx : pitchOf P l = some x) (hx0 : 0 < x.1) :
    ∃ c, placeCost P net recs p q l = some c ∧ 0 ≤ c ∧ (c = 0 ↔ ¬ HitAt net recs p q l) := by
  rw [placeCost_eq hr hq, hx]
  refine ⟨_, rfl, ?_⟩
  dsimp only
  have hw : ∀ r ∈ touching recs q l, 0 < overlapLen q r.box := by
    intro r hm
    unfold touching at hm
    rw [List.mem_filter] at hm
    simp only [Bool.and_eq_true, decide_eq_true_eq] at hm
    exact overlap_pos hq (hr r hm.1) hm.2.2
  obtain ⟨h1, h2⟩ := sum_nonneg_zero (recWeight net p q) (touching recs q l) (by
    intro r hm; have := hw r hm; unfold recWeight; split <;> omega)
  have h3 : (∀ r ∈ touching recs q l, recWeight net p q r = 0) ↔ ¬ HitAt net recs p q l := by
    constructor
    · rintro h ⟨r, hm, hl, hmt, hc⟩
      have ht : r ∈ touching recs q l := List.mem_filter.2 ⟨hm, by simp [hl, hmt]⟩
      have := h r ht
      unfold recWeight at this
      rw [if_pos hc] at this
      have := hw r ht
      omega
    · intro h r hm
      unfold recWeight
      split
      · rename_i hc
        unfold touching at hm
        rw [List.mem_filter] at hm
        simp only [Bool.and_eq_true, decide_eq_true_eq] at hm
        exact absurd ⟨r, hm.1, hm.2.1, hm.2.2, hc⟩ h
      · rfl
  rw [← h3, ← h2]
  generalize ((touching recs q l).map (recWeight net p q)).sum = o at *
  obtain ⟨y, z⟩ := x
  dsimp only at hx0 ⊢
  split
  · omega
  · split
    · omega
    · omega

theorem drcCost_zero {P : PanelTech} {net : Nat → Nat} {recs : List CostRec} {p : Nat} {t : Int} (hr : ∀ r ∈ recs, r.box.Proper) : ∀ {figs : List TaFig},
    (∀ f ∈ figs, ∃ x, pitchOf P f.layer = some x ∧ 0 < x.1) →
    ∃ c, drcCost P net recs p t figs = some c ∧ 0 ≤ c ∧ (c = 0 ↔ ∀ f ∈ figs, ¬ HitAt net recs p (f.onTrack P.horz t).line f.layer) := by
  intro figs
  induction figs with
  | nil => intro _; exact ⟨0, rfl, Int.le_refl _, by simp⟩
  | cons f fs ih =>
    intro h
    obtain ⟨x, hx, hx0⟩ := h f List.mem_cons_self
    obtain ⟨a, ha, ha0, haz⟩ := placeCost_zero (net := net) (p := p) hr (line_proper (f.onTrack P.horz t)) hx hx0
    obtain ⟨b, hb, hb0, hbz⟩ := ih fun g hg => h g (List.mem_cons_of_mem _ hg)
    unfold drcCost
    rw [ha, hb]
    refine ⟨a + b, rfl, by omega, ?_⟩
    rw [List.forall_mem_cons, ← haz, ← hbz]
    omega

end TR
