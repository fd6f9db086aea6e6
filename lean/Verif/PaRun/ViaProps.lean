import Verif.PaRun.Spec
namespace TR

theorem boolInt_lt (a b : Bool) : boolInt a < boolInt b ↔ a = false ∧ b = true := by
  cases a <;> cases b <;> simp [boolInt]
theorem boolInt_eq (a b : Bool) : boolInt a = boolInt b ↔ a = b := by
  cases a <;> cases b <;> simp [boolInt]

theorem prio_lt_iff (v w : RawVia) : viaPrio v < viaPrio w ↔ Preferred v w := by
  unfold viaPrio Preferred
  simp only [List.cons_lt_cons_iff, boolInt_lt, boolInt_eq, Bool.not_eq_true', Bool.not_eq_false', List.lt_irrefl, and_false, or_false]
  have : ((!v.isDefault) = !w.isDefault) ↔ v.isDefault = w.isDefault := by cases v.isDefault <;> cases w.isDefault <;> simp
  rw [this]

theorem prio_eq_iff (v w : RawVia) : viaPrio v = viaPrio w ↔ SameRank v w := by
  unfold SameRank
  rw [← prio_lt_iff, ← prio_lt_iff]
  constructor
  · intro h; rw [h]; exact ⟨List.lt_irrefl _, List.lt_irrefl _⟩
  · rintro ⟨h1, h2⟩
    exact List.le_antisymm (List.not_lt.mp h2) (List.not_lt.mp h1)

theorem prioPut_mem (k : List Int) (v : RawVia) (m : List (List Int × RawVia)) (hs : m.Pairwise (fun a b => a.1 < b.1)) (e : List Int × RawVia) :
    e ∈ prioPut k v m ↔ e = (k, v) ∨ (e ∈ m ∧ e.1 ≠ k) := by
  induction m with
  | nil => simp [prioPut]
  | cons a m ih =>
    have hs' := List.pairwise_cons.mp hs
    rw [prioPut]
    split
    · rename_i hlt
      have : ∀ x ∈ a :: m, x.1 ≠ k := by
        intro x hx e
        rcases List.mem_cons.mp hx with rfl | hx
        · rw [e] at hlt; exact List.lt_irrefl _ hlt
        · have := List.lt_trans hlt (hs'.1 x hx)
          rw [e] at this; exact List.lt_irrefl _ this
      rw [List.mem_cons]
      exact ⟨fun h => h.elim Or.inl (fun h => Or.inr ⟨h, this e h⟩), fun h => h.elim Or.inl (fun h => Or.inr h.1)⟩
    · rename_i hnlt
      split
      · rename_i heq
        have : ∀ x ∈ m, x.1 ≠ k := by
          intro x hx e
          have := hs'.1 x hx
          rw [← heq, e] at this; exact List.lt_irrefl _ this
        rw [List.mem_cons, List.mem_cons]
        constructor
        · rintro (h | h)
          · exact Or.inl h
          · exact Or.inr ⟨Or.inr h, this e h⟩
        · rintro (h | ⟨h | h, hne⟩)
          · exact Or.inl h
          · exact absurd (h ▸ heq.symm) hne
          · exact Or.inr h
      · rename_i hne
        rw [List.mem_cons, ih hs'.2, List.mem_cons]
        constructor
        · rintro (h | h | h)
          · exact Or.inr ⟨Or.inl h, by rw [h]; exact fun e => hne e.symm⟩
          · exact Or.inl h
          · exact Or.inr ⟨Or.inr h.1, h.2⟩
        · rintro (h | ⟨h | h, hk⟩)
          · exact Or.inr (Or.inl h)
          · exact Or.inl h
          · exact Or.inr (Or.inr ⟨h, hk⟩)

theorem prioPut_sorted (k : List Int) (v : RawVia) (m : List (List Int × RawVia)) (hs : m.Pairwise (fun a b => a.1 < b.1)) :
    (prioPut k v m).Pairwise (fun a b => a.1 < b.1) := by
  induction m with
  | nil => simp [prioPut]
  | cons a m ih =>
    have hs' := List.pairwise_cons.mp hs
    rw [prioPut]
    split
    · rename_i hlt
      refine List.pairwise_cons.mpr ⟨?_, hs⟩
      intro x hx
      rcases List.mem_cons.mp hx with rfl | hx
      · exact hlt
      · exact List.lt_trans hlt (hs'.1 x hx)
    · rename_i hnlt
      split
      · rename_i heq
        refine List.pairwise_cons.mpr ⟨?_, hs'.2⟩
        intro x hx; rw [show ((k, v) : List Int × RawVia).1 = a.1 from heq]; exact hs'.1 x hx
      · rename_i hne
        refine List.pairwise_cons.mpr ⟨?_, ih hs'.2⟩
        intro x hx
        rcases (prioPut_mem k v m hs'.2 x).mp hx with rfl | ⟨hx, _⟩
        · rcases List.le_iff_lt_or_eq.mp (List.not_lt.mp hnlt) with h | h
          · exact h
          · exact absurd h.symm hne
        · exact hs'.1 x hx

theorem foldPut_spec (vs : List RawVia) (m : List (List Int × RawVia)) (hs : m.Pairwise (fun a b => a.1 < b.1)) :
    (vs.foldl (fun m v => prioPut (viaPrio v) v m) m).Pairwise (fun a b => a.1 < b.1) ∧
    ∀ e, e ∈ vs.foldl (fun m v => prioPut (viaPrio v) v m) m ↔
      (∃ a b, vs = a ++ e.2 :: b ∧ viaPrio e.2 = e.1 ∧ ∀ w ∈ b, viaPrio w ≠ e.1) ∨ (e ∈ m ∧ ∀ w ∈ vs, viaPrio w ≠ e.1) := by
  induction vs generalizing m with
  | nil => simp [hs]
  | cons v vs ih =>
    obtain ⟨i1, i2⟩ := ih (prioPut (viaPrio v) v m) (prioPut_sorted _ _ _ hs)
    refine ⟨i1, ?_⟩
    intro e
    rw [List.foldl_cons, i2 e, prioPut_mem _ _ _ hs]
    constructor
    · rintro (⟨a, b, rfl, h1, h2⟩ | ⟨rfl | ⟨h1, h2⟩, h3⟩)
      · exact Or.inl ⟨v :: a, b, rfl, h1, h2⟩
      · exact Or.inl ⟨[], vs, rfl, rfl, h3⟩
      · refine Or.inr ⟨h1, ?_⟩
        intro w hw
        rcases List.mem_cons.mp hw with rfl | hw
        · exact fun e' => h2 e'.symm
        · exact h3 w hw
    · rintro (⟨a, b, h0, h1, h2⟩ | ⟨h1, h2⟩)
      · cases a with
        | nil =>
          simp at h0
          obtain ⟨rfl, rfl⟩ := h0
          refine Or.inr ⟨Or.inl ?_, h2⟩
          rw [h1]
        | cons x a =>
          simp at h0
          exact Or.inl ⟨a, b, h0.2, h1, h2⟩
      · exact Or.inr ⟨Or.inr ⟨h1, fun e' => h2 v (by simp) e'.symm⟩, fun w hw => h2 w (by simp [hw])⟩

/-- the vias of one number of cuts in the order they would be tried -/
theorem viaMap_spec (n : Nat) (vs : List RawVia) :
    ((viaMap n vs).map (·.2)).Pairwise Preferred ∧
    ∀ v, v ∈ (viaMap n vs).map (·.2) ↔ ∃ a b, vs.filter (fun v => v.cuts = n) = a ++ v :: b ∧ ∀ w ∈ b, ¬ SameRank w v := by
  obtain ⟨h1, h2⟩ := foldPut_spec (vs.filter fun v => v.cuts = n) [] List.Pairwise.nil
  constructor
  · unfold viaMap
    rw [List.pairwise_map]
    have hk : ∀ e ∈ (vs.filter fun v => v.cuts = n).foldl (fun m v => prioPut (viaPrio v) v m) [], viaPrio e.2 = e.1 := by
      intro e he
      rcases (h2 e).mp he with ⟨_, _, _, h, _⟩ | ⟨h, _⟩
      · exact h
      · simp at h
    refine (List.pairwise_iff_getElem.mpr ?_)
    intro i j hi hj hij
    rw [← prio_lt_iff, hk _ (List.getElem_mem hi), hk _ (List.getElem_mem hj)]
    exact List.pairwise_iff_getElem.mp h1 i j hi hj hij
  · intro v
    unfold viaMap
    rw [List.mem_map]
    constructor
    · rintro ⟨e, he, rfl⟩
      rcases (h2 e).mp he with ⟨a, b, h3, h4, h5⟩ | ⟨h, _⟩
      · exact ⟨a, b, h3, fun w hw h => h5 w hw (by rw [← h4]; exact (prio_eq_iff w e.2).mpr h)⟩
      · simp at h
    · rintro ⟨a, b, h3, h4⟩
      refine ⟨(viaPrio v, v), (h2 _).mpr (Or.inl ⟨a, b, h3, rfl, fun w hw h => h4 w hw ((prio_eq_iff w v).mp h)⟩), rfl⟩

/-- The vias kept for access to a pin are in the order of preference, one for every rank that a via with one cut
has: the last of that rank in the order the vias are visited. The first two of them are tried. -/
theorem c170_tried (vs : List RawVia) :
    ∃ L : List RawVia, viasTried vs = L.take 2 ∧ L.Pairwise Preferred ∧
      (∀ v, v ∈ L ↔ ∃ a b, vs.filter (fun v => v.cuts = 1) = a ++ v :: b ∧ ∀ w ∈ b, ¬ SameRank w v) ∧
      (∀ v ∈ vs, v.cuts = 1 → ∃ w ∈ L, SameRank v w) := by
  obtain ⟨h1, h2⟩ := viaMap_spec 1 vs
  refine ⟨(viaMap 1 vs).map (·.2), rfl, h1, h2, ?_⟩
  intro v hv hc
  have hf : v ∈ vs.filter (fun v => v.cuts = 1) := List.mem_filter.mpr ⟨hv, by simp [hc]⟩
  generalize vs.filter (fun v => v.cuts = 1) = l at hf h2
  have : ∃ w, SameRank v w ∧ ∃ a b, l = a ++ w :: b ∧ ∀ x ∈ b, ¬ SameRank x w := by
    clear h1 h2 hv hc
    have tr : ∀ x y z : RawVia, SameRank x y → SameRank y z → SameRank x z := by
      intro x y z hxy hyz
      rw [← prio_eq_iff] at *
      rw [hxy, hyz]
    induction l with
    | nil => simp at hf
    | cons a l ih =>
      by_cases hex : ∃ x ∈ l, SameRank v x
      · obtain ⟨x, hx, hvx⟩ := hex
        by_cases hl : v ∈ l
        · obtain ⟨w, hw, a', b', e, hb⟩ := ih hl
          exact ⟨w, hw, a :: a', b', by rw [e]; rfl, hb⟩
        · have : ∀ (l : List RawVia), (∃ x ∈ l, SameRank v x) → ∃ w, SameRank v w ∧ ∃ a b, l = a ++ w :: b ∧ ∀ x ∈ b, ¬ SameRank x w := by
            intro l
            induction l with
            | nil => rintro ⟨x, hx, _⟩; simp at hx
            | cons y l ih2 =>
              rintro ⟨x, hx, hvx⟩
              by_cases hex2 : ∃ x ∈ l, SameRank v x
              · obtain ⟨w, hw, a', b', e, hb⟩ := ih2 hex2
                exact ⟨w, hw, y :: a', b', by rw [e]; rfl, hb⟩
              · rcases List.mem_cons.mp hx with rfl | hx
                · refine ⟨x, hvx, [], l, rfl, ?_⟩
                  intro z hz hzx
                  refine hex2 ⟨z, hz, tr v x z hvx ?_⟩
                  exact ⟨hzx.2, hzx.1⟩
                · exact absurd ⟨x, hx, hvx⟩ hex2
          obtain ⟨w, hw, a', b', e, hb⟩ := this l ⟨x, hx, hvx⟩
          exact ⟨w, hw, a :: a', b', by rw [e]; rfl, hb⟩
      · rcases List.mem_cons.mp hf with rfl | hf
        · refine ⟨v, ?_, [], l, rfl, fun z hz hzv => hex ⟨z, hz, hzv.2, hzv.1⟩⟩
          rw [← prio_eq_iff]
        · exact absurd ⟨v, hf, by rw [← prio_eq_iff]⟩ hex
  obtain ⟨w, hw, h⟩ := this
  exact ⟨w, (h2 w).mpr h, hw⟩

theorem pairwise_unique {α : Type} (R : α → α → Prop) (irr : ∀ a, ¬ R a a) (as : ∀ a b, R a b → ¬ R b a) :
    ∀ (l m : List α), l.Pairwise R → m.Pairwise R → (∀ x, x ∈ l ↔ x ∈ m) → l = m := by
  intro l
  induction l with
  | nil =>
    intro m _ _ h
    cases m with
    | nil => rfl
    | cons a m => exact absurd ((h a).mpr (by simp)) (by simp)
  | cons a l ih =>
    intro m hl hm h
    cases m with
    | nil => exact absurd ((h a).mp (by simp)) (by simp)
    | cons b m =>
      have hl' := List.pairwise_cons.mp hl
      have hm' := List.pairwise_cons.mp hm
      have hab : a = b := by
        rcases List.mem_cons.mp ((h a).mp (by simp)) with e | ha
        · exact e
        · rcases List.mem_cons.mp ((h b).mpr (by simp)) with e | hb
          · exact e.symm
          · exact absurd (hm'.1 a ha) (as _ _ (hl'.1 b hb))
      subst hab
      rw [ih m hl'.2 hm'.2]
      intro x
      constructor
      · intro hx
        rcases List.mem_cons.mp ((h x).mp (by simp [hx])) with rfl | hx'
        · exact absurd (hl'.1 x hx) (irr x)
        · exact hx'
      · intro hx
        rcases List.mem_cons.mp ((h x).mpr (by simp [hx])) with rfl | hx'
        · exact absurd (hm'.1 x hx) (irr x)
        · exact hx'

/-- If no two vias with one cut have the same rank, the vias tried do not depend on where the definitions lie in
memory. -/
theorem c170_order (vs ws : List RawVia) (hp : vs.Perm ws)
    (hr : ∀ v ∈ vs, ∀ w ∈ vs, v.cuts = 1 → w.cuts = 1 → SameRank v w → v = w) : viasTried vs = viasTried ws := by
  have mem : ∀ (us : List RawVia), (∀ v ∈ us, ∀ w ∈ us, v.cuts = 1 → w.cuts = 1 → SameRank v w → v = w) →
      ∀ v, v ∈ (viaMap 1 us).map (·.2) ↔ v ∈ us ∧ v.cuts = 1 := by
    intro us hus v
    rw [(viaMap_spec 1 us).2 v]
    constructor
    · rintro ⟨a, b, e, _⟩
      have : v ∈ us.filter (fun v => v.cuts = 1) := by rw [e]; simp
      simpa using List.mem_filter.mp this
    · rintro ⟨h1, h2⟩
      have hf : v ∈ us.filter (fun v => v.cuts = 1) := List.mem_filter.mpr ⟨h1, by simp [h2]⟩
      have hus' : ∀ x ∈ us.filter (fun v => v.cuts = 1), SameRank x v → x = v := by
        intro x hx hxv
        have := List.mem_filter.mp hx
        exact hus x this.1 v h1 (by simpa using this.2) h2 hxv
      generalize us.filter (fun v => v.cuts = 1) = l at hf hus'
      clear hus h1 h2
      induction l with
      | nil => simp at hf
      | cons a l ih =>
        by_cases hl : v ∈ l
        · obtain ⟨a', b', e, hb⟩ := ih hl (fun x hx => hus' x (by simp [hx]))
          exact ⟨a :: a', b', by rw [e]; rfl, hb⟩
        · rcases List.mem_cons.mp hf with rfl | h
          · refine ⟨[], l, rfl, fun w hw hwv => ?_⟩
            rw [hus' w (by simp [hw]) hwv] at hw
            exact hl hw
          · exact absurd h hl
  unfold viasTried
  congr 1
  refine pairwise_unique Preferred ?_ ?_ _ _ (viaMap_spec 1 vs).1 (viaMap_spec 1 ws).1 ?_
  · intro a h; rw [← prio_lt_iff] at h; exact List.lt_irrefl _ h
  · intro a b h1 h2
    rw [← prio_lt_iff] at h1 h2
    exact List.lt_irrefl _ (List.lt_trans h1 h2)
  · intro x
    rw [mem vs hr, mem ws (fun v hv w hw => hr v (hp.mem_iff.mpr hv) w (hp.mem_iff.mpr hw)), hp.mem_iff]

theorem extOf_extent (figs : List Box) (h : figs ≠ []) : IsExtent figs (extOf figs) := by
  induction figs with
  | nil => exact absurd rfl h
  | cons b l ih =>
    cases l with
    | nil =>
      show IsExtent [b] b
      exact ⟨by simp, ⟨b, by simp⟩, ⟨b, by simp⟩, ⟨b, by simp⟩, ⟨b, by simp⟩⟩
    | cons c l =>
      obtain ⟨h0, ⟨b1, m1, e1⟩, ⟨b2, m2, e2⟩, ⟨b3, m3, e3⟩, ⟨b4, m4, e4⟩⟩ := ih (by simp)
      have hE : extOf (b :: c :: l) = ⟨⟨min b.left (extOf (c :: l)).left, min b.bottom (extOf (c :: l)).bottom⟩,
        ⟨max b.right (extOf (c :: l)).right, max b.top (extOf (c :: l)).top⟩⟩ := rfl
      generalize extOf (c :: l) = e at *
      rw [hE]
      simp only [IsExtent, Box.left, Box.right, Box.bottom, Box.top] at *
      refine ⟨?_, ?_, ?_, ?_, ?_⟩
      · intro x hx
        rcases List.mem_cons.mp hx with rfl | hx
        · omega
        · have := h0 x hx; omega
      · by_cases hc : b.ll.x ≤ e.ll.x
        · exact ⟨b, by simp, by omega⟩
        · exact ⟨b1, List.mem_cons_of_mem _ m1, by omega⟩
      · by_cases hc : b.ll.y ≤ e.ll.y
        · exact ⟨b, by simp, by omega⟩
        · exact ⟨b2, List.mem_cons_of_mem _ m2, by omega⟩
      · by_cases hc : b.ur.x ≥ e.ur.x
        · exact ⟨b, by simp, by omega⟩
        · exact ⟨b3, List.mem_cons_of_mem _ m3, by omega⟩
      · by_cases hc : b.ur.y ≥ e.ur.y
        · exact ⟨b, by simp, by omega⟩
        · exact ⟨b4, List.mem_cons_of_mem _ m4, by omega⟩

/-- The width that vias are ranked by is the smaller side of the box around the metal, and the area is the number
of unit squares the metal covers. -/
theorem c170_measures (figs : List Box) (h : figs ≠ []) :
    ∃ e, IsExtent figs e ∧ metalWidth figs = min (e.right - e.left) (e.top - e.bottom) ∧
      metalArea figs = ((unitCells e).countP fun c => figs.any fun s => cellIn s c) ∧
      (∀ dir, metalAcross figs dir = true ↔ (e.right - e.left > e.top - e.bottom ∧ dir = some false) ∨
        (e.right - e.left ≤ e.top - e.bottom ∧ dir = some true)) := by
  refine ⟨extOf figs, extOf_extent figs h, rfl, rfl, ?_⟩
  intro dir
  unfold metalAcross
  by_cases hc : (extOf figs).right - (extOf figs).left > (extOf figs).top - (extOf figs).bottom
  · have : ¬ ((extOf figs).right - (extOf figs).left ≤ (extOf figs).top - (extOf figs).bottom) := by omega
    simp [hc, this]
  · have : (extOf figs).right - (extOf figs).left ≤ (extOf figs).top - (extOf figs).bottom := by omega
    simp [hc, this]

/-- two vias that lie to the left and to the right of the cut -/
def exLeft : RawVia := ⟨false, [⟨⟨-3, -1⟩, ⟨1, 1⟩⟩], [⟨⟨-1, -1⟩, ⟨1, 1⟩⟩], 1, some true, some false⟩
def exRight : RawVia := ⟨false, [⟨⟨-1, -1⟩, ⟨3, 1⟩⟩], [⟨⟨-1, -1⟩, ⟨1, 1⟩⟩], 1, some true, some false⟩

/-- A via and its mirror image have the same rank: only one of them is tried, and which one depends on where they
lie in memory. -/
theorem c170_mirror : SameRank exLeft exRight ∧ viasTried [exLeft, exRight] = [exRight] ∧ viasTried [exRight, exLeft] = [exLeft] := by
  refine ⟨?_, by decide +kernel, by decide +kernel⟩
  rw [← prio_eq_iff]; decide +kernel

example : viasTried [⟨false, [⟨⟨-1, -1⟩, ⟨1, 1⟩⟩], [⟨⟨-1, -1⟩, ⟨1, 1⟩⟩], 1, some true, some false⟩,
    ⟨true, [⟨⟨-3, -2⟩, ⟨3, 2⟩⟩], [⟨⟨-1, -1⟩, ⟨1, 1⟩⟩], 1, some true, some false⟩] =
  [⟨true, [⟨⟨-3, -2⟩, ⟨3, 2⟩⟩], [⟨⟨-1, -1⟩, ⟨1, 1⟩⟩], 1, some true, some false⟩,
   ⟨false, [⟨⟨-1, -1⟩, ⟨1, 1⟩⟩], [⟨⟨-1, -1⟩, ⟨1, 1⟩⟩], 1, some true, some false⟩] := by decide +kernel

end TR
