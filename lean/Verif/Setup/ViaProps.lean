import Verif.Setup.ViaSpec
import Verif.Geom.Lemmas
/-! Property theorems C99 (default via), C100 (generated via), C101 (cut layer width), C102 (rules
between cut layers). -/
namespace TR

theorem figHull_spec (figs : List Box) (hne : figs ≠ []) : IsHull figs (figHull figs) := by
  cases figs with
  | nil => exact absurd rfl hne
  | cons b bs =>
    suffices h : ∀ (bs done : List Box) (a : Box), IsHull done a →
        IsHull (done ++ bs) (bs.foldl (fun a c => ⟨⟨min a.left c.left, min a.bottom c.bottom⟩, ⟨max a.right c.right, max a.top c.top⟩⟩) a) by
      have := h bs [b] b (by simp [IsHull])
      simpa [figHull] using this
    intro bs
    induction bs with
    | nil => intro done a h; simpa using h
    | cons c bs ih =>
      intro done a h
      have := ih (done ++ [c]) ⟨⟨min a.left c.left, min a.bottom c.bottom⟩, ⟨max a.right c.right, max a.top c.top⟩⟩ ?_
      · simpa using this
      · obtain ⟨h0, ⟨f1, m1, e1⟩, ⟨f2, m2, e2⟩, ⟨f3, m3, e3⟩, ⟨f4, m4, e4⟩⟩ := h
        have hc : c ∈ done ++ [c] := by simp
        refine ⟨?_, ?_, ?_, ?_, ?_⟩
        · intro f hf
          rcases List.mem_append.1 hf with hf | hf
          · have := h0 f hf
            simp only [Box.left, Box.right, Box.bottom, Box.top] at *; omega
          · rw [List.mem_singleton] at hf; subst hf
            simp only [Box.left, Box.right, Box.bottom, Box.top] at *; omega
        · rcases Int.le_total a.left c.left with h | h
          · exact ⟨f1, List.mem_append_left _ m1, by simp only [Box.left] at *; omega⟩
          · exact ⟨c, hc, by simp only [Box.left] at *; omega⟩
        · rcases Int.le_total a.bottom c.bottom with h | h
          · exact ⟨f2, List.mem_append_left _ m2, by simp only [Box.bottom] at *; omega⟩
          · exact ⟨c, hc, by simp only [Box.bottom] at *; omega⟩
        · rcases Int.le_total a.right c.right with h | h
          · exact ⟨c, hc, by simp only [Box.right] at *; omega⟩
          · exact ⟨f3, List.mem_append_left _ m3, by simp only [Box.right] at *; omega⟩
        · rcases Int.le_total a.top c.top with h | h
          · exact ⟨c, hc, by simp only [Box.top] at *; omega⟩
          · exact ⟨f4, List.mem_append_left _ m4, by simp only [Box.top] at *; omega⟩

theorem hull_unique {figs : List Box} {a b : Box} (ha : IsHull figs a) (hb : IsHull figs b) : a = b := by
  obtain ⟨h0, ⟨f1, m1, e1⟩, ⟨f2, m2, e2⟩, ⟨f3, m3, e3⟩, ⟨f4, m4, e4⟩⟩ := ha
  obtain ⟨k0, ⟨g1, n1, d1⟩, ⟨g2, n2, d2⟩, ⟨g3, n3, d3⟩, ⟨g4, n4, d4⟩⟩ := hb
  have := h0 g1 n1; have := h0 g2 n2; have := h0 g3 n3; have := h0 g4 n4
  have := k0 f1 m1; have := k0 f2 m2; have := k0 f3 m3; have := k0 f4 m4
  rcases a with ⟨⟨a1, a2⟩, ⟨a3, a4⟩⟩
  rcases b with ⟨⟨b1, b2⟩, ⟨b3, b4⟩⟩
  simp only [Box.left, Box.right, Box.bottom, Box.top] at *
  rw [show a1 = b1 by omega, show a2 = b2 by omega, show a3 = b3 by omega, show a4 = b4 by omega]

theorem notAligned_iff (dir : DirOf) (l : Int) (b : Box) : notAligned dir l b = true ↔ Across dir l b := by
  unfold notAligned isWide Across
  cases dir l with
  | none => simp
  | some d => cases d <;> simp

theorem bit_cases (b : Bool) : (b = true ∧ bit b = 1) ∨ (b = false ∧ bit b = 0) := by cases b <;> simp [bit]

theorem lex_step {x y : Int} {P : Bool} {Q : Prop} (h : P = true ↔ Q) :
    (if x ≠ y then decide (x < y) else P) = true ↔ (x < y ∨ (x = y ∧ Q)) := by
  by_cases hxy : x = y
  · subst hxy; simp [h]
  · simp [hxy]

theorem ViaKey.lt_iff (a b : ViaKey) : a.lt b = true ↔
    (a.notDefault < b.notDefault ∨ (a.notDefault = b.notDefault ∧ (a.width1 < b.width1 ∨ (a.width1 = b.width1 ∧
    (a.width2 < b.width2 ∨ (a.width2 = b.width2 ∧ (a.notUpper < b.notUpper ∨ (a.notUpper = b.notUpper ∧
    (a.area2 < b.area2 ∨ (a.area2 = b.area2 ∧ (a.area1 < b.area1 ∨ (a.area1 = b.area1 ∧ a.notLower < b.notLower)))))))))))) := by
  unfold ViaKey.lt
  exact lex_step (lex_step (lex_step (lex_step (lex_step (lex_step decide_eq_true_iff)))))

theorem bit_lt (p q : Bool) : (bit p < bit q ↔ (¬ p = true ∧ q = true)) ∧ (bit p = bit q ↔ (p = true ↔ q = true)) := by
  cases p <;> cases q <;> simp [bit]

theorem hull_eq {figs : List Box} {b : Box} (h : IsHull figs b) : figHull figs = b := by
  refine hull_unique (figHull_spec figs ?_) h
  rintro rfl
  obtain ⟨_, ⟨f, hf, _⟩, _⟩ := h
  cases hf

theorem key_lt_iff (dir : DirOf) (a b : SVia) (a1 a2 b1 b2 : Box) (ha1 : IsHull a.figs1 a1) (ha2 : IsHull a.figs2 a2)
    (hb1 : IsHull b.figs1 b1) (hb2 : IsHull b.figs2 b2) :
    (viaKey dir a).lt (viaKey dir b) = true ↔ PreferVia dir a b a1 a2 b1 b2 := by
  rw [ViaKey.lt_iff]
  unfold viaKey PreferVia
  dsimp only
  rw [hull_eq ha1, hull_eq ha2, hull_eq hb1, hull_eq hb2, (bit_lt _ _).1, (bit_lt _ _).2, (bit_lt _ _).1, (bit_lt _ _).2, (bit_lt _ _).1,
    notAligned_iff, notAligned_iff, notAligned_iff, notAligned_iff]
  have e1 : (¬ (!a.isDefault) = true ∧ (!b.isDefault) = true) ↔ (a.isDefault = true ∧ b.isDefault = false) := by simp
  have e2 : ((!a.isDefault) = true ↔ (!b.isDefault) = true) ↔ a.isDefault = b.isDefault := by
    cases a.isDefault <;> cases b.isDefault <;> simp
  rw [e1, e2]
  rfl

theorem keyLt_trans_neg {a b c : ViaKey} (h1 : ¬ a.lt b = true) (h2 : ¬ b.lt c = true) : ¬ a.lt c = true := by
  rw [ViaKey.lt_iff] at *
  omega

theorem keyLt_asymm {a b : ViaKey} (h1 : a.lt b = true) : ¬ b.lt a = true := by
  rw [ViaKey.lt_iff] at *
  omega

theorem best_fold (dir : DirOf) : ∀ (l : List SVia) (o : Option SVia),
    match l.foldl (keepFirst dir) o with
    | none => o = none ∧ l = []
    | some v => (v ∈ l ∨ o = some v) ∧ (∀ w ∈ l, ¬ (viaKey dir w).lt (viaKey dir v) = true) ∧
        ∀ w, o = some w → ¬ (viaKey dir w).lt (viaKey dir v) = true
  | [], o => by
    cases o with
    | none => exact ⟨rfl, rfl⟩
    | some v =>
      refine ⟨Or.inr rfl, by simp, ?_⟩
      rintro w hw
      cases hw
      intro h; exact keyLt_asymm h h
  | w :: l, o => by
    have ih := best_fold dir l (keepFirst dir o w)
    rw [List.foldl_cons]
    have hirr : ∀ k : ViaKey, ¬ k.lt k = true := fun k h => keyLt_asymm h h
    cases h : l.foldl (keepFirst dir) (keepFirst dir o w) with
    | none =>
      rw [h] at ih
      exfalso
      cases o with
      | none => exact absurd ih.1 (by simp [keepFirst])
      | some b =>
        have := ih.1
        simp only [keepFirst] at this
        split at this <;> cases this
    | some v =>
      rw [h] at ih
      dsimp only at ih ⊢
      obtain ⟨i1, i2, i3⟩ := ih
      cases o with
      | none =>
        simp only [keepFirst] at i1 i3
        have hw := i3 w rfl
        refine ⟨Or.inl ?_, ?_, by simp⟩
        · rcases i1 with i1 | i1
          · exact List.mem_cons_of_mem _ i1
          · cases i1; simp
        · intro x hx
          rcases List.mem_cons.1 hx with rfl | hx
          · exact hw
          · exact i2 x hx
      | some b =>
        simp only [keepFirst] at i1 i3
        by_cases hb : (viaKey dir b).lt (viaKey dir w) = true
        · rw [if_pos hb] at i1 i3
          have hbv := i3 b rfl
          refine ⟨?_, ?_, ?_⟩
          · rcases i1 with i1 | i1
            · exact Or.inl (List.mem_cons_of_mem _ i1)
            · exact Or.inr i1
          · intro x hx
            rcases List.mem_cons.1 hx with rfl | hx
            · exact keyLt_trans_neg (keyLt_asymm hb) hbv
            · exact i2 x hx
          · intro x hx; cases hx; exact hbv
        · rw [if_neg hb] at i1 i3
          have hwv := i3 w rfl
          refine ⟨?_, ?_, ?_⟩
          · rcases i1 with i1 | i1
            · exact Or.inl (List.mem_cons_of_mem _ i1)
            · cases i1; exact Or.inl (by simp)
          · intro x hx
            rcases List.mem_cons.1 hx with rfl | hx
            · exact hwv
            · exact i2 x hx
          · intro x hx; cases hx; exact keyLt_trans_neg hb hwv

/-- C99: set-up of the default via of a cut layer. The program stops exactly if a cut layer at or above
the lowest routing layer has no via with a single cut; a lower layer without one has no default via;
otherwise the default is a most preferred single-cut via, or one generated from it. -/
theorem c99_default_via (dir : DirOf) (gen : Bool) (bottom l : Int) (defs : List SVia) :
    (defaultVia dir gen bottom l defs = .error ↔ bottom ≤ l ∧ ∀ v ∈ defs, v.cuts.length ≠ 1) ∧
    (defaultVia dir gen bottom l defs = .ok none ↔ l < bottom ∧ ∀ v ∈ defs, v.cuts.length ≠ 1) ∧
    (∀ v, defaultVia dir gen bottom l defs = .ok (some v) → ∃ s, BestSingleCut dir defs s ∧
      (v = s ∨ (gen = true ∧ bottom ≤ l ∧ v.generated = true ∧ v.cutLayer = s.cutLayer))) := by
  have h := best_fold dir (defs.filter (fun v => v.cuts.length = 1)) none
  unfold defaultVia
  dsimp only
  change match bestSingleCut dir defs with
    | none => (none : Option SVia) = none ∧ defs.filter (fun v => decide (v.cuts.length = 1)) = []
    | some v => (v ∈ defs.filter (fun v => decide (v.cuts.length = 1)) ∨ none = some v) ∧ _ ∧ _ at h
  cases hb : bestSingleCut dir defs with
  | none =>
    rw [hb] at h
    have h0 : ∀ v ∈ defs, v.cuts.length ≠ 1 := by
      have := h.2
      rw [List.filter_eq_nil_iff] at this
      intro v hv; simpa using this v hv
    dsimp only
    by_cases hl : l ≥ bottom
    · rw [if_pos hl]
      exact ⟨⟨fun _ => ⟨hl, h0⟩, fun _ => rfl⟩, ⟨fun h => (by cases h), fun h => (by omega)⟩, fun v h => (by cases h)⟩
    · rw [if_neg hl]
      exact ⟨⟨fun h => (by cases h), fun h => (by omega)⟩, ⟨fun _ => ⟨by omega, h0⟩, fun _ => rfl⟩, fun v h => (by cases h)⟩
  | some s =>
    rw [hb] at h
    dsimp only at h ⊢
    obtain ⟨h1, h2, _⟩ := h
    have hs : s ∈ defs ∧ s.cuts.length = 1 := by
      rcases h1 with h1 | h1
      · simpa using h1
      · cases h1
    have hbest : BestSingleCut dir defs s := by
      refine ⟨hs.1, hs.2, ?_⟩
      intro w hw hc w1 w2 s1 s2 a1 a2 a3 a4 hp
      exact h2 w (by simp [hw, hc]) ((key_lt_iff dir w s w1 w2 s1 s2 a1 a2 a3 a4).2 hp)
    refine ⟨⟨fun h => (by cases h), fun h => absurd hs.2 (h.2 s hs.1)⟩, ⟨fun h => (by simp at h), fun h => absurd hs.2 (h.2 s hs.1)⟩, ?_⟩
    intro v hv
    refine ⟨s, hbest, ?_⟩
    simp only [SetupOut.ok.injEq, Option.some.injEq] at hv
    split at hv
    · rename_i hg
      simp only [Bool.and_eq_true, decide_eq_true_iff] at hg
      right
      rw [← hv]
      exact ⟨hg.1.1, hg.1.2, rfl, rfl⟩
    · exact Or.inl hv.symm

theorem hull_valid {figs : List Box} {b : Box} (h : IsHull figs b) (hv : ∀ f ∈ figs, f.Valid) : b.Valid := by
  obtain ⟨h0, ⟨f1, m1, e1⟩, ⟨f2, m2, e2⟩, _⟩ := h
  have a1 := h0 f1 m1; have a2 := h0 f2 m2; have v1 := hv f1 m1; have v2 := hv f2 m2
  unfold Box.Valid at *
  simp only [Box.left, Box.right, Box.bottom, Box.top] at *
  omega

theorem isHull_single (b : Box) : IsHull [b] b := by simp [IsHull]

theorem turned_eq {b : Box} (h : b.Valid) : turned b = ⟨⟨b.bottom, b.left⟩, ⟨b.top, b.right⟩⟩ := by
  unfold turned
  rw [Box.mk4_eq]
  unfold Box.Valid at h
  rcases b with ⟨⟨a1, a2⟩, ⟨a3, a4⟩⟩
  simp only [Box.left, Box.right, Box.bottom, Box.top, Box.mk.injEq, Point.mk.injEq] at *
  omega

/-- the box of the metal in the generated via -/
def fitted (dir : DirOf) (l : Int) (b : Box) : Box := if isWide b != (dir l == some true) then turned b else b

theorem fitted_spec (dir : DirOf) (l : Int) (b : Box) (h : b.Valid) :
    AlongLayer dir l (fitted dir l b) ∧ SameSize (fitted dir l b) b ∧ (fitted dir l b).Valid ∧
    (MatchesDir dir l b → fitted dir l b = b) := by
  unfold fitted
  rw [turned_eq h]
  unfold isWide AlongLayer SameSize MatchesDir Box.Valid at *
  rcases b with ⟨⟨a1, a2⟩, ⟨a3, a4⟩⟩
  simp only [Box.left, Box.right, Box.bottom, Box.top] at *
  have hd : (dir l == some true) = decide (dir l = some true) := by
    cases dir l with
    | none => rfl
    | some d => cases d <;> rfl
  rw [hd]
  by_cases h1 : dir l = some true <;> by_cases h2 : a4 - a2 < a3 - a1 <;> simp [h1, h2] <;> omega

theorem gen_matches (dir : DirOf) (l : Int) (b : Box) : (isWide b != (dir l == some true)) = false ↔ MatchesDir dir l b := by
  have hd : (dir l == some true) = decide (dir l = some true) := by
    cases dir l with
    | none => rfl
    | some d => cases d <;> rfl
  rw [hd]
  unfold isWide MatchesDir
  by_cases h1 : dir l = some true <;> by_cases h2 : b.top - b.bottom < b.right - b.left <;> simp [h1, h2] <;> omega

/-- C100: with via generation switched on, the default via of a cut layer of the routing layers has its
metal along the preferred directions of its two layers; metal and cut keep the sizes they have in the
chosen via. The chosen via itself is taken if its metal matches its layers, otherwise one is
generated. -/
theorem c100_generated_via (dir : DirOf) (bottom l : Int) (defs : List SVia) (v : SVia) (hl : bottom ≤ l)
    (h : defaultVia dir true bottom l defs = .ok (some v))
    (hf : ∀ s ∈ defs, s.figs1 ≠ [] ∧ s.figs2 ≠ [] ∧ ∀ b ∈ s.figs1 ++ s.figs2, b.Valid) :
    ∃ s, BestSingleCut dir defs s ∧ ∃ s1 s2 c v1 v2, IsHull s.figs1 s1 ∧ IsHull s.figs2 s2 ∧ s.cuts = [c] ∧
      IsHull v.figs1 v1 ∧ IsHull v.figs2 v2 ∧ v.cuts = [c] ∧ v.layer1 = s.layer1 ∧ v.layer2 = s.layer2 ∧
      AlongLayer dir v.layer1 v1 ∧ AlongLayer dir v.layer2 v2 ∧ SameSize v1 s1 ∧ SameSize v2 s2 ∧
      (MatchesDir dir s.layer1 s1 ∧ MatchesDir dir s.layer2 s2 → v = s) ∧
      (¬ (MatchesDir dir s.layer1 s1 ∧ MatchesDir dir s.layer2 s2) → v.generated = true) ∧
      (c.left = c.bottom → c.right = c.top → Encloses s1 c → Encloses s2 c → Encloses v1 c ∧ Encloses v2 c) := by
  obtain ⟨s, hs, -⟩ := (c99_default_via dir true bottom l defs).2.2 v h
  unfold defaultVia at h
  dsimp only at h
  cases hb : bestSingleCut dir defs with
  | none => rw [hb] at h; dsimp only at h; split at h <;> simp at h
  | some t =>
    rw [hb] at h
    dsimp only at h
    -- `t` itself is best
    have ht : BestSingleCut dir defs t := by
      obtain ⟨s', h1, h2⟩ := (c99_default_via dir false bottom l defs).2.2 t (by unfold defaultVia; rw [hb]; simp)
      rcases h2 with rfl | ⟨h2, _⟩
      · exact h1
      · cases h2
    obtain ⟨ht1, ht2, _⟩ := id ht
    obtain ⟨f1, f2, f3⟩ := hf t ht1
    obtain ⟨c, hc⟩ : ∃ c, t.cuts = [c] := by
      match hcut : t.cuts, ht2 with
      | [c], _ => exact ⟨c, rfl⟩
    have H1 := figHull_spec _ f1
    have H2 := figHull_spec _ f2
    have V1 := hull_valid H1 (fun f hf => f3 f (List.mem_append_left _ hf))
    have V2 := hull_valid H2 (fun f hf => f3 f (List.mem_append_right _ hf))
    obtain ⟨p1, p2, p3, p4⟩ := fitted_spec dir t.layer1 _ V1
    obtain ⟨q1, q2, q3, q4⟩ := fitted_spec dir t.layer2 _ V2
    have henc : ∀ l b, b.Valid → c.left = c.bottom → c.right = c.top → Encloses b c → Encloses (fitted dir l b) c := by
      intro l b hv e1 e2 e3
      unfold fitted
      split
      · rw [turned_eq hv]
        unfold Encloses at *
        simp only [Box.left, Box.right, Box.bottom, Box.top] at *
        omega
      · exact e3
    refine ⟨t, ht, figHull t.figs1, figHull t.figs2, c, ?_⟩
    simp only [Bool.true_and, decide_eq_true hl, SetupOut.ok.injEq, Option.some.injEq] at h
    by_cases hg : needsGen (fun k => dir k == some true) t = true
    · have hv : v = genVia (fun k => dir k == some true) t := by rw [← h]; simp [hg, hl]
      refine ⟨fitted dir t.layer1 (figHull t.figs1), fitted dir t.layer2 (figHull t.figs2), H1, H2, hc, ?_⟩
      rw [hv]
      refine ⟨isHull_single _, isHull_single _, ?_, rfl, rfl, p1, q1, p2, q2, ?_, fun _ => rfl, ?_⟩
      · simp [genVia, hc, figHull]
      · intro hm
        unfold needsGen at hg
        rw [(gen_matches dir _ _).2 hm.1, (gen_matches dir _ _).2 hm.2] at hg
        cases hg
      · exact fun e1 e2 e3 e4 => ⟨henc _ _ V1 e1 e2 e3, henc _ _ V2 e1 e2 e4⟩
    · have hv : v = t := by rw [← h]; simp [hg]
      have hm : MatchesDir dir t.layer1 (figHull t.figs1) ∧ MatchesDir dir t.layer2 (figHull t.figs2) := by
        unfold needsGen at hg
        simp only [Bool.or_eq_true, not_or, Bool.not_eq_true] at hg
        exact ⟨(gen_matches _ _ _).1 hg.1, (gen_matches _ _ _).1 hg.2⟩
      rw [p4 hm.1] at p1 p2
      rw [q4 hm.2] at q1 q2
      subst hv
      exact ⟨_, _, H1, H2, hc, H1, H2, hc, rfl, rfl, p1, q1, p2, q2, fun _ => rfl, fun h => absurd hm h, fun _ _ e3 e4 => ⟨e3, e4⟩⟩

/-- C101: width of a cut layer: the one given in LEF, or else the shorter side of the cut of the default
via; the program stops exactly if a layer at or above the lowest routing layer has neither. -/
theorem c101_cut_width (bottom l w : Int) (via : Option SVia) :
    (cutLayerWidth bottom l w via = .error ↔ w = 0 ∧ via = none ∧ bottom ≤ l) ∧
    (w ≠ 0 → cutLayerWidth bottom l w via = .ok w) ∧
    (∀ v c cs, via = some v → v.cuts = c :: cs → w = 0 →
      cutLayerWidth bottom l w via = .ok (min (c.right - c.left) (c.top - c.bottom))) ∧
    (l < bottom → w = 0 → via = none → cutLayerWidth bottom l w via = .ok 0) := by
  unfold cutLayerWidth
  refine ⟨?_, fun h => by rw [if_neg h], ?_, ?_⟩
  · by_cases hw : w = 0
    · rw [if_pos hw]
      cases via with
      | some v => simp
      | none =>
        dsimp only
        by_cases hl : l ≥ bottom
        · have hl' : bottom ≤ l := hl
          simp [hw, hl']
        · have hl' : ¬ bottom ≤ l := hl
          simp [hl']
    · rw [if_neg hw]; simp [hw]
  · rintro v c cs rfl hc rfl
    rw [if_pos rfl]
    simp [hc, Box.width]
  · rintro hl rfl rfl
    rw [if_pos rfl]
    dsimp only
    rw [if_neg (by omega)]

/-- C101 with C99: every cut layer at or above the lowest routing layer gets a width, and with via
definitions of positive size it is positive. -/
theorem c101_width_positive (dir : DirOf) (gen : Bool) (bottom l w : Int) (defs : List SVia) (v : SVia) (hw : 0 ≤ w)
    (h : defaultVia dir gen bottom l defs = .ok (some v))
    (hpos : ∀ s ∈ defs, ∀ c ∈ s.cuts, c.left < c.right ∧ c.bottom < c.top) :
    ∃ k, cutLayerWidth bottom l w (some v) = .ok k ∧ 0 < k := by
  by_cases hw0 : w = 0
  · have hcut : ∃ c, v.cuts = [c] ∧ c.left < c.right ∧ c.bottom < c.top := by
      unfold defaultVia at h
      dsimp only at h
      cases hb : bestSingleCut dir defs with
      | none => rw [hb] at h; dsimp only at h; split at h <;> simp at h
      | some t =>
        have ht : BestSingleCut dir defs t := by
          obtain ⟨s', h1, h2⟩ := (c99_default_via dir false bottom l defs).2.2 t (by unfold defaultVia; rw [hb]; simp)
          rcases h2 with rfl | ⟨h2, _⟩
          · exact h1
          · cases h2
        obtain ⟨ht1, ht2, _⟩ := ht
        obtain ⟨c, hc⟩ : ∃ c, t.cuts = [c] := by
          match hcut : t.cuts, ht2 with
          | [c], _ => exact ⟨c, rfl⟩
        rw [hb] at h
        simp only [SetupOut.ok.injEq, Option.some.injEq] at h
        refine ⟨c, ?_, hpos t ht1 c (by rw [hc]; simp)⟩
        rw [← h]
        split
        · simp [genVia, hc, figHull]
        · exact hc
    obtain ⟨c, hc, hp⟩ := hcut
    refine ⟨_, (c101_cut_width bottom l w (some v)).2.2.1 v c [] rfl hc hw0, by omega⟩
  · exact ⟨w, (c101_cut_width bottom l w (some v)).2.1 hw0, by omega⟩

theorem placeRules_spec {ρ : Type} (layerNo : String → Option Nat) : ∀ (rules : List (String × ρ)) (tab : Nat → Option ρ) (k : Nat),
    (∀ a ∈ rules, ∀ b ∈ rules, layerNo a.1 = some k → layerNo b.1 = some k → a = b) →
    (∀ r, (∃ n, (n, r) ∈ rules ∧ layerNo n = some k) → placeRules layerNo rules tab k = some r) ∧
    ((∀ a ∈ rules, layerNo a.1 ≠ some k) → placeRules layerNo rules tab k = tab k)
  | [], tab, k, _ => ⟨(by rintro r ⟨n, h, _⟩; cases h), fun _ => rfl⟩
  | a :: rules, tab, k, hinj => by
    obtain ⟨h1, h2⟩ := placeRules_spec layerNo rules
      (match layerNo a.1 with | some n => fun k => if k = n then some a.2 else tab k | none => tab) k
      (fun x hx y hy => hinj x (List.mem_cons_of_mem _ hx) y (List.mem_cons_of_mem _ hy))
    have e : placeRules layerNo (a :: rules) tab = placeRules layerNo rules
      (match layerNo a.1 with | some n => fun k => if k = n then some a.2 else tab k | none => tab) := by
      rfl
    rw [e]
    constructor
    · rintro r ⟨n, hn, hk⟩
      by_cases hin : ∃ n', (n', r) ∈ rules ∧ layerNo n' = some k
      · exact h1 r hin
      · have ha : (n, r) = a := by
          rcases List.mem_cons.1 hn with h | h
          · exact h
          · exact absurd ⟨n, h, hk⟩ hin
        subst ha
        rw [h2]
        · simp [hk]
        · intro b hb hbk
          have := hinj b (List.mem_cons_of_mem _ hb) (n, r) (by simp) hbk hk
          subst this
          exact hin ⟨n, hb, hk⟩
    · intro hno
      rw [h2 (fun b hb => hno b (List.mem_cons_of_mem _ hb))]
      have := hno a (by simp)
      cases hl : layerNo a.1 with
      | none => rfl
      | some m =>
        have : k ≠ m := by rintro rfl; exact this hl
        simp [this]

/-- C102: the tables of rules between cut layers. The rule used between this layer and layer `k` for
different nets is the one given for the name of that layer, none if none is given; the rule for one net
is the one given for it, but only if there is one for different nets. -/
theorem c102_inter_layer_rules {ρ : Type} (layerNo : String → Option Nat) (diff same : List (String × ρ)) (k : Nat)
    (hd : ∀ a ∈ diff, ∀ b ∈ diff, layerNo a.1 = some k → layerNo b.1 = some k → a = b)
    (hs : ∀ a ∈ same, ∀ b ∈ same, layerNo a.1 = some k → layerNo b.1 = some k → a = b) :
    (∀ r, (interTables layerNo diff same).1 k = some r ↔ ∃ n, (n, r) ∈ diff ∧ layerNo n = some k) ∧
    (∀ r, (interTables layerNo diff same).2 k = some r ↔
      (∃ n, (n, r) ∈ same ∧ layerNo n = some k) ∧ ∃ n r', (n, r') ∈ diff ∧ layerNo n = some k) := by
  have key : ∀ (rules : List (String × ρ)), (∀ a ∈ rules, ∀ b ∈ rules, layerNo a.1 = some k → layerNo b.1 = some k → a = b) →
      ∀ r, (placeRules layerNo rules (fun _ => none) k = some r ↔ ∃ n, (n, r) ∈ rules ∧ layerNo n = some k) := by
    intro rules hr r
    obtain ⟨h1, h2⟩ := placeRules_spec layerNo rules (fun _ => none) k hr
    refine ⟨fun h => ?_, h1 r⟩
    by_cases hex : ∃ a ∈ rules, layerNo a.1 = some k
    · obtain ⟨⟨n, r'⟩, ha, hk⟩ := hex
      have := h1 r' ⟨n, ha, hk⟩
      rw [h] at this
      cases this
      exact ⟨n, ha, hk⟩
    · rw [h2 (fun a ha hk => hex ⟨a, ha, hk⟩)] at h
      cases h
  refine ⟨key diff hd, fun r => ?_⟩
  unfold interTables
  dsimp only
  rw [← key same hs r]
  cases hdk : placeRules layerNo diff (fun _ => none) k with
  | none =>
    simp only [Option.isNone_none, if_true, reduceCtorEq, false_iff, not_and]
    rintro _ ⟨n, r', h⟩
    rw [(key diff hd r').2 ⟨n, h⟩] at hdk
    cases hdk
  | some r' =>
    simp only [Option.isNone_some, Bool.false_eq_true, if_false]
    obtain ⟨n, h⟩ := (key diff hd r').1 hdk
    exact ⟨fun hh => ⟨hh, n, r', h⟩, fun hh => hh.1⟩

/-! ### instances and witnesses -/

def exSq (h : Int) : Box := ⟨⟨-h, -h⟩, ⟨h, h⟩⟩
def exViaV : SVia := ⟨true, 2, 3, 4, [⟨⟨-30, -50⟩, ⟨30, 50⟩⟩], [exSq 25], [⟨⟨-50, -30⟩, ⟨50, 30⟩⟩], 6000, 6000, false⟩
def exViaH : SVia := { exViaV with figs1 := [⟨⟨-50, -30⟩, ⟨50, 30⟩⟩] }
def exDir : DirOf := fun l => some (l % 4 == 2)

/-- metal 1 (layer 2) is horizontal and metal 2 (layer 4) vertical; the vertical via must be turned in
both layers, the horizontal one in the upper layer -/
example : defaultVia exDir true 2 3 [exViaV, exViaH] = .ok (some
    ⟨false, 2, 3, 4, [⟨⟨-50, -30⟩, ⟨50, 30⟩⟩], [exSq 25], [⟨⟨-30, -50⟩, ⟨30, 50⟩⟩], 6000, 6000, true⟩) := by decide +kernel

example : defaultVia exDir true 2 3 [{ exViaV with cuts := [exSq 25, exSq 20] }] = .error := by decide +kernel

/-- C99: vias of equal priority: the choice depends on their order in memory. -/
theorem c99_tie_depends_on_order : ∃ (a b : SVia), a ≠ b ∧
    defaultVia exDir false 2 3 [a, b] = .ok (some b) ∧ defaultVia exDir false 2 3 [b, a] = .ok (some a) :=
  ⟨exViaV, { exViaV with cuts := [exSq 20] }, by decide, by decide +kernel, by decide +kernel⟩

/-- C100: turning exchanges x and y, so a cut that is not placed symmetrically is no longer enclosed. -/
theorem c100_cut_uncovered : ∃ (s v : SVia) (c : Box), defaultVia exDir true 2 3 [s] = .ok (some v) ∧ s.cuts = [c] ∧ v.cuts = [c] ∧
    (∀ b ∈ s.figs1, Encloses b c) ∧ ∀ b ∈ v.figs1, ¬ Encloses b c :=
  ⟨{ exViaV with figs1 := [⟨⟨-30, -50⟩, ⟨30, 100⟩⟩], cuts := [⟨⟨-25, 25⟩, ⟨25, 75⟩⟩] }, _, ⟨⟨-25, 25⟩, ⟨25, 75⟩⟩, rfl, rfl, rfl,
    by unfold Encloses; decide +kernel, by unfold Encloses; decide +kernel⟩

end TR
