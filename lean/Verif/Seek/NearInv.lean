import Verif.Seek.Near
/-! The invariant of the costed abstract search. -/
namespace TR.AbsC
open Abs

variable {K : Type}

/-- `c` was pushed when `a` was expanded -/
structure Child (S : Sys K) (a c : CE K) : Prop where
  n : c.e.n = a.e.n.nbr c.e.d1
  d2 : c.e.d2 = a.e.d1
  k : c.k = S.nx a.k a.e.n a.e.d1 c.e.d1

/-- `SB`: entries that were expanded with their label accepted; `FE`: those of them that pushed
something; `F`: total cost of the entry popped last. -/
structure Track (S : Sys K) (s : CSt K) (SB FE : CE K → Prop) (F : Nat) : Prop where
  ent : ∀ a ∈ s.q, S.fc a.k = S.pc a.k + S.est a.e.n a.e.d1 ∧ F ≤ S.fc a.k
  sbent : ∀ a, SB a → S.fc a.k = S.pc a.k + S.est a.e.n a.e.d1 ∧ S.fc a.k ≤ F
  nodst : ∀ a, SB a → S.V.dst a.e.n = false
  label : ∀ v, s.prev v ≠ .UNKNOWN → ∃ a, SB a ∧ a.e.n = v ∧ a.e.d1 = s.prev v
  parent : ∀ c ∈ s.q, c.e.d1 ≠ .UNKNOWN → ∃ a, FE a ∧ Child S a c
  sbparent : ∀ c, SB c → c.e.d1 ≠ .UNKNOWN → (∃ a, FE a ∧ Child S a c) ∧ S.V.src c.e.n = false ∧
    S.V.edge (back c.e.n c.e.d1) c.e.d1 = true
  fert : ∀ a, FE a → SB a ∧ (a.e.d1 = .UNKNOWN ∨ S.V.src (back a.e.n a.e.d1) = true ∨
    (s.prev (back a.e.n a.e.d1) = a.e.d2 ∧ a.e.d2 ≠ .UNKNOWN))
  infert : ∀ a, SB a → ¬ FE a → ∀ d, d ≠ .UNKNOWN → ¬ expandable S.V s.prev a.e d
  roots : ∀ r, S.V.src r = true → ∃ a, (SB a ∨ a ∈ s.q) ∧ a.e.n = r ∧ a.e.d1 = .UNKNOWN ∧ S.pc a.k = 0
  block : ∀ b, FE b → s.prev b.e.n ≠ .UNKNOWN → s.prev b.e.n ≠ b.e.d1 →
    ∃ a, SB a ∧ a.e.n = b.e.n ∧ a.e.d1 = s.prev b.e.n ∧ S.pc a.k ≤ S.pc b.k + S.kap
  cover : ∀ b δ, SB b → S.V.edge b.e.n δ = true →
    S.V.src (b.e.n.nbr δ) = true ∨
    (∃ a, SB a ∧ a.e.n = b.e.n.nbr δ ∧ a.e.d1 = s.prev (b.e.n.nbr δ) ∧ s.prev (b.e.n.nbr δ) ≠ .UNKNOWN ∧
      S.pc a.k ≤ S.pc b.k + S.wt b.e.n δ + 2 * S.kap) ∨
    b.e.d1 = δ.opp ∨
    (FE b ∧ ∃ c ∈ s.q, Child S b c ∧ c.e.d1 = δ) ∨
    (∃ c, SB c ∧ Child S b c ∧ c.e.d1 = δ) ∨
    (FE b ∧ s.prev b.e.n ≠ .UNKNOWN ∧ s.prev b.e.n ≠ b.e.d1)

theorem mem_eraseIdx_orC (q : List (CE K)) : ∀ (i : Nat) (e a : CE K), q[i]? = some e → a ∈ q →
    a = e ∨ a ∈ q.eraseIdx i := by
  induction q with
  | nil => intro i e a h; simp at h
  | cons b q ih =>
    intro i e a h ha
    cases i with
    | zero =>
      simp at h
      rcases List.mem_cons.1 ha with rfl | ha
      · exact Or.inl h
      · exact Or.inr (by simpa using ha)
    | succ i =>
      rcases List.mem_cons.1 ha with rfl | ha
      · exact Or.inr (by simp)
      · rcases ih i e a (by simpa using h) ha with h | h
        · exact Or.inl h
        · exact Or.inr (by simp [h])

theorem track_skip {S : Sys K} (ok : S.OK) {s : CSt K} {SB FE F i a} (hq : s.q[i]? = some a)
    (hmin : ∀ b ∈ s.q, S.fc a.k ≤ S.fc b.k) (h : Track S s SB FE F) (hsf : SrcFree S.V s.prev)
    (hl : s.prev a.e.n ≠ .UNKNOWN) :
    Track S ⟨s.q.eraseIdx i, s.prev⟩ SB FE (S.fc a.k) := by
  have ham : a ∈ s.q := List.mem_of_getElem? hq
  have hF := (h.ent a ham).2
  have hsub : ∀ b ∈ s.q.eraseIdx i, b ∈ s.q := fun _ hb => List.mem_of_mem_eraseIdx hb
  refine ⟨?_, ?_, h.nodst, h.label, ?_, h.sbparent, h.fert, h.infert, ?_, h.block, ?_⟩
  · exact fun b hb => ⟨(h.ent b (hsub b hb)).1, hmin b (hsub b hb)⟩
  · exact fun b hb => ⟨(h.sbent b hb).1, Nat.le_trans (h.sbent b hb).2 hF⟩
  · exact fun c hc => h.parent c (hsub c hc)
  · intro r hr
    obtain ⟨b, hb, h1, h2⟩ := h.roots r hr
    rcases hb with hb | hb
    · exact ⟨b, Or.inl hb, h1, h2⟩
    · rcases mem_eraseIdx_orC _ _ _ _ hq hb with rfl | hb
      · exact absurd (hsf _ (h1 ▸ hr)) hl
      · exact ⟨b, Or.inr hb, h1, h2⟩
  · intro b δ hb he
    rcases h.cover b δ hb he with h1 | h1 | h1 | ⟨h0, c, hc, h1, h2⟩ | h1 | h1
    · exact Or.inl h1
    · exact Or.inr (Or.inl h1)
    · exact Or.inr (Or.inr (Or.inl h1))
    · rcases mem_eraseIdx_orC _ _ _ _ hq hc with rfl | hc
      · right; left
        have hn : c.e.n = b.e.n.nbr δ := by rw [h1.n, h2]
        obtain ⟨A, hA, hA1, hA2⟩ := h.label _ hl
        refine ⟨A, hA, hA1.trans hn, by rw [hA2, hn], by rw [← hn]; exact hl, ?_⟩
        have e1 := h.sbent A hA
        have e2 := (h.ent c ham).1
        have e3 := ok.eps c.e.n c.e.d1 A.e.d1 (by rw [hA2]; exact hl)
        have e4 := ok.hi b.k b.e.n b.e.d1 δ he
        have e5 : S.pc c.k = S.pc (S.nx b.k b.e.n b.e.d1 δ) := by rw [h1.k, h2]
        rw [hA1] at e1
        omega
      · exact Or.inr (Or.inr (Or.inr (Or.inl ⟨h0, c, hc, h1, h2⟩)))
    · exact Or.inr (Or.inr (Or.inr (Or.inr (Or.inl h1))))
    · exact Or.inr (Or.inr (Or.inr (Or.inr (Or.inr h1))))

theorem track_fail {S : Sys K} {s : CSt K} {SB FE F i a} (hq : s.q[i]? = some a)
    (hmin : ∀ b ∈ s.q, S.fc a.k ≤ S.fc b.k) (h : Track S s SB FE F) (hs : Shape S.V s.prev a.e)
    (ht : ¬ tailOK s.prev a.e) :
    Track S ⟨s.q.eraseIdx i, s.prev⟩ SB FE (S.fc a.k) := by
  have ham : a ∈ s.q := List.mem_of_getElem? hq
  have hF := (h.ent a ham).2
  have hsub : ∀ b ∈ s.q.eraseIdx i, b ∈ s.q := fun _ hb => List.mem_of_mem_eraseIdx hb
  simp only [tailOK, not_or] at ht
  refine ⟨?_, ?_, h.nodst, h.label, ?_, h.sbparent, h.fert, h.infert, ?_, h.block, ?_⟩
  · exact fun b hb => ⟨(h.ent b (hsub b hb)).1, hmin b (hsub b hb)⟩
  · exact fun b hb => ⟨(h.sbent b hb).1, Nat.le_trans (h.sbent b hb).2 hF⟩
  · exact fun c hc => h.parent c (hsub c hc)
  · intro r hr
    obtain ⟨b, hb, h1, h2⟩ := h.roots r hr
    rcases hb with hb | hb
    · exact ⟨b, Or.inl hb, h1, h2⟩
    · rcases mem_eraseIdx_orC _ _ _ _ hq hb with rfl | hb
      · exact absurd (hs.root_src h2.1).2 ht.1
      · exact ⟨b, Or.inr hb, h1, h2⟩
  · intro b δ hb he
    rcases h.cover b δ hb he with h1 | h1 | h1 | ⟨h0, c, hc, h1, h2⟩ | h1 | h1
    · exact Or.inl h1
    · exact Or.inr (Or.inl h1)
    · exact Or.inr (Or.inr (Or.inl h1))
    · rcases mem_eraseIdx_orC _ _ _ _ hq hc with rfl | hc
      · refine Or.inr (Or.inr (Or.inr (Or.inr (Or.inr ⟨h0, ?_⟩))))
        have : back c.e.n c.e.d1 = b.e.n := by rw [h1.n]; exact back_push _ _
        rw [this, h1.d2] at ht
        exact ht.2
      · exact Or.inr (Or.inr (Or.inr (Or.inl ⟨h0, c, hc, h1, h2⟩)))
    · exact Or.inr (Or.inr (Or.inr (Or.inr (Or.inl h1))))
    · exact Or.inr (Or.inr (Or.inr (Or.inr (Or.inr h1))))

theorem expandable_anti {V : View} {p p' : MIdx → Dir} (hle : Le p p') {e : Ent} {d : Dir}
    (h : expandable V p' e d) : expandable V p e d := by
  refine ⟨h.1, h.2.1, ?_, h.2.2.2⟩
  by_cases h0 : p (e.n.nbr d) = .UNKNOWN
  · exact h0
  · have := hle _ h0
    rw [h.2.2.1] at this
    exact absurd this.symm h0

theorem track_serve {S : Sys K} (ok : S.OK) {s : CSt K} {SB FE F i a} (hq : s.q[i]? = some a)
    (hmin : ∀ b ∈ s.q, S.fc a.k ≤ S.fc b.k) (h : Track S s SB FE F) (hs : Shape S.V s.prev a.e)
    (hE : ∀ n d, S.V.edge n d = true → d ≠ .UNKNOWN)
    (hl : s.prev a.e.n = .UNKNOWN) (hd : S.V.dst a.e.n = false) (ht : tailOK s.prev a.e) :
    ∃ SB' FE', Track S (expandAllC S a ⟨s.q.eraseIdx i, s.prev⟩) SB' FE' (S.fc a.k) := by
  have ham : a ∈ s.q := List.mem_of_getElem? hq
  have hF := (h.ent a ham).2
  have haf := (h.ent a ham).1
  have hsub : ∀ b ∈ s.q.eraseIdx i, b ∈ s.q := fun _ hb => List.mem_of_mem_eraseIdx hb
  have hle := newPrev_le S.V s.prev a.e allDirs ht
  unfold expandAllC
  rw [fold_okC S a _ ⟨s.q.eraseIdx i, s.prev⟩ ht]
  let fe : Prop := ∃ d, d ≠ Dir.UNKNOWN ∧ expandable S.V s.prev a.e d
  have hfe : ∀ d, expandable S.V s.prev a.e d → fe := fun d hx => ⟨d, hE _ _ hx.1, hx⟩
  -- where the labels changed
  have hnew : ∀ v, s.prev v = .UNKNOWN → newPrev S.V s.prev a.e allDirs v ≠ .UNKNOWN →
      v = back a.e.n a.e.d1 ∧ newPrev S.V s.prev a.e allDirs v = a.e.d2 ∧ a.e.d2 ≠ .UNKNOWN ∧ fe := by
    intro v h0 hv
    simp only [newPrev] at hv ⊢
    split at hv
    · exact absurd h0 hv
    · rename_i hn
      simp only [setPrev] at hv ⊢
      by_cases hvv : v = back a.e.n a.e.d1
      · rw [if_neg hn]; subst hvv
        simp only [not_or] at hn
        refine ⟨rfl, if_pos rfl, hn.1, ?_⟩
        obtain ⟨x, hx⟩ := List.exists_mem_of_ne_nil _ hn.2
        have := (List.mem_filter.1 hx).2
        exact hfe x (by simpa using this)
      · rw [if_neg hvv] at hv; exact absurd h0 hv
  have hself : newPrev S.V s.prev a.e allDirs a.e.n = .UNKNOWN := by
    by_cases hh : newPrev S.V s.prev a.e allDirs a.e.n = .UNKNOWN
    · exact hh
    · obtain ⟨h1, _, h3, _⟩ := hnew _ hl hh
      have hd1 := hs.d2_d1 h3
      have : a.e.n = a.e.n.nbr a.e.d1.opp := h1
      exact absurd this.symm (nbr_ne _ _ (by rw [Ne, opp_unknown]; exact hd1))
  have hparent : ∀ c : CE K, c ∈ s.q → c.e.d1 ≠ .UNKNOWN → ∃ A, FE A ∧ Child S A c := h.parent
  refine ⟨fun c => SB c ∨ c = a, fun c => FE c ∨ (c = a ∧ fe), ?_⟩
  constructor
  · -- ent
    intro b hb
    rcases List.mem_append.1 hb with hb | hb
    · exact ⟨(h.ent b (hsub b hb)).1, hmin b (hsub b hb)⟩
    · obtain ⟨d, hdm, rfl⟩ := List.mem_map.1 hb
      have hx : expandable S.V s.prev a.e d := by simpa using (List.mem_filter.1 hdm).2
      have e1 := ok.fcx a.k a.e.n a.e.d1 d
      have e2 := ok.cons a.k a.e.n a.e.d1 d hx.1
      refine ⟨e1, ?_⟩
      show S.fc a.k ≤ S.fc (S.nx a.k a.e.n a.e.d1 d)
      omega
  · rintro b (hb | rfl)
    · exact ⟨(h.sbent b hb).1, Nat.le_trans (h.sbent b hb).2 hF⟩
    · exact ⟨haf, Nat.le_refl _⟩
  · rintro b (hb | rfl)
    · exact h.nodst b hb
    · exact hd
  · -- label
    intro v hv
    show ∃ A, (SB A ∨ A = a) ∧ A.e.n = v ∧ A.e.d1 = newPrev S.V s.prev a.e allDirs v
    by_cases h0 : s.prev v = .UNKNOWN
    · obtain ⟨r1, r2, r3, _⟩ := hnew v h0 hv
      obtain ⟨A, hA, hc⟩ := h.parent a ham (hs.d2_d1 r3)
      refine ⟨A, Or.inl (h.fert A hA).1, ?_, ?_⟩
      · rw [r1, hc.n]; exact (back_push _ _).symm
      · rw [r2, hc.d2]
    · obtain ⟨A, hA, h1, h2⟩ := h.label v h0
      exact ⟨A, Or.inl hA, h1, by rw [h2, hle v h0]⟩
  · -- parent
    intro c hc h1
    rcases List.mem_append.1 hc with hc | hc
    · obtain ⟨A, hA, h2⟩ := h.parent c (hsub c hc) h1
      exact ⟨A, Or.inl hA, h2⟩
    · obtain ⟨d, hdm, rfl⟩ := List.mem_map.1 hc
      have hx : expandable S.V s.prev a.e d := by simpa using (List.mem_filter.1 hdm).2
      exact ⟨a, Or.inr ⟨rfl, hfe d hx⟩, ⟨rfl, rfl, rfl⟩⟩
  · -- sbparent
    rintro c (hc | rfl) h1
    · obtain ⟨⟨A, hA, h2⟩, h3⟩ := h.sbparent c hc h1
      exact ⟨⟨A, Or.inl hA, h2⟩, h3⟩
    · obtain ⟨A, hA, h2⟩ := h.parent c ham h1
      exact ⟨⟨A, Or.inl hA, h2⟩, hs.src_iff h1, hs.nbr_back h1⟩
  · -- fert
    rintro c (hc | ⟨rfl, hf⟩)
    · obtain ⟨h1, h2⟩ := h.fert c hc
      refine ⟨Or.inl h1, ?_⟩
      rcases h2 with h2 | h2 | h2
      · exact Or.inl h2
      · exact Or.inr (Or.inl h2)
      · refine Or.inr (Or.inr ⟨?_, h2.2⟩)
        show newPrev S.V s.prev a.e allDirs _ = _
        rw [hle _ (by rw [h2.1]; exact h2.2), h2.1]
    · refine ⟨Or.inr rfl, ?_⟩
      obtain ⟨d, hdU, hx⟩ := hf
      by_cases h1 : c.e.d1 = .UNKNOWN
      · exact Or.inl h1
      · by_cases h2 : c.e.d2 = .UNKNOWN
        · refine Or.inr (Or.inl ?_)
          generalize c.e = e at hs h1 h2
          cases hs <;> simp_all
        · refine Or.inr (Or.inr ⟨?_, h2⟩)
          rcases newPrev_tail S.V s.prev c.e allDirs d hx ((mem_allDirs d).2 hdU) with hh | hh
          · exact absurd hh h2
          · exact hh
  · -- infert
    rintro c (hc | rfl) hnf d hdU hx
    · exact h.infert c hc (fun hh => hnf (Or.inl hh)) d hdU (expandable_anti hle hx)
    · exact hnf (Or.inr ⟨rfl, d, hdU, expandable_anti hle hx⟩)
  · -- roots
    intro r hr
    obtain ⟨b, hb, h1⟩ := h.roots r hr
    rcases hb with hb | hb
    · exact ⟨b, Or.inl (Or.inl hb), h1⟩
    · rcases mem_eraseIdx_orC _ _ _ _ hq hb with rfl | hb
      · exact ⟨b, Or.inl (Or.inr rfl), h1⟩
      · exact ⟨b, Or.inr (List.mem_append_left _ hb), h1⟩
  · -- block
    intro b hb hp1 hp2
    change newPrev S.V s.prev a.e allDirs b.e.n ≠ .UNKNOWN at hp1
    change newPrev S.V s.prev a.e allDirs b.e.n ≠ b.e.d1 at hp2
    show ∃ A, (SB A ∨ A = a) ∧ A.e.n = b.e.n ∧ A.e.d1 = newPrev S.V s.prev a.e allDirs b.e.n ∧ _
    rcases hb with hb | ⟨rfl, _⟩
    · by_cases h0 : s.prev b.e.n = .UNKNOWN
      · obtain ⟨r1, r2, r3, d, hdU, hx⟩ := hnew _ h0 hp1
        have hd1 := hs.d2_d1 r3
        have hedge := hs.nbr_back hd1
        have hasrc := hs.src_iff hd1
        have hbn : b.e.n.nbr a.e.d1 = a.e.n := by rw [r1]; exact nbr_back _ _
        have hbsrc : S.V.src b.e.n = false := by
          rw [r1]
          generalize a.e = e at hs r3
          cases hs <;> simp_all
        obtain ⟨A, hA, hAc⟩ := h.parent a ham hd1
        have hAn : A.e.n = b.e.n := by rw [r1, hAc.n]; exact (back_push _ _).symm
        refine ⟨A, Or.inl (h.fert A hA).1, hAn, by rw [r2, hAc.d2], ?_⟩
        have hloA := ok.lo A.k A.e.n A.e.d1 a.e.d1 (by rw [hAn, r1]; exact hedge)
        rw [← hAc.k] at hloA
        have hebn : S.V.edge b.e.n a.e.d1 = true := by rw [r1]; exact hedge
        rcases h.cover b a.e.d1 (h.fert b hb).1 hebn with c1 | ⟨x, _, _, _, c1, _⟩ | c1 | ⟨_, c, hc, c1, c2⟩ | ⟨c, hc, c1, c2⟩ | ⟨_, c1, _⟩
        · rw [hbn] at c1; rw [c1] at hasrc; simp at hasrc
        · rw [hbn] at c1; exact absurd hl c1
        · have hbk : back b.e.n b.e.d1 = a.e.n := by rw [c1]; simp only [back, opp_opp]; exact hbn
          rcases (h.fert b hb).2 with f1 | f1 | f1
          · rw [f1] at c1
            exact absurd ((opp_unknown _).1 c1.symm) hd1
          · rw [hbk] at f1; rw [f1] at hasrc; simp at hasrc
          · rw [hbk, hl] at f1
            exact absurd f1.1.symm f1.2
        · have m1 := hmin c hc
          have m2 := (h.ent c hc).1
          have hcn : c.e.n = a.e.n := by rw [c1.n, c2, hbn]
          rw [hcn, c2] at m2
          have m3 := ok.hi b.k b.e.n b.e.d1 a.e.d1 hebn
          have m4 : S.pc c.k = S.pc (S.nx b.k b.e.n b.e.d1 a.e.d1) := by rw [c1.k, c2]
          rw [hAn] at hloA
          omega
        · exfalso
          have hcn : c.e.n = a.e.n := by rw [c1.n, c2, hbn]
          by_cases hcf : FE c
          · have hbk : back c.e.n c.e.d1 = b.e.n := by rw [c1.n]; exact back_push _ _
            rcases (h.fert c hcf).2 with f1 | f1 | f1
            · rw [c2] at f1; exact hd1 f1
            · rw [hbk, hbsrc] at f1; simp at f1
            · rw [hbk, h0] at f1; exact f1.2 f1.1.symm
          · refine h.infert c hc hcf d hdU ?_
            have hx' := hx
            unfold expandable at hx' ⊢
            rw [hcn, c2]; exact hx'
        · exact absurd h0 c1
      · rw [hle _ h0] at hp1 hp2 ⊢
        obtain ⟨A, hA, h1, h2, h3⟩ := h.block b hb hp1 hp2
        exact ⟨A, Or.inl hA, h1, h2, h3⟩
    · exact absurd hself hp1
  · -- cover
    rintro b δ (hb | rfl) he
    · rcases h.cover b δ hb he with h1 | ⟨A, hA, h1, h2, h3, h4⟩ | h1 | ⟨h0, c, hc, h1, h2⟩ | ⟨c, hc, h1⟩ | ⟨h0, h1, h2⟩
      · exact Or.inl h1
      · refine Or.inr (Or.inl ⟨A, Or.inl hA, h1, ?_, ?_, h4⟩)
        · show _ = newPrev S.V s.prev a.e allDirs _
          rw [hle _ h3]; exact h2
        · show newPrev S.V s.prev a.e allDirs _ ≠ _
          rw [hle _ h3]; exact h3
      · exact Or.inr (Or.inr (Or.inl h1))
      · rcases mem_eraseIdx_orC _ _ _ _ hq hc with rfl | hc
        · exact Or.inr (Or.inr (Or.inr (Or.inr (Or.inl ⟨c, Or.inr rfl, h1, h2⟩))))
        · exact Or.inr (Or.inr (Or.inr (Or.inl ⟨Or.inl h0, c, List.mem_append_left _ hc, h1, h2⟩)))
      · exact Or.inr (Or.inr (Or.inr (Or.inr (Or.inl ⟨c, Or.inl hc, h1⟩))))
      · refine Or.inr (Or.inr (Or.inr (Or.inr (Or.inr ⟨Or.inl h0, ?_⟩))))
        show newPrev S.V s.prev a.e allDirs _ ≠ _ ∧ newPrev S.V s.prev a.e allDirs _ ≠ _
        rw [hle _ h1]; exact ⟨h1, h2⟩
    · by_cases hx : expandable S.V s.prev b.e δ
      · refine Or.inr (Or.inr (Or.inr (Or.inl ⟨Or.inr ⟨rfl, hfe δ hx⟩, pushC S b δ, ?_, ⟨rfl, rfl, rfl⟩, rfl⟩)))
        refine List.mem_append_right _ (List.mem_map.2 ⟨δ, List.mem_filter.2 ⟨(mem_allDirs δ).2 (hE _ _ he), ?_⟩, rfl⟩)
        simpa using hx
      · simp only [expandable] at hx
        by_cases a1 : S.V.src (b.e.n.nbr δ) = true
        · exact Or.inl a1
        · by_cases a2 : s.prev (b.e.n.nbr δ) = .UNKNOWN
          · right; right; left
            by_cases hh : b.e.d1 = δ.opp
            · exact hh
            · exact absurd ⟨he, by simpa using a1, a2, hh⟩ hx
          · right; left
            obtain ⟨A, hA, h1, h2⟩ := h.label _ a2
            refine ⟨A, Or.inl hA, h1, ?_, ?_, ?_⟩
            · show _ = newPrev S.V s.prev b.e allDirs _
              rw [hle _ a2]; exact h2
            · show newPrev S.V s.prev b.e allDirs _ ≠ _
              rw [hle _ a2]; exact a2
            · have e1 := h.sbent A hA
              rw [h1] at e1
              have e2 := ok.cons b.k b.e.n b.e.d1 δ he
              have e3 := ok.hi b.k b.e.n b.e.d1 δ he
              have e4 := ok.eps (b.e.n.nbr δ) δ A.e.d1 (by rw [h2]; exact a2)
              omega

/-! ## Following a path -/

def PathV (V : View) : MIdx → List Dir → Prop
  | _, [] => True
  | n, d :: ds => V.edge n d = true ∧ PathV V (n.nbr d) ds

def endOf : MIdx → List Dir → MIdx
  | n, [] => n
  | n, d :: ds => endOf (n.nbr d) ds

def Sys.bound (S : Sys K) : MIdx → List Dir → Nat
  | _, [] => 0
  | n, d :: ds => S.wt n d + 2 * S.kap + S.bound (n.nbr d) ds

theorem est_bound {S : Sys K} (ok : S.OK) (k : K) : ∀ (ds : List Dir) (n : MIdx) (l : Dir), PathV S.V n ds →
    (∀ l, S.est (endOf n ds) l = 0) → S.est n l ≤ S.bound n ds
  | [], n, l, _, h0 => by simp [Sys.bound]; exact h0 l
  | d :: ds, n, l, hp, h0 => by
    have ih := est_bound ok k ds (n.nbr d) d hp.2 h0
    have e1 := ok.cons k n l d hp.1
    have e2 := ok.hi k n l d hp.1
    simp only [Sys.bound]; omega

theorem frontier_bound {S : Sys K} (ok : S.OK) {s : CSt K} {SB FE F} (h : Track S s SB FE F)
    (hsf : SrcFree S.V s.prev) :
    ∀ (ds : List Dir) (n : MIdx) (u : Nat), PathV S.V n ds → S.V.dst (endOf n ds) = true →
      (∀ l, S.est (endOf n ds) l = 0) →
      ((∃ b, SB b ∧ b.e.n = n ∧ S.pc b.k ≤ u + S.kap ∧
          (s.prev n = .UNKNOWN ∨ s.prev n = b.e.d1 ∨ ¬ FE b)) ∨
        (∃ e ∈ s.q, e.e.n = n ∧ S.pc e.k ≤ u)) →
      ∃ e ∈ s.q, S.fc e.k ≤ u + S.bound n ds := by
  intro ds
  induction ds with
  | nil =>
    intro n u _ hd h0 hx
    rcases hx with ⟨b, hb, rfl, _⟩ | ⟨e, he, rfl, h1⟩
    · have := h.nodst b hb
      rw [show endOf b.e.n [] = b.e.n from rfl, this] at hd
      simp at hd
    · refine ⟨e, he, ?_⟩
      have := (h.ent e he).1
      rw [show endOf e.e.n [] = e.e.n from rfl] at h0
      rw [h0] at this
      omega
  | cons d ds ih =>
    intro n u hp hd h0 hx
    rcases hx with ⟨b, hb, rfl, hu, hus⟩ | ⟨e, he, rfl, h1⟩
    · have step := ih (b.e.n.nbr d) (u + S.wt b.e.n d + 2 * S.kap) hp.2 hd h0
      have fin : (∃ e ∈ s.q, S.fc e.k ≤ u + S.wt b.e.n d + 2 * S.kap + S.bound (b.e.n.nbr d) ds) →
          ∃ e ∈ s.q, S.fc e.k ≤ u + S.bound b.e.n (d :: ds) := by
        rintro ⟨e, he, h2⟩
        refine ⟨e, he, ?_⟩
        simp only [Sys.bound]; omega
      apply fin; apply step
      -- a fertile entry can be replaced when its label was taken over
      have swap : ∀ c, FE c → c.e.n = b.e.n.nbr d → S.pc c.k ≤ u + S.wt b.e.n d + 2 * S.kap →
          ∃ b', SB b' ∧ b'.e.n = b.e.n.nbr d ∧ S.pc b'.k ≤ u + S.wt b.e.n d + 2 * S.kap + S.kap ∧
            (s.prev (b.e.n.nbr d) = .UNKNOWN ∨ s.prev (b.e.n.nbr d) = b'.e.d1 ∨ ¬ FE b') := by
        intro c hc hn hpc
        by_cases p1 : s.prev (b.e.n.nbr d) = .UNKNOWN
        · exact ⟨c, (h.fert c hc).1, hn, by omega, Or.inl p1⟩
        · by_cases p2 : s.prev (b.e.n.nbr d) = c.e.d1
          · exact ⟨c, (h.fert c hc).1, hn, by omega, Or.inr (Or.inl p2)⟩
          · obtain ⟨A, hA, h1, h2, h3⟩ := h.block c hc (by rw [hn]; exact p1) (by rw [hn]; exact p2)
            exact ⟨A, hA, h1.trans hn, by omega, Or.inr (Or.inl (by rw [h2, hn]))⟩
      rcases h.cover b d hb hp.1 with c1 | ⟨A, hA, h1, h2, h3, h4⟩ | c1 | ⟨_, c, hc, c1, c2⟩ | ⟨c, hc, c1, c2⟩ | ⟨f1, c1, c2⟩
      · obtain ⟨r, hr, h1, h2, h3⟩ := h.roots _ c1
        rcases hr with hr | hr
        · exact Or.inl ⟨r, hr, h1, by omega, Or.inl (hsf _ c1)⟩
        · exact Or.inr ⟨r, hr, h1, by omega⟩
      · exact Or.inl ⟨A, hA, h1, by omega, Or.inr (Or.inl h2.symm)⟩
      · left
        by_cases hbU : b.e.d1 = .UNKNOWN
        · have hdU : d = .UNKNOWN := (opp_unknown d).1 (by rw [← c1]; exact hbU)
          have hnn : b.e.n.nbr d = b.e.n := by
            subst hdU
            rcases b.e.n with ⟨x, y, z⟩
            simp [MIdx.nbr, Dir.delta]
          rw [hnn]
          exact ⟨b, hb, rfl, by omega, hus⟩
        · obtain ⟨⟨A, hA, hAc⟩, _, hedge⟩ := h.sbparent b hb hbU
          have hAn : A.e.n = b.e.n.nbr d := by
            have : back b.e.n b.e.d1 = b.e.n.nbr d := by rw [c1]; simp only [back, opp_opp]
            rw [← this]
            rw [hAc.n]; exact (back_push _ _).symm
          refine swap A hA hAn ?_
          have hlo := ok.lo A.k A.e.n A.e.d1 b.e.d1 (by
            have : A.e.n = back b.e.n b.e.d1 := by rw [hAc.n]; exact (back_push _ _).symm
            rw [this]; exact hedge)
          rw [← hAc.k] at hlo
          omega
      · right
        refine ⟨c, hc, by rw [c1.n, c2], ?_⟩
        have := ok.hi b.k b.e.n b.e.d1 d hp.1
        rw [c1.k, c2]; omega
      · left
        have hpc : S.pc c.k ≤ u + S.wt b.e.n d + 2 * S.kap := by
          have := ok.hi b.k b.e.n b.e.d1 d hp.1
          rw [c1.k, c2]; omega
        have hn : c.e.n = b.e.n.nbr d := by rw [c1.n, c2]
        by_cases hf : FE c
        · exact swap c hf hn hpc
        · exact ⟨c, hc, hn, by omega, Or.inr (Or.inr hf)⟩
      · rcases hus with hus | hus | hus
        · exact absurd hus c1
        · exact absurd hus c2
        · exact absurd f1 hus
    · refine ⟨e, he, ?_⟩
      have e1 := (h.ent e he).1
      have e2 := est_bound ok e.k (d :: ds) e.e.n e.e.d1 hp h0
      omega

end TR.AbsC
