import Verif.Conn.MergeSpec
/-! Lemmas about the merging code. -/
namespace TR

/-- `x, x+1` lies in the interval -/
def InSpan (sp : Int × Int) (x : Int) : Prop := sp.1 ≤ x ∧ x + 1 ≤ sp.2

/-- intervals without common interior -/
def SepSpan (a b : Int × Int) : Prop := a.2 ≤ b.1 ∨ b.2 ≤ a.1

/-- ghost: the groups of overlapping segments, as the sweep forms them -/
def grp : List Seg → Int → List Seg → List (List Seg)
  | cur, _, [] => [cur]
  | cur, ce, s :: t => if s.b ≥ ce then cur :: grp [s] s.e t else grp (cur ++ [s]) (max ce s.e) t

def gMax : List Seg → Int
  | [] => -2147483648
  | [s] => s.e
  | s :: t => max s.e (gMax t)

def gSpan (G : List Seg) : Int × Int := ((G.head?.map Seg.b).getD 0, gMax G)

theorem gMax_append (G : List Seg) (h : G ≠ []) (s : Seg) : gMax (G ++ [s]) = max (gMax G) s.e := by
  induction G with
  | nil => exact absurd rfl h
  | cons a t ih =>
    cases t with
    | nil => simp [gMax]
    | cons b t =>
      have := ih (by simp)
      simp only [List.cons_append, gMax] at this ⊢
      rw [this]; omega

def isBig (G : List Seg) : Bool := decide (2 ≤ G.length)

theorem helper_groups (t : List Seg) : ∀ (G : List Seg) (vs : List Nat) (sps : List (Int × Int)), G ≠ [] →
    mergeFinish (t.foldl mergeStep ⟨G.length - 1, (gSpan G).1, (gSpan G).2, G.map Seg.idx, vs, sps⟩) =
    (vs ++ ((grp G (gMax G) t).filter isBig).flatMap (·.map Seg.idx),
     sps ++ ((grp G (gMax G) t).filter isBig).map gSpan) := by
  induction t with
  | nil =>
    intro G vs sps hG
    have hl : 1 ≤ G.length := by cases G with | nil => exact absurd rfl hG | cons a t => simp
    simp only [List.foldl_nil, grp, List.filter_cons, List.filter_nil, isBig]
    unfold mergeFinish
    by_cases h : 2 ≤ G.length
    · rw [if_pos (show G.length - 1 ≥ 1 by omega)]; simp [h]
    · rw [if_neg (show ¬ G.length - 1 ≥ 1 by omega)]; simp [h]
  | cons s t ih =>
    intro G vs sps hG
    have hl : 1 ≤ G.length := by cases G with | nil => exact absurd rfl hG | cons a t => simp
    simp only [List.foldl_cons]
    by_cases hs : s.b ≥ gMax G
    · have h1 : mergeStep ⟨G.length - 1, (gSpan G).1, (gSpan G).2, G.map Seg.idx, vs, sps⟩ s =
          ⟨[s].length - 1, (gSpan [s]).1, (gSpan [s]).2, [s].map Seg.idx,
            if G.length - 1 + 1 ≥ 2 then vs ++ G.map Seg.idx else vs,
            if G.length - 1 + 1 ≥ 2 then sps ++ [((gSpan G).1, (gSpan G).2)] else sps⟩ := by
        simp only [mergeStep]
        rw [if_pos (show s.b ≥ (gSpan G).2 from hs)]
        simp [gSpan, gMax]
      rw [h1]
      have := ih [s] (if G.length - 1 + 1 ≥ 2 then vs ++ G.map Seg.idx else vs)
        (if G.length - 1 + 1 ≥ 2 then sps ++ [((gSpan G).1, (gSpan G).2)] else sps) (by simp)
      rw [this]
      have hgm : gMax [s] = s.e := rfl
      rw [grp, if_pos hs, hgm, List.filter_cons]
      by_cases h : 2 ≤ G.length
      · have : isBig G = true := by simp [isBig, h]
        rw [if_pos (by omega), if_pos (by omega), if_pos this]
        simp
      · have : ¬ isBig G = true := by simp [isBig, h]
        rw [if_neg (by omega), if_neg (by omega), if_neg this]
    · have h1 : mergeStep ⟨G.length - 1, (gSpan G).1, (gSpan G).2, G.map Seg.idx, vs, sps⟩ s =
          ⟨(G ++ [s]).length - 1, (gSpan (G ++ [s])).1, (gSpan (G ++ [s])).2, (G ++ [s]).map Seg.idx, vs, sps⟩ := by
        simp only [mergeStep]
        rw [if_neg (show ¬ s.b ≥ (gSpan G).2 from hs)]
        have e1 : (gSpan (G ++ [s])).1 = (gSpan G).1 := by
          cases G with | nil => exact absurd rfl hG | cons a t => simp [gSpan]
        have e2 : (gSpan (G ++ [s])).2 = max (gSpan G).2 s.e := gMax_append G hG s
        rw [e1, e2]
        simp; omega
      rw [h1]
      have := ih (G ++ [s]) vs sps (by simp)
      rw [this, grp, if_neg hs, gMax_append G hG]

/-- what a group looks like: begins at its first segment, and its interval is exactly covered -/
structure GroupOK (G : List Seg) : Prop where
  ne : G ≠ []
  mem : ∀ s ∈ G, (gSpan G).1 ≤ s.b ∧ s.e ≤ (gSpan G).2
  cover : ∀ x, InSpan (gSpan G) x → ∃ s ∈ G, InSpan (s.b, s.e) x

theorem grp_ne (t : List Seg) : ∀ G ce, grp G ce t ≠ [] := by
  induction t with
  | nil => simp [grp]
  | cons s t ih => intro G ce; rw [grp]; split; simp; exact ih _ _

theorem grp_flatten (t : List Seg) : ∀ G ce, (grp G ce t).flatten = G ++ t := by
  induction t with
  | nil => simp [grp]
  | cons s t ih =>
    intro G ce
    rw [grp]; split
    · simp [ih]
    · rw [ih]; simp

theorem groupOK_single (s : Seg) : GroupOK [s] := by
  refine ⟨by simp, ?_, ?_⟩
  · intro t ht; simp at ht; subst ht; simp [gSpan, gMax]
  · intro x hx; exact ⟨s, by simp, by simpa [gSpan, gMax] using hx⟩

theorem groupOK_snoc {G : List Seg} (h : GroupOK G) {s : Seg} (h1 : (gSpan G).1 ≤ s.b) (h2 : s.b < gMax G) :
    GroupOK (G ++ [s]) := by
  have e1 : (gSpan (G ++ [s])).1 = (gSpan G).1 := by
    cases G with | nil => exact absurd rfl h.ne | cons a t => simp [gSpan]
  have e2 : (gSpan (G ++ [s])).2 = max (gSpan G).2 s.e := gMax_append G h.ne s
  have e3 : (gSpan G).2 = gMax G := rfl
  refine ⟨by simp, ?_, ?_⟩
  · intro t ht
    rw [e1, e2]
    rcases List.mem_append.1 ht with ht | ht
    · have := h.mem t ht; omega
    · simp at ht; subst ht; omega
  · intro x hx
    unfold InSpan at hx
    rw [e1, e2] at hx
    by_cases hc : x + 1 ≤ (gSpan G).2
    · obtain ⟨t, ht, hx'⟩ := h.cover x ⟨hx.1, hc⟩
      exact ⟨t, List.mem_append_left _ ht, hx'⟩
    · refine ⟨s, by simp, ?_⟩
      unfold InSpan
      simp only; omega

theorem grp_ok (t : List Seg) : ∀ G, GroupOK G → (∀ s ∈ t, (gSpan G).1 ≤ s.b) →
    t.Pairwise (fun a b => a.b ≤ b.b) →
    (∀ H ∈ grp G (gMax G) t, GroupOK H) ∧
    (grp G (gMax G) t).Pairwise (fun A B => (gSpan A).2 ≤ (gSpan B).1) ∧
    (grp G (gMax G) t).head?.map (fun H => (gSpan H).1) = some (gSpan G).1 := by
  induction t with
  | nil => intro G hG _ _; simp [grp, hG]
  | cons s t ih =>
    intro G hG hs hp
    rw [List.pairwise_cons] at hp
    rw [grp]
    by_cases hc : s.b ≥ gMax G
    · rw [if_pos hc]
      obtain ⟨h1, h2, h3⟩ := ih [s] (groupOK_single s) (by intro x hx; exact hp.1 x hx) hp.2
      have hgm : gMax [s] = s.e := rfl
      rw [hgm] at h1 h2 h3
      refine ⟨?_, ?_, by simp⟩
      · intro H hH
        rcases List.mem_cons.1 hH with rfl | hH
        · exact hG
        · exact h1 H hH
      · rw [List.pairwise_cons]
        refine ⟨?_, h2⟩
        intro H hH
        show gMax G ≤ (gSpan H).1
        -- every later group starts at or after s
        have hall : ∀ H ∈ grp [s] s.e t, s.b ≤ (gSpan H).1 := by
          intro H hH
          have hok := h1 H hH
          cases hHc : H with
          | nil => exact absurd hHc hok.ne
          | cons a r =>
            have ha : a ∈ (grp [s] s.e t).flatten := List.mem_flatten.2 ⟨H, hH, by rw [hHc]; simp⟩
            rw [grp_flatten] at ha
            simp only [gSpan, List.head?_cons, Option.map_some, Option.getD_some]
            rcases List.mem_append.1 ha with ha | ha
            · simp at ha; subst ha; omega
            · exact hp.1 a ha
        have := hall H hH; omega
    · rw [if_neg hc]
      have hok := groupOK_snoc hG (hs s (by simp)) (by omega)
      have e1 : (gSpan (G ++ [s])).1 = (gSpan G).1 := by
        cases G with | nil => exact absurd rfl hG.ne | cons a t => simp [gSpan]
      have := ih (G ++ [s]) hok (by intro x hx; rw [e1]; exact hs x (by simp [hx])) hp.2
      rw [gMax_append G hG.ne, e1] at this
      exact this

theorem pairwise_sym {α : Type} {R : α → α → Prop} (hs : ∀ a b, R a b → R b a) {L : List α}
    (h : L.Pairwise R) : ∀ a ∈ L, ∀ b ∈ L, a ≠ b → R a b := by
  induction L with
  | nil => simp
  | cons x t ih =>
    rw [List.pairwise_cons] at h
    intro a ha b hb hne
    rcases List.mem_cons.1 ha with ha' | ha' <;> rcases List.mem_cons.1 hb with hb' | hb'
    · exact absurd (ha'.trans hb'.symm) hne
    · rw [ha']; exact h.1 b hb'
    · rw [hb']; exact hs _ _ (h.1 a ha')
    · exact ih h.2 a ha' b hb' hne

theorem filter_flatten_sublist {α : Type} (p : List α → Bool) (L : List (List α)) :
    (L.filter p).flatten.Sublist L.flatten := by
  induction L with
  | nil => simp
  | cons a t ih =>
    rw [List.filter_cons]; split
    · simp only [List.flatten_cons]; exact (List.Sublist.refl a).append ih
    · simp only [List.flatten_cons]; exact ih.trans (List.sublist_append_right _ _)

/-- Everything the caller needs to know about the sweep. -/
structure SweepOK (segs : List Seg) (victims : List Nat) (spans : List (Int × Int)) : Prop where
  sub : ∀ v ∈ victims, ∃ s ∈ segs, s.idx = v
  nodup : victims.Nodup
  len : spans.length ≤ victims.length
  cover : ∀ x, (∃ s ∈ segs, InSpan (s.b, s.e) x) ↔
    (∃ sp ∈ spans, InSpan sp x) ∨ ∃ s ∈ segs, s.idx ∉ victims ∧ InSpan (s.b, s.e) x
  pos : ∀ sp ∈ spans, sp.1 < sp.2
  low : ∀ sp ∈ spans, ∃ s ∈ segs, sp.1 = s.b
  sepSpans : spans.Pairwise SepSpan
  sepMixed : ∀ sp ∈ spans, ∀ s ∈ segs, s.idx ∉ victims → SepSpan sp (s.b, s.e)
  sepSingle : ∀ s ∈ segs, ∀ t ∈ segs, s.idx ∉ victims → t.idx ∉ victims → s ≠ t → SepSpan (s.b, s.e) (t.b, t.e)

theorem mergeHelper_groups (s : Seg) (t : List Seg) (h : -2147483648 ≤ s.b) :
    mergeHelper (s :: t) = (((grp [s] s.e t).filter isBig).flatMap (·.map Seg.idx),
      ((grp [s] s.e t).filter isBig).map gSpan) := by
  have h1 := helper_groups t [s] [] [] (by simp)
  have h2 : mergeStep ⟨0, 2147483647, -2147483648, [], [], []⟩ s =
      ⟨[s].length - 1, (gSpan [s]).1, (gSpan [s]).2, [s].map Seg.idx, [], []⟩ := by
    simp only [mergeStep]
    rw [if_pos h]
    simp [gSpan, gMax]
  unfold mergeHelper
  rw [List.foldl_cons, h2, h1]
  rfl

theorem sweep_ok (segs : List Seg) (hs : segs.Pairwise (fun a b => a.b ≤ b.b))
    (hpos : ∀ s ∈ segs, s.b < s.e) (hmin : ∀ s ∈ segs, -2147483648 ≤ s.b)
    (hnd : (segs.map Seg.idx).Nodup) : SweepOK segs (mergeHelper segs).1 (mergeHelper segs).2 := by
  cases segs with
  | nil => refine ⟨?_, ?_, ?_, ?_, ?_, ?_, ?_, ?_, ?_⟩ <;> simp [mergeHelper, mergeFinish]
  | cons s t =>
    rw [mergeHelper_groups s t (hmin s (by simp))]
    rw [List.pairwise_cons] at hs
    obtain ⟨hok, hsep, _⟩ := grp_ok t [s] (groupOK_single s) (fun x hx => hs.1 x hx) hs.2
    have hgm : gMax [s] = s.e := rfl
    rw [hgm] at hok hsep
    have hfl : (grp [s] s.e t).flatten = s :: t := by rw [grp_flatten]; rfl
    generalize hgs : grp [s] s.e t = gs at hok hsep hfl
    have hmem : ∀ x, x ∈ s :: t ↔ ∃ G ∈ gs, x ∈ G := by
      intro x; rw [← hfl, List.mem_flatten]
    have hinj : ∀ x ∈ s :: t, ∀ y ∈ s :: t, x.idx = y.idx → x = y := by
      have : (s :: t).Pairwise (fun a b => a.idx ≠ b.idx) := List.pairwise_map.1 hnd
      intro x hx y hy he
      apply Classical.byContradiction
      intro hne
      exact pairwise_sym (fun a b h => fun h' => h h'.symm) this x hx y hy hne he
    have hfnd : gs.flatten.Nodup := by
      rw [hfl]
      exact (List.pairwise_map.1 hnd).imp (fun h he => h (by rw [he]))
    have hdisj : ∀ G ∈ gs, ∀ H ∈ gs, G ≠ H → ∀ x, x ∈ G → x ∈ H → False := by
      have h := (List.pairwise_flatten.1 hfnd).2
      have := pairwise_sym (R := fun (A B : List Seg) => ∀ x ∈ A, ∀ y ∈ B, x ≠ y)
        (fun a b h x hx y hy he => h y hy x hx he.symm) h
      intro G hG H hH hne x hxG hxH
      exact this G hG H hH hne x hxG x hxH rfl
    have hvic : ∀ v, v ∈ (gs.filter isBig).flatMap (·.map Seg.idx) ↔
        ∃ G ∈ gs, 2 ≤ G.length ∧ ∃ x ∈ G, x.idx = v := by
      intro v
      simp only [List.mem_flatMap, List.mem_filter, isBig, decide_eq_true_eq, List.mem_map]
      constructor
      · rintro ⟨G, ⟨h1, h2⟩, x, h3, h4⟩; exact ⟨G, h1, h2, x, h3, h4⟩
      · rintro ⟨G, h1, h2, x, h3, h4⟩; exact ⟨G, ⟨h1, h2⟩, x, h3, h4⟩
    -- a segment is not a victim exactly when it is alone in its group
    have halone : ∀ x ∈ s :: t, x.idx ∉ (gs.filter isBig).flatMap (·.map Seg.idx) → [x] ∈ gs := by
      intro x hx hnv
      obtain ⟨G, hG, hxG⟩ := (hmem x).1 hx
      have hlen : ¬ 2 ≤ G.length := fun h => hnv ((hvic _).2 ⟨G, hG, h, x, hxG, rfl⟩)
      cases G with
      | nil => simp at hxG
      | cons a r =>
        cases r with
        | nil => simp at hxG; subst hxG; exact hG
        | cons b r => simp at hlen
    have halone' : ∀ x, [x] ∈ gs → x.idx ∉ (gs.filter isBig).flatMap (·.map Seg.idx) := by
      intro x hx hv
      obtain ⟨G, hG, hlen, y, hy, he⟩ := (hvic _).1 hv
      have hxy : y = x := hinj y ((hmem y).2 ⟨G, hG, hy⟩) x ((hmem x).2 ⟨[x], hx, by simp⟩) he
      subst hxy
      refine hdisj [y] hx G hG ?_ y (by simp) hy
      rintro rfl
      simp at hlen
    have hspan : ∀ sp, sp ∈ (gs.filter isBig).map gSpan ↔ ∃ G ∈ gs, 2 ≤ G.length ∧ gSpan G = sp := by
      intro sp
      simp only [List.mem_map, List.mem_filter, isBig, decide_eq_true_eq]
      constructor
      · rintro ⟨G, ⟨h1, h2⟩, h3⟩; exact ⟨G, h1, h2, h3⟩
      · rintro ⟨G, h1, h2, h3⟩; exact ⟨G, ⟨h1, h2⟩, h3⟩
    have hsepG : ∀ G ∈ gs, ∀ H ∈ gs, G ≠ H → SepSpan (gSpan G) (gSpan H) :=
      pairwise_sym (fun a b h => Or.symm h) (hsep.imp (fun h => Or.inl h))
    have hone : ∀ x : Seg, gSpan [x] = (x.b, x.e) := fun x => rfl
    refine ⟨?_, ?_, ?_, ?_, ?_, ?_, ?_, ?_, ?_⟩
    · intro v hv
      obtain ⟨G, hG, _, x, hx, he⟩ := (hvic v).1 hv
      exact ⟨x, (hmem x).2 ⟨G, hG, hx⟩, he⟩
    · -- victims are distinct
      have hsub : ((gs.filter isBig).flatMap (·.map Seg.idx)).Sublist ((s :: t).map Seg.idx) := by
        have : (gs.filter isBig).flatMap (·.map Seg.idx) = ((gs.filter isBig).flatten).map Seg.idx := by
          rw [List.flatMap_def, List.map_flatten]
        rw [this, ← hfl]
        exact (filter_flatten_sublist isBig gs).map _
      exact hsub.nodup hnd
    · have : ∀ L : List (List Seg), (∀ G ∈ L, G ≠ []) → L.length ≤ (L.flatMap (·.map Seg.idx)).length := by
        intro L
        induction L with
        | nil => simp
        | cons a L ih =>
          intro h
          have h1 := ih (fun G hG => h G (by simp [hG]))
          have h2 : 0 < a.length := List.length_pos_iff.2 (h a (by simp))
          simp only [List.flatMap_cons, List.length_cons, List.length_append, List.length_map]
          omega
      rw [List.length_map]
      exact this _ (fun G hG => (hok G (List.mem_filter.1 hG).1).ne)
    · intro x
      constructor
      · rintro ⟨y, hy, hin⟩
        by_cases hv : y.idx ∈ (gs.filter isBig).flatMap (·.map Seg.idx)
        · left
          obtain ⟨G, hG, hlen, z, hz, he⟩ := (hvic _).1 hv
          have hzy : z = y := hinj z ((hmem z).2 ⟨G, hG, hz⟩) y hy he
          subst hzy
          refine ⟨gSpan G, (hspan _).2 ⟨G, hG, hlen, rfl⟩, ?_⟩
          have := (hok G hG).mem z hz
          unfold InSpan at hin ⊢
          simp only at hin
          omega
        · exact .inr ⟨y, hy, hv, hin⟩
      · rintro (⟨sp, hsp, hin⟩ | ⟨y, hy, _, hin⟩)
        · obtain ⟨G, hG, _, rfl⟩ := (hspan _).1 hsp
          obtain ⟨y, hy, h⟩ := (hok G hG).cover x hin
          exact ⟨y, (hmem y).2 ⟨G, hG, hy⟩, h⟩
        · exact ⟨y, hy, hin⟩
    · intro sp hsp
      obtain ⟨G, hG, _, rfl⟩ := (hspan _).1 hsp
      obtain ⟨y, hy⟩ := List.exists_mem_of_ne_nil _ (hok G hG).ne
      have h1 := (hok G hG).mem y hy
      have h2 := hpos y ((hmem y).2 ⟨G, hG, hy⟩)
      omega
    · intro sp hsp
      obtain ⟨G, hG, hlen, rfl⟩ := (hspan _).1 hsp
      cases hGc : G with
      | nil => rw [hGc] at hlen; simp at hlen
      | cons a r => exact ⟨a, (hmem a).2 ⟨G, hG, by rw [hGc]; simp⟩, rfl⟩
    · apply List.pairwise_map.2
      exact (hsep.sublist List.filter_sublist).imp (fun h => Or.inl h)
    · intro sp hsp x hx hnv
      obtain ⟨G, hG, hlen, rfl⟩ := (hspan _).1 hsp
      rw [← hone]
      apply hsepG G hG _ (halone x hx hnv)
      rintro rfl
      simp at hlen
    · intro x hx y hy hnx hny hne
      rw [← hone, ← hone]
      apply hsepG _ (halone x hx hnx) _ (halone y hy hny)
      intro h; simp at h; exact hne h

/-! ### sorting -/

theorem insSeg_mem (s : Seg) (L : List Seg) (x : Seg) : x ∈ insSeg s L ↔ x = s ∨ x ∈ L := by
  induction L with
  | nil => simp [insSeg]
  | cons t r ih =>
    rw [insSeg]; split
    · simp
    · simp only [List.mem_cons, ih]; constructor <;> (rintro (h | h | h) <;> simp [h])

theorem insSeg_perm (s : Seg) (L : List Seg) : (insSeg s L).Perm (s :: L) := by
  induction L with
  | nil => simp [insSeg]
  | cons t r ih =>
    rw [insSeg]; split
    · exact List.Perm.refl _
    · exact (ih.cons t).trans (List.Perm.swap s t r)

theorem sortSegs_perm (L : List Seg) : (sortSegs L).Perm L := by
  induction L with
  | nil => exact List.Perm.refl _
  | cons s r ih => exact (insSeg_perm s _).trans (ih.cons s)

theorem le_b {s t : Seg} (h : Seg.le s t = true) : s.b ≤ t.b := by
  unfold Seg.le at h
  split at h
  · omega
  · have := of_decide_eq_true h; omega

theorem not_le_b {s t : Seg} (h : ¬ Seg.le s t = true) : t.b ≤ s.b := by
  unfold Seg.le at h
  split at h
  · omega
  · simp at h; omega

theorem insSeg_sorted (s : Seg) (L : List Seg) (h : L.Pairwise (fun a b => a.b ≤ b.b)) :
    (insSeg s L).Pairwise (fun a b => a.b ≤ b.b) := by
  induction L with
  | nil => simp [insSeg]
  | cons t r ih =>
    rw [List.pairwise_cons] at h
    rw [insSeg]; split
    · rename_i hc
      rw [List.pairwise_cons, List.pairwise_cons]
      refine ⟨?_, h⟩
      intro x hx
      have := le_b hc
      rcases List.mem_cons.1 hx with rfl | hx
      · exact this
      · have := h.1 x hx; omega
    · rename_i hc
      rw [List.pairwise_cons]
      refine ⟨?_, ih h.2⟩
      intro x hx
      rcases (insSeg_mem s r x).1 hx with rfl | hx
      · exact not_le_b hc
      · exact h.1 x hx

theorem sortSegs_sorted (L : List Seg) : (sortSegs L).Pairwise (fun a b => a.b ≤ b.b) := by
  induction L with
  | nil => exact List.Pairwise.nil
  | cons s r ih => exact insSeg_sorted s _ ih

end TR
