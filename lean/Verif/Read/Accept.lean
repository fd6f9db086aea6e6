import Verif.Read.Nets
import Verif.Def.Sweep
namespace TR

/-! ### ids -/

structure IdInv (B : RBlock) : Prop where
  lens : ∀ I ∈ B.insts, I.terms.length = I.cell.terms.length ∧ I.obs.length = I.cell.obs.length
  cellT : (B.insts.flatMap RInst.terms).Nodup
  topT : (B.pins.map TopPin.id).Nodup
  apartT : ∀ a ∈ B.insts.flatMap RInst.terms, ∀ b ∈ B.pins.map TopPin.id, a ≠ b
  ltT : ∀ a, a ∈ B.insts.flatMap RInst.terms ∨ a ∈ B.pins.map TopPin.id → a < B.nTerm
  cellO : (B.insts.flatMap RInst.obs).Nodup
  blkO : (B.blks.map RBlk.id).Nodup
  apartO : ∀ a ∈ B.insts.flatMap RInst.obs, ∀ b ∈ B.blks.map RBlk.id, a ≠ b
  ltO : ∀ a, a ∈ B.insts.flatMap RInst.obs ∨ a ∈ B.blks.map RBlk.id → a < B.nBlk

theorem IdInv.same {B B' : RBlock} (h : IdInv B) (e1 : B'.insts = B.insts) (e2 : B'.pins = B.pins)
    (e3 : B'.blks = B.blks) (e4 : B'.nTerm = B.nTerm) (e5 : B'.nBlk = B.nBlk) : IdInv B' := by
  obtain ⟨a, b, c, d, e, f, g, i, j⟩ := h
  exact ⟨by rw [e1]; exact a, by rw [e1]; exact b, by rw [e2]; exact c, by rw [e1, e2]; exact d,
    by rw [e1, e2, e4]; exact e, by rw [e1]; exact f, by rw [e3]; exact g, by rw [e1, e3]; exact i,
    by rw [e1, e3, e5]; exact j⟩

theorem range_shift_nodup (n k : Nat) : ((List.range n).map (k + ·)).Nodup := by
  unfold List.Nodup
  rw [List.pairwise_map]
  exact List.nodup_range.imp (fun h e => h (by omega))

theorem readIds (E : REnv) (r : DefRec) (B B' : RBlock) (h : IdInv B) (hr : readRec E B r = some B') : IdInv B' := by
  cases r with
  | tracks t =>
    simp only [readRec, readTracks, Option.bind_eq_some_iff] at hr
    obtain ⟨l, _, hr⟩ := hr
    split at hr
    · simp only [Option.some.injEq] at hr; subst hr; exact h.same rfl rfl rfl rfl rfl
    · split at hr
      · simp only [Option.some.injEq] at hr; subst hr; exact h.same rfl rfl rfl rfl rfl
      · cases hr
  | via v =>
    simp only [readRec, readVia] at hr
    split at hr
    · simp only [Option.map_eq_some_iff] at hr; obtain ⟨_, _, rfl⟩ := hr; exact h.same rfl rfl rfl rfl rfl
    · split at hr
      · cases hr
      · split at hr
        · simp only [Option.some.injEq] at hr; subst hr; exact h
        · simp only [Option.map_eq_some_iff] at hr; obtain ⟨_, _, rfl⟩ := hr; exact h.same rfl rfl rfl rfl rfl
  | comp c =>
    simp only [readRec, readComp, Option.bind_eq_some_iff] at hr
    obtain ⟨cell, hc, hr⟩ := hr
    split at hr
    · cases hr
    · simp only [Option.some.injEq] at hr; subst hr
      obtain ⟨a, b, c, d, e, f, g, i, j⟩ := h
      refine ⟨?_, ?_, c, ?_, ?_, ?_, g, ?_, ?_⟩
      · intro I hI
        simp only [List.mem_append, List.mem_singleton] at hI
        rcases hI with hI | rfl
        · exact a I hI
        · simp
      · rw [List.flatMap_append, List.flatMap_singleton, List.nodup_append]
        refine ⟨b, range_shift_nodup _ _, ?_⟩
        intro x hx y hy
        have := e x (Or.inl hx)
        simp only [List.mem_map] at hy
        obtain ⟨k, _, rfl⟩ := hy
        omega
      · intro x hx y hy
        rw [List.flatMap_append, List.flatMap_singleton, List.mem_append] at hx
        rcases hx with hx | hx
        · exact d x hx y hy
        · have := e y (Or.inr hy)
          simp only [List.mem_map] at hx
          obtain ⟨k, _, rfl⟩ := hx
          omega
      · intro x hx
        dsimp only
        rw [List.flatMap_append, List.flatMap_singleton, List.mem_append] at hx
        rcases hx with (hx | hx) | hx
        · have := e x (Or.inl hx); omega
        · simp only [List.mem_map, List.mem_range] at hx
          obtain ⟨k, hk, rfl⟩ := hx
          omega
        · have := e x (Or.inr hx); omega
      · rw [List.flatMap_append, List.flatMap_singleton, List.nodup_append]
        refine ⟨f, range_shift_nodup _ _, ?_⟩
        intro x hx y hy
        have := j x (Or.inl hx)
        simp only [List.mem_map] at hy
        obtain ⟨k, _, rfl⟩ := hy
        omega
      · intro x hx y hy
        rw [List.flatMap_append, List.flatMap_singleton, List.mem_append] at hx
        rcases hx with hx | hx
        · exact i x hx y hy
        · have := j y (Or.inr hy)
          simp only [List.mem_map] at hx
          obtain ⟨k, _, rfl⟩ := hx
          omega
      · intro x hx
        dsimp only
        rw [List.flatMap_append, List.flatMap_singleton, List.mem_append] at hx
        rcases hx with (hx | hx) | hx
        · have := j x (Or.inl hx); omega
        · simp only [List.mem_map, List.mem_range] at hx
          obtain ⟨k, hk, rfl⟩ := hx
          omega
        · have := j x (Or.inr hx); omega
  | pin p =>
    simp only [readRec, readPin, Option.bind_eq_some_iff] at hr
    obtain ⟨u, hu, hr⟩ := hr
    split at hr
    · cases hr
    · simp only [Option.bind_eq_some_iff, Option.map_eq_some_iff] at hr
      obtain ⟨_, _, _, _, rfl⟩ := hr
      obtain ⟨a, b, c, d, e, f, g, i, j⟩ := h
      refine ⟨a, b, ?_, ?_, ?_, f, g, i, j⟩
      · simp only [List.map_append, List.map_cons, List.map_nil]
        rw [List.nodup_append]
        refine ⟨c, by simp, ?_⟩
        intro x hx y hy
        simp only [List.mem_singleton] at hy
        have := e x (Or.inr hx); omega
      · intro x hx y hy
        simp only [List.map_append, List.map_cons, List.map_nil, List.mem_append, List.mem_singleton] at hy
        rcases hy with hy | hy
        · exact d x hx y hy
        · have := e x (Or.inl hx); omega
      · intro x hx
        dsimp only
        simp only [List.map_append, List.map_cons, List.map_nil, List.mem_append, List.mem_singleton] at hx
        rcases hx with hx | hx | hx
        · have := e x (Or.inl hx); omega
        · have := e x (Or.inr hx); omega
        · omega
  | blk q =>
    simp only [readRec, Option.some.injEq] at hr
    subst hr
    obtain ⟨a, b, c, d, e, f, g, i, j⟩ := h
    have skip : IdInv { B with nBlk := B.nBlk + 1 } :=
      ⟨a, b, c, d, e, f, g, i, fun x hx => by have := j x hx; dsimp only; omega⟩
    have keep : ∀ rs, IdInv { B with nBlk := B.nBlk + 1, blks := B.blks ++ [⟨B.nBlk, rs⟩] } := by
      intro rs
      refine ⟨a, b, c, d, e, f, ?_, ?_, ?_⟩
      · simp only [List.map_append, List.map_cons, List.map_nil]
        rw [List.nodup_append]
        refine ⟨g, by simp, ?_⟩
        intro x hx y hy
        simp only [List.mem_singleton] at hy
        have := j x (Or.inr hx); omega
      · intro x hx y hy
        simp only [List.map_append, List.map_cons, List.map_nil, List.mem_append, List.mem_singleton] at hy
        rcases hy with hy | hy
        · exact i x hx y hy
        · have := j x (Or.inl hx); omega
      · intro x hx
        dsimp only
        simp only [List.map_append, List.map_cons, List.map_nil, List.mem_append, List.mem_singleton] at hx
        rcases hx with hx | hx | hx
        · have := j x (Or.inl hx); omega
        · have := j x (Or.inr hx); omega
        · omega
    unfold readBlk
    dsimp only
    split
    · split
      · exact skip
      · split
        · exact skip
        · exact keep _
    · split
      · exact skip
      · exact keep _
  | net n =>
    simp only [readRec, readNet, Option.bind_eq_some_iff, Option.map_eq_some_iff] at hr
    obtain ⟨ps, hps, f, _, u, hu, rfl⟩ := hr
    exact h.same rfl rfl rfl rfl rfl

theorem idInv (E : REnv) (vs : List RViaDef) (rs : List DefRec) (B : RBlock) (h : readDesign E vs rs = some B) :
    IdInv B := by
  refine readRecs_inv E (P := fun _ B => IdInv B) _ ?_ (fun pre r B B' => readIds E r B B') rs B h
  exact ⟨by simp, by simp, by simp, by simp, by simp, by simp, by simp, by simp, by simp⟩

/-! ### what is accepted -/

theorem useKind_iff (u : Option String) : (∃ k, useKind u = some k) ↔ UseKnown u := by
  cases u with
  | none => simp [useKind, UseKnown]
  | some s =>
    unfold useKind UseKnown
    constructor
    · rintro ⟨k, hk⟩ t ht
      simp only [Option.some.injEq] at ht; subst ht
      dsimp only at hk
      split at hk
      · rename_i h; exact Or.inl h
      · split at hk
        · rename_i h; exact Or.inr (Or.inl h)
        · split at hk
          · rename_i h; exact Or.inr (Or.inr (Or.inl h))
          · split at hk
            · rename_i h; exact Or.inr (Or.inr (Or.inr h))
            · cases hk
    · intro h
      rcases h s rfl with h | h | h | h <;> subst h
      · exact ⟨.normal, by decide⟩
      · exact ⟨.clock, by decide⟩
      · exact ⟨.power, by decide⟩
      · exact ⟨.ground, by decide⟩

theorem rdTok_layer (T : DefTech) (st st' : RdSt) (t : PathTok) (h : rdTok T st t = some st') :
    (∀ n, t = .layer n → (∃ l, T.layerNum n = some l) ∧ st'.layer = n) ∧
    ((∀ n, t ≠ .layer n) → st'.layer = st.layer) := by
  cases t with
  | layer n =>
    simp only [rdTok] at h
    split at h
    · rename_i hs
      simp only [Option.some.injEq] at h; subst h
      refine ⟨?_, fun hh => absurd rfl (hh n)⟩
      intro m hm; cases hm
      exact ⟨Option.isSome_iff_exists.1 hs, rfl⟩
    · cases h
  | via n => simp only [rdTok, Option.some.injEq] at h; subst h; exact ⟨by simp, fun _ => rfl⟩
  | width w => simp only [rdTok, Option.some.injEq] at h; subst h; exact ⟨by simp, fun _ => rfl⟩
  | point x y =>
    simp only [rdTok, Option.some.injEq] at h; subst h
    exact ⟨by simp, fun _ => by split <;> rfl⟩
  | flush x y e =>
    simp only [rdTok, Option.some.injEq] at h; subst h
    exact ⟨by simp, fun _ => by split <;> rfl⟩
  | shape => simp only [rdTok, Option.some.injEq] at h; subst h; exact ⟨by simp, fun _ => rfl⟩
  | rect a b c d => simp only [rdTok, Option.some.injEq] at h; subst h; exact ⟨by simp, fun _ => rfl⟩
  | virt x y =>
    simp only [rdTok, Option.some.injEq] at h; subst h
    exact ⟨by simp, fun _ => by split <;> rfl⟩

theorem rdTok_some (T : DefTech) (st : RdSt) (t : PathTok) (h : ∀ n, t = .layer n → ∃ l, T.layerNum n = some l) :
    ∃ st', rdTok T st t = some st' := by
  cases t with
  | layer n =>
    obtain ⟨l, hl⟩ := h n rfl
    simp only [rdTok, hl, Option.isSome_some, if_true]; exact ⟨_, rfl⟩
  | _ => exact ⟨_, rfl⟩

theorem rdToks_iff (T : DefTech) (st : RdSt) (p : List PathTok) :
    (∃ st', rdToks T st p = some st' ∧ ∃ l, T.layerNum st'.layer = some l) ↔
      (∀ n, PathTok.layer n ∈ p → ∃ l, T.layerNum n = some l) ∧
      ((∃ n, PathTok.layer n ∈ p) ∨ ∃ l, T.layerNum st.layer = some l) := by
  induction p generalizing st with
  | nil => simp [rdToks]
  | cons t p ih =>
    simp only [rdToks]
    constructor
    · rintro ⟨st', h, hl⟩
      rw [Option.bind_eq_some_iff] at h
      obtain ⟨s1, h1, h2⟩ := h
      obtain ⟨a, b⟩ := rdTok_layer T st s1 t h1
      obtain ⟨c, d⟩ := (ih s1).1 ⟨st', h2, hl⟩
      refine ⟨?_, ?_⟩
      · intro n hn
        rw [List.mem_cons] at hn
        rcases hn with hn | hn
        · exact (a n hn.symm).1
        · exact c n hn
      · rcases d with ⟨n, hn⟩ | d
        · exact Or.inl ⟨n, List.mem_cons_of_mem _ hn⟩
        · by_cases ht : ∃ n, t = .layer n
          · obtain ⟨n, rfl⟩ := ht; exact Or.inl ⟨n, List.mem_cons_self⟩
          · right; rw [← b (fun n hn => ht ⟨n, hn⟩)]; exact d
    · rintro ⟨h1, h2⟩
      obtain ⟨s1, hs⟩ := rdTok_some T st t (fun n hn => h1 n (by rw [hn]; exact List.mem_cons_self))
      obtain ⟨a, b⟩ := rdTok_layer T st s1 t hs
      have : (∃ n, PathTok.layer n ∈ p) ∨ ∃ l, T.layerNum s1.layer = some l := by
        by_cases ht : ∃ n, t = .layer n
        · obtain ⟨n, rfl⟩ := ht
          right; rw [(a n rfl).2]; exact (a n rfl).1
        · rcases h2 with ⟨n, hn⟩ | h2
          · rw [List.mem_cons] at hn
            rcases hn with hn | hn
            · exact absurd ⟨n, hn.symm⟩ ht
            · exact Or.inl ⟨n, hn⟩
          · right; rw [b (fun n hn => ht ⟨n, hn⟩)]; exact h2
      obtain ⟨st', h3, h4⟩ := (ih s1).2 ⟨fun n hn => h1 n (List.mem_cons_of_mem _ hn), this⟩
      exact ⟨st', by rw [hs]; exact h3, h4⟩

theorem rdPath_iff (T : DefTech) (h0 : T.layerNum "" = none) (net : Nat) (p : List PathTok) :
    (∃ x, rdPath T net p = some x) ↔
      (∃ n, PathTok.layer n ∈ p) ∧ ∀ n, PathTok.layer n ∈ p → ∃ l, T.layerNum n = some l := by
  have := rdToks_iff T {} p
  simp only [show ({} : RdSt).layer = "" from rfl, h0, reduceCtorEq, exists_false, or_false] at this
  rw [and_comm, ← this]
  unfold rdPath
  constructor
  · rintro ⟨x, h⟩
    rw [Option.bind_eq_some_iff] at h
    obtain ⟨st, h1, h2⟩ := h
    rw [Option.map_eq_some_iff] at h2
    obtain ⟨l, hl, _⟩ := h2
    exact ⟨st, h1, l, hl⟩
  · rintro ⟨st, h1, l, hl⟩
    rw [h1]; simp only [Option.bind_some, hl, Option.map_some]; exact ⟨_, rfl⟩

theorem rdNet_iff (T : DefTech) (h0 : T.layerNum "" = none) (net : Nat) (ps : List (List PathTok)) :
    (∃ x, rdNet T net ps = some x) ↔ ∀ p ∈ ps,
      (∃ n, PathTok.layer n ∈ p) ∧ ∀ n, PathTok.layer n ∈ p → ∃ l, T.layerNum n = some l := by
  induction ps with
  | nil => simp [rdNet]
  | cons p ps ih =>
    simp only [List.mem_cons, forall_eq_or_imp, ← ih, ← rdPath_iff T h0 net p, rdNet, Option.bind_eq_some_iff,
      Option.map_eq_some_iff]
    constructor
    · rintro ⟨x, a, ha, b, hb, _⟩; exact ⟨⟨a, ha⟩, b, hb⟩
    · rintro ⟨⟨a, ha⟩, b, hb⟩; exact ⟨_, a, ha, b, hb, rfl⟩

theorem viaRects_some (E : REnv) (rs : List (String × Int × Int × Int × Int)) (xs : List (Int × Box))
    (h : viaRects E rs = some xs) : (∀ r ∈ rs, ∃ l, E.layerNum r.1 = some l) ∧
      ∀ l b, (l, b) ∈ xs ↔ ∃ r ∈ rs, E.layerNum r.1 = some l ∧ b = Box.mk4 r.2.1 r.2.2.1 r.2.2.2.1 r.2.2.2.2 := by
  induction rs generalizing xs with
  | nil => simp only [viaRects, Option.some.injEq] at h; subst h; simp
  | cons r rs ih =>
    obtain ⟨n, xl, yl, xh, yh⟩ := r
    simp only [viaRects, Option.bind_eq_some_iff, Option.map_eq_some_iff] at h
    obtain ⟨l, hl, fs, hf, rfl⟩ := h
    obtain ⟨h1, h2⟩ := ih fs hf
    refine ⟨?_, ?_⟩
    · intro r hr
      rw [List.mem_cons] at hr
      rcases hr with rfl | hr
      · exact ⟨l, hl⟩
      · exact h1 r hr
    · intro l' b
      simp only [List.mem_cons, Prod.mk.injEq, h2]
      constructor
      · rintro (⟨rfl, rfl⟩ | ⟨r, hr, h⟩)
        · exact ⟨_, Or.inl rfl, hl, rfl⟩
        · exact ⟨r, Or.inr hr, h⟩
      · rintro ⟨r, rfl | hr, h3, h4⟩
        · left; simp only at h3; rw [hl] at h3; simp only [Option.some.injEq] at h3; exact ⟨h3.symm, h4⟩
        · exact Or.inr ⟨r, hr, h3, h4⟩

theorem viaRects_none (E : REnv) (rs : List (String × Int × Int × Int × Int)) (h : viaRects E rs = none) :
    ∃ r ∈ rs, E.layerNum r.1 = none := by
  induction rs with
  | nil => simp [viaRects] at h
  | cons r rs ih =>
    obtain ⟨n, xl, yl, xh, yh⟩ := r
    simp only [viaRects] at h
    cases hn : E.layerNum n with
    | none => exact ⟨_, List.mem_cons_self, hn⟩
    | some l =>
      rw [hn] at h
      simp only [Option.bind_some, Option.map_eq_none_iff] at h
      obtain ⟨r, hr, h'⟩ := ih h
      exact ⟨r, List.mem_cons_of_mem _ hr, h'⟩

/-- strictly increasing lists with the same elements are equal -/
theorem increasing_ext (a b : List Int) (ha : a.Pairwise (fun x y => intLt x y = true))
    (hb : b.Pairwise (fun x y => intLt x y = true)) (h : ∀ x, x ∈ a ↔ x ∈ b) : a = b := by
  induction a generalizing b with
  | nil =>
    cases b with
    | nil => rfl
    | cons y b => exact absurd ((h y).2 List.mem_cons_self) (by simp)
  | cons x a ih =>
    cases b with
    | nil => exact absurd ((h x).1 List.mem_cons_self) (by simp)
    | cons y b =>
      rw [List.pairwise_cons] at ha hb
      simp only [intLt, decide_eq_true_eq] at ha hb
      have e : x = y := by
        have h1 := (h x).1 List.mem_cons_self
        have h2 := (h y).2 List.mem_cons_self
        rw [List.mem_cons] at h1 h2
        rcases h1 with h1 | h1
        · exact h1
        · rcases h2 with h2 | h2
          · exact h2.symm
          · have := ha.1 y h2; have := hb.1 x h1; omega
      subst e
      refine congrArg _ (ih b (by simpa [intLt] using ha.2) (by simpa [intLt] using hb.2) ?_)
      intro z
      have := h z
      rw [List.mem_cons, List.mem_cons] at this
      constructor
      · intro hz
        rcases this.1 (Or.inr hz) with h1 | h1
        · have := ha.1 z hz; omega
        · exact h1
      · intro hz
        rcases this.2 (Or.inr hz) with h1 | h1
        · have := hb.1 z hz; omega
        · exact h1

/-- the keys of the rectangles are three consecutive layers exactly if a via is made of them -/
theorem rectVia_iff (name : String) (xs : List (Int × Box)) (d : RViaDef) : rectVia name xs = some d ↔
    ∃ a : Int, (∀ l, (∃ b, (l, b) ∈ xs) ↔ l = a ∨ l = a + 1 ∨ l = a + 2) ∧
      d = ⟨name, xs.filter (fun r => r.1 = a), xs.filter (fun r => r.1 = a + 1), xs.filter (fun r => r.1 = a + 2)⟩ := by
  have hm : ∀ l, l ∈ sortKeys intLt (xs.map Prod.fst) ↔ ∃ b, (l, b) ∈ xs := by
    intro l
    rw [mem_sortKeys keyLt_int, List.mem_map]
    constructor
    · rintro ⟨⟨l', b⟩, h, rfl⟩; exact ⟨b, h⟩
    · rintro ⟨b, h⟩; exact ⟨(l, b), h, rfl⟩
  have hs := sortKeys_sorted keyLt_int (xs.map Prod.fst)
  unfold rectVia
  constructor
  · intro h
    split at h
    · rename_i a b c heq
      split at h
      · rename_i hac
        simp only [Option.some.injEq] at h
        rw [heq] at hm hs
        simp only [List.pairwise_cons, List.mem_cons, intLt, decide_eq_true_eq] at hs
        have hab := hs.1 b (Or.inl rfl)
        have hbc := hs.2.1 c (Or.inl rfl)
        have eb : b = a + 1 := by omega
        have ec : c = a + 2 := by omega
        subst eb; subst ec
        refine ⟨a, ?_, h.symm⟩
        intro l; rw [← hm]; simp
      · cases h
    · cases h
  · rintro ⟨a, ha, rfl⟩
    have : sortKeys intLt (xs.map Prod.fst) = [a, a + 1, a + 2] := by
      refine increasing_ext _ _ hs ?_ ?_
      · simp [intLt]; omega
      · intro x; rw [hm, ha]; simp
    rw [this]
    simp

theorem pinRects_some (E : REnv) (t : Xform) (rs : List (String × Int × Int × Int × Int)) :
    (∃ x, pinRects E t rs = some x) ↔ ∀ r ∈ rs, ∃ l, E.layerNum r.1 = some l := by
  induction rs with
  | nil => simp [pinRects]
  | cons r rs ih =>
    obtain ⟨n, xl, yl, xh, yh⟩ := r
    simp only [List.mem_cons, forall_eq_or_imp, ← ih, pinRects, Option.bind_eq_some_iff, Option.map_eq_some_iff]
    constructor
    · rintro ⟨x, a, ha, b, hb, _⟩; exact ⟨⟨a, ha⟩, b, hb⟩
    · rintro ⟨⟨a, ha⟩, b, hb⟩; exact ⟨_, a, ha, b, hb, rfl⟩

theorem pinPolys_some (E : REnv) (t : Xform) (rs : List (String × List Point)) :
    (∃ x, pinPolys E t rs = some x) ↔ ∀ r ∈ rs, ∃ l, E.layerNum r.1 = some l := by
  induction rs with
  | nil => simp [pinPolys]
  | cons r rs ih =>
    obtain ⟨n, pts⟩ := r
    simp only [List.mem_cons, forall_eq_or_imp, ← ih, pinPolys, Option.bind_eq_some_iff, Option.map_eq_some_iff]
    constructor
    · rintro ⟨x, a, ha, b, hb, _⟩; exact ⟨⟨a, ha⟩, b, hb⟩
    · rintro ⟨⟨a, ha⟩, b, hb⟩; exact ⟨_, a, ha, b, hb, rfl⟩

theorem readVia_iff (E : REnv) (B : RBlock) (v : DefVia) : (∃ B', readVia E B v = some B') ↔ ViaFits E v := by
  unfold readVia ViaFits
  cases v.gen with
  | some g =>
    simp only [ruleVia, Option.map_eq_some_iff, Option.bind_eq_some_iff]
    constructor
    · rintro ⟨_, _, ⟨c, hc, b, hb, t, ht, _⟩, _⟩; exact ⟨⟨b, hb⟩, ⟨c, hc⟩, t, ht⟩
    · rintro ⟨⟨b, hb⟩, ⟨c, hc⟩, t, ht⟩; exact ⟨_, _, ⟨c, hc, b, hb, t, ht, rfl⟩, rfl⟩
  | none =>
    dsimp only
    cases v.polys with
    | true => simp
    | false =>
      simp only [Bool.false_eq_true, if_false, true_and]
      cases hx : viaRects E v.rects with
      | none =>
        simp only [Option.some.injEq, exists_eq', true_iff]
        exact Or.inl (viaRects_none E _ hx)
      | some xs =>
        obtain ⟨h1, h2⟩ := viaRects_some E _ _ hx
        have h3 : ¬ ∃ r ∈ v.rects, E.layerNum r.1 = none := by
          rintro ⟨r, hr, hn⟩
          obtain ⟨l, hl⟩ := h1 r hr
          rw [hn] at hl; cases hl
        simp only [h3, false_or, Option.map_eq_some_iff, rectVia_iff]
        have h4 : ∀ l, (∃ b, (l, b) ∈ xs) ↔ ∃ r ∈ v.rects, E.layerNum r.1 = some l := by
          intro l
          constructor
          · rintro ⟨b, hb⟩
            obtain ⟨r, hr, hl, _⟩ := (h2 l b).1 hb
            exact ⟨r, hr, hl⟩
          · rintro ⟨r, hr, hl⟩
            exact ⟨_, (h2 l _).2 ⟨r, hr, hl, rfl⟩⟩
        simp only [h4]
        constructor
        · rintro ⟨_, _, ⟨a, ha, _⟩, _⟩; exact ⟨a, ha⟩
        · rintro ⟨a, ha⟩; exact ⟨_, _, ⟨a, ha, rfl⟩, rfl⟩

/-- one record -/
theorem readRec_iff (E : REnv) (h0 : E.layerNum "" = none) (pre : List DefRec) (B : RBlock) (h : PlaceInv E pre B)
    (r : DefRec) : (∃ B', readRec E B r = some B') ↔ Fits E pre r := by
  cases r with
  | tracks t =>
    simp only [readRec, readTracks, Fits, Option.bind_eq_some_iff]
    constructor
    · rintro ⟨B', l, hl, hr⟩
      refine ⟨⟨l, hl⟩, ?_⟩
      split at hr
      · rename_i hx; exact Or.inl hx
      · split at hr
        · rename_i hy; exact Or.inr hy
        · cases hr
    · rintro ⟨⟨l, hl⟩, hx | hy⟩
      · exact ⟨_, l, hl, by rw [if_pos hx]⟩
      · exact ⟨_, l, hl, by rw [if_neg (by rw [hy]; decide), if_pos hy]⟩
  | via v => exact readVia_iff E B v
  | comp c =>
    simp only [readRec, readComp, Fits, Option.bind_eq_some_iff]
    have hany : B.insts.any (fun i => i.name == c.id) = true ↔ ∃ d ∈ compsOf pre, d.id = c.id := by
      rw [List.any_eq_true]
      constructor
      · rintro ⟨I, hI, hn⟩
        obtain ⟨i, hi, e⟩ := List.getElem_of_mem hI
        obtain ⟨d, hd, hR⟩ := h.insts.left (List.getElem?_eq_some_iff.2 ⟨hi, e⟩)
        exact ⟨d, List.mem_of_getElem? hd, by rw [← hR.name]; simpa using hn⟩
      · rintro ⟨d, hd, hn⟩
        obtain ⟨i, hi, e⟩ := List.getElem_of_mem hd
        obtain ⟨I, hI, hR⟩ := h.insts.right (List.getElem?_eq_some_iff.2 ⟨hi, e⟩)
        exact ⟨I, List.mem_of_getElem? hI, by rw [hR.name]; simpa using hn⟩
    constructor
    · rintro ⟨B', cell, hc, hr⟩
      refine ⟨⟨cell, (cellNamed_iff _ _ _).1 hc⟩, ?_⟩
      intro d hd hn
      rw [if_pos (hany.2 ⟨d, hd, hn⟩)] at hr; cases hr
    · rintro ⟨⟨cell, hc⟩, hn⟩
      have hno : ¬ B.insts.any (fun i => i.name == c.id) = true := by
        intro hh
        obtain ⟨d, hd, he⟩ := hany.1 hh
        exact hn d hd he
      exact ⟨_, cell, (cellNamed_iff _ _ _).2 hc, by rw [if_neg hno]⟩
  | pin p =>
    simp only [readRec, readPin, Fits, ← useKind_iff]
    cases hu : useKind p.use with
    | none => simp
    | some u =>
      simp only [Option.bind_some]
      cases hm : p.multi with
      | true => simp
      | false =>
        simp only [Bool.false_eq_true, if_false, Option.bind_eq_some_iff, Option.map_eq_some_iff]
        rw [← pinRects_some E ⟨p.org.x, p.org.y, orientOf p.ori⟩, ← pinPolys_some E ⟨p.org.x, p.org.y, orientOf p.ori⟩]
        constructor
        · rintro ⟨_, a, ha, b, hb, _⟩; exact ⟨⟨u, rfl⟩, trivial, ⟨a, ha⟩, b, hb⟩
        · rintro ⟨_, _, ⟨a, ha⟩, b, hb⟩; exact ⟨_, a, ha, b, hb, rfl⟩
  | blk b => simp [readRec, Fits]
  | net n =>
    simp only [readRec, readNet, Fits, ← useKind_iff, ← connsPins_some E pre B h, Option.bind_eq_some_iff,
      Option.map_eq_some_iff]
    have := rdNet_iff (rdTech E B) h0 B.nNet n.paths
    have e : ∀ p, ((∃ n, PathTok.layer n ∈ p) ∧ ∀ n, PathTok.layer n ∈ p → ∃ l, (rdTech E B).layerNum n = some l) ↔
        PathLayers E p := fun p => Iff.rfl
    simp only [e] at this
    rw [← this]
    constructor
    · rintro ⟨_, a, ha, b, hb, c, hc, _⟩; exact ⟨⟨a, ha⟩, ⟨b, hb⟩, c, hc⟩
    · rintro ⟨⟨a, ha⟩, ⟨b, hb⟩, c, hc⟩; exact ⟨_, a, ha, b, hb, c, hc, rfl⟩

theorem readRecs_iff (E : REnv) (h0 : E.layerNum "" = none) (B0 : RBlock) (pre : List DefRec) (h : PlaceInv E pre B0)
    (rs : List DefRec) : (∃ B, readRecs E B0 rs = some B) ↔
      ∀ a r b, rs = a ++ r :: b → Fits E (pre ++ a) r := by
  induction rs generalizing B0 pre with
  | nil => simp [readRecs]
  | cons x rs ih =>
    simp only [readRecs]
    constructor
    · rintro ⟨B, hB⟩ a r b hab
      rw [Option.bind_eq_some_iff] at hB
      obtain ⟨B1, h1, h2⟩ := hB
      cases a with
      | nil =>
        simp only [List.nil_append, List.cons.injEq] at hab
        rw [← hab.1, List.append_nil]
        exact (readRec_iff E h0 pre B0 h x).1 ⟨B1, h1⟩
      | cons y a =>
        simp only [List.cons_append, List.cons.injEq] at hab
        rw [← hab.1]
        have := (ih B1 (pre ++ [x]) (readPlace E pre x B0 B1 h h1)).1 ⟨B, h2⟩ a r b hab.2
        simpa using this
    · intro hf
      obtain ⟨B1, h1⟩ := (readRec_iff E h0 pre B0 h x).2 (by simpa using hf [] x rs rfl)
      obtain ⟨B, h2⟩ := (ih B1 (pre ++ [x]) (readPlace E pre x B0 B1 h h1)).2 (by
        intro a r b hab
        have := hf (x :: a) r b (by rw [hab]; rfl)
        simpa using this)
      exact ⟨B, by rw [h1]; exact h2⟩

end TR
