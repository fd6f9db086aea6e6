import Verif.Read.Accept
namespace TR

structure TrkInv (E : REnv) (pre : List DefRec) (B : RBlock) : Prop where
  trk : Pointwise (fun _ => TrackIs E) B.tracks (tracksOf pre)
  blk : ∀ l b, (∃ K ∈ B.blks, (l, b) ∈ K.rects) ↔ ∃ d ∈ blksOf pre, BlkOn E d l ∧
    ∃ r ∈ d.rects, b = Box.mk4 r.1 r.2.1 r.2.2.1 r.2.2.2

theorem readTrk (E : REnv) (pre : List DefRec) (r : DefRec) (B B' : RBlock) (h : TrkInv E pre B)
    (hr : readRec E B r = some B') : TrkInv E (pre ++ [r]) B' := by
  obtain ⟨h1, h2⟩ := h
  have skipB : (∀ d, r ≠ .blk d) → blksOf (pre ++ [r]) = blksOf pre := by
    intro hx; rw [blksOf_snoc]; cases r <;> simp_all
  have skipT : (∀ d, r ≠ .tracks d) → tracksOf (pre ++ [r]) = tracksOf pre := by
    intro hx; rw [tracksOf_snoc]; cases r <;> simp_all
  have other : (∀ d, r ≠ .tracks d) → (∀ d, r ≠ .blk d) → B'.tracks = B.tracks → B'.blks = B.blks →
      TrkInv E (pre ++ [r]) B' := by
    intro a b e1 e2
    exact ⟨by rw [e1, skipT a]; exact h1, by rw [e2, skipB b]; exact h2⟩
  cases r with
  | tracks t =>
    simp only [readRec, readTracks, Option.bind_eq_some_iff] at hr
    obtain ⟨l, hl, hr⟩ := hr
    refine ⟨?_, ?_⟩
    · rw [tracksOf_snoc]
      split at hr
      · rename_i hd
        simp only [Option.some.injEq] at hr; subst hr
        exact h1.snoc ⟨hl, hd, rfl⟩
      · split at hr
        · rename_i hd
          simp only [Option.some.injEq] at hr; subst hr
          exact h1.snoc ⟨hl, hd, rfl⟩
        · cases hr
    · rw [skipB (by intro d hd; cases hd)]
      have : B'.blks = B.blks := by
        split at hr
        · simp only [Option.some.injEq] at hr; subst hr; rfl
        · split at hr
          · simp only [Option.some.injEq] at hr; subst hr; rfl
          · cases hr
      rw [this]; exact h2
  | via v =>
    have : B'.tracks = B.tracks ∧ B'.blks = B.blks := by
      simp only [readRec, readVia] at hr
      split at hr
      · simp only [Option.map_eq_some_iff] at hr; obtain ⟨_, _, rfl⟩ := hr; exact ⟨rfl, rfl⟩
      · split at hr
        · cases hr
        · split at hr
          · simp only [Option.some.injEq] at hr; subst hr; exact ⟨rfl, rfl⟩
          · simp only [Option.map_eq_some_iff] at hr; obtain ⟨_, _, rfl⟩ := hr; exact ⟨rfl, rfl⟩
    exact other (by intro d hd; cases hd) (by intro d hd; cases hd) this.1 this.2
  | comp c =>
    simp only [readRec, readComp, Option.bind_eq_some_iff] at hr
    obtain ⟨cell, hc, hr⟩ := hr
    split at hr
    · cases hr
    · simp only [Option.some.injEq] at hr; subst hr
      exact other (by intro d hd; cases hd) (by intro d hd; cases hd) rfl rfl
  | pin p =>
    simp only [readRec, readPin, Option.bind_eq_some_iff] at hr
    obtain ⟨u, hu, hr⟩ := hr
    split at hr
    · cases hr
    · simp only [Option.bind_eq_some_iff, Option.map_eq_some_iff] at hr
      obtain ⟨_, _, _, _, rfl⟩ := hr
      exact other (by intro d hd; cases hd) (by intro d hd; cases hd) rfl rfl
  | net n =>
    simp only [readRec, readNet, Option.bind_eq_some_iff, Option.map_eq_some_iff] at hr
    obtain ⟨ps, hps, f, _, u, hu, rfl⟩ := hr
    exact other (by intro d hd; cases hd) (by intro d hd; cases hd) rfl rfl
  | blk q =>
    simp only [readRec, Option.some.injEq] at hr
    subst hr
    have ht : (readBlk E B q).tracks = B.tracks := by
      unfold readBlk; dsimp only; repeat' split
      all_goals rfl
    refine ⟨by rw [skipT (by intro d hd; cases hd), ht]; exact h1, ?_⟩
    intro l b
    rw [blksOf_snoc]
    have key : (∃ K ∈ (readBlk E B q).blks, (l, b) ∈ K.rects) ↔ (∃ K ∈ B.blks, (l, b) ∈ K.rects) ∨
        (BlkOn E q l ∧ ∃ r ∈ q.rects, b = Box.mk4 r.1 r.2.1 r.2.2.1 r.2.2.2) := by
      have keep : ∀ (m : Int), (∃ K ∈ B.blks ++ [⟨B.nBlk, q.rects.map (fun r => (m, Box.mk4 r.1 r.2.1 r.2.2.1 r.2.2.2))⟩],
          (l, b) ∈ K.rects) ↔ (∃ K ∈ B.blks, (l, b) ∈ K.rects) ∨
          (l = m ∧ ∃ r ∈ q.rects, b = Box.mk4 r.1 r.2.1 r.2.2.1 r.2.2.2) := by
        intro m
        constructor
        · rintro ⟨K, hK, hl⟩
          rw [List.mem_append, List.mem_singleton] at hK
          rcases hK with hK | rfl
          · exact Or.inl ⟨K, hK, hl⟩
          · right
            simp only [List.mem_map, Prod.mk.injEq] at hl
            obtain ⟨r, hr, rfl, rfl⟩ := hl
            exact ⟨rfl, r, hr, rfl⟩
        · rintro (⟨K, hK, hl⟩ | ⟨rfl, r, hr, rfl⟩)
          · exact ⟨K, List.mem_append_left _ hK, hl⟩
          · exact ⟨_, List.mem_append_right _ (List.mem_singleton.2 rfl), List.mem_map.2 ⟨r, hr, rfl⟩⟩
      unfold readBlk BlkOn
      dsimp only
      cases hq : q.layer with
      | some n =>
        dsimp only
        cases hn : E.layerNum n with
        | none => simp [hn]
        | some m =>
          dsimp only
          cases ho : q.odd with
          | true => simp
          | false =>
            simp only [Bool.false_eq_true, if_false, keep, Option.some.injEq, reduceCtorEq, false_and, or_false,
              and_true, exists_eq_left', hn]
            constructor
            · rintro (h | ⟨rfl, h⟩)
              · exact Or.inl h
              · exact Or.inr ⟨rfl, h⟩
            · rintro (h | ⟨rfl, h⟩)
              · exact Or.inl h
              · exact Or.inr ⟨rfl, h⟩
      | none =>
        dsimp only
        cases hp : q.placement with
        | true => simp
        | false => simp only [Bool.false_eq_true, if_false, keep, reduceCtorEq, false_and, exists_false, false_or,
            true_and]
    rw [key, h2]
    simp only [List.mem_append, List.mem_singleton]
    constructor
    · rintro (⟨d, hd, h⟩ | h)
      · exact ⟨d, Or.inl hd, h⟩
      · exact ⟨q, Or.inr rfl, h⟩
    · rintro ⟨d, hd | rfl, h⟩
      · exact Or.inl ⟨d, hd, h⟩
      · exact Or.inr h

theorem trkInv (E : REnv) (vs : List RViaDef) (rs : List DefRec) (B : RBlock) (h : readDesign E vs rs = some B) :
    TrkInv E rs B := by
  refine readRecs_inv E (P := fun pre B => TrkInv E pre B) _ ?_ (fun pre r B B' => readTrk E pre r B B') rs B h
  exact ⟨Pointwise.nil _, by intro l b; simp [blksOf]⟩

end TR
