import Verif.Ids.Lemmas

/-! # Lemmas: which objects are made -/

namespace TR

theorem idInstTerms_log (inst : String) (home : Int) (n k : Nat) (s : IdSt) :
    ∃ L, (idInstTerms inst home n k s).log = s.log ++ L ∧
      (∀ o ∈ L, o.kind = .instTerm ∧ o.owner = inst) ∧ L.map (·.pos) = List.range' k n ∧
      (idInstTerms inst home n k s).name2 = s.name2 ∧
      (idInstTerms inst home n k s).insts = s.insts := by
  induction n generalizing k s with
  | zero => exact ⟨[], by simp [idInstTerms]⟩
  | succ n ih =>
    obtain ⟨L, h1, h2, h3, h4, h5⟩ := ih (k + 1) { s with
        nTerm := s.nTerm + 1
        log := s.log ++ [⟨.instTerm, inst, home, k, s.nTerm⟩] }
    refine ⟨⟨.instTerm, inst, home, k, s.nTerm⟩ :: L, ?_, ?_, ?_, h4, h5⟩
    · simp only [idInstTerms]; rw [h1]; simp
    · intro o ho
      rcases List.mem_cons.1 ho with h | h
      · subst h; exact ⟨rfl, rfl⟩
      · exact h2 o h
    · rw [List.map_cons, h3, List.range'_succ]

theorem idInstBlks_log (inst : String) (home : Int) (n k : Nat) (s : IdSt) :
    ∃ L, (idInstBlks inst home n k s).log = s.log ++ L ∧
      (∀ o ∈ L, o.kind = .instBlk ∧ o.owner = inst) ∧ L.map (·.pos) = List.range' k n ∧
      (idInstBlks inst home n k s).name2 = s.name2 ∧
      (idInstBlks inst home n k s).insts = s.insts := by
  induction n generalizing k s with
  | zero => exact ⟨[], by simp [idInstBlks]⟩
  | succ n ih =>
    obtain ⟨L, h1, h2, h3, h4, h5⟩ := ih (k + 1) { s with
        nBlk := s.nBlk + 1
        log := s.log ++ [⟨.instBlk, inst, home, k, s.nBlk⟩] }
    refine ⟨⟨.instBlk, inst, home, k, s.nBlk⟩ :: L, ?_, ?_, ?_, h4, h5⟩
    · simp only [idInstBlks]; rw [h1]; simp
    · intro o ho
      rcases List.mem_cons.1 ho with h | h
      · subst h; exact ⟨rfl, rfl⟩
      · exact h2 o h
    · rw [List.map_cons, h3, List.range'_succ]

theorem filter_none {l : List IdObj} {p : IdObj → Bool} (h : ∀ o ∈ l, p o = false) :
    l.filter p = [] := by
  rw [List.filter_eq_nil_iff]
  intro a ha
  simp [h a ha]

theorem filter_all {l : List IdObj} {p : IdObj → Bool} (h : ∀ o ∈ l, p o = true) :
    l.filter p = l := List.filter_eq_self.2 h

/-- What one component adds. -/
theorem idComp_log (inst : String) (np nb : Nat) (s : IdSt) :
    ∃ T B, (idComp inst np nb s).log = s.log ++ ([⟨.inst, inst, 0, 0, s.nInst⟩] ++ T ++ B) ∧
      (∀ o ∈ T, o.kind = .instTerm ∧ o.owner = inst) ∧ T.map (·.pos) = List.range np ∧
      (∀ o ∈ B, o.kind = .instBlk ∧ o.owner = inst) ∧ B.map (·.pos) = List.range nb ∧
      (idComp inst np nb s).name2 = s.name2 ∧ (idComp inst np nb s).insts = s.insts ++ [inst] := by
  unfold idComp
  dsimp only
  obtain ⟨T, t1, t2, t3, t4, t5⟩ := idInstTerms_log inst s.nInst np 0 { s with
    nInst := s.nInst + 1
    insts := s.insts ++ [inst]
    log := s.log ++ [⟨.inst, inst, 0, 0, s.nInst⟩] }
  obtain ⟨B, b1, b2, b3, b4, b5⟩ := idInstBlks_log inst s.nInst nb 0
    (idInstTerms inst s.nInst np 0 { s with
      nInst := s.nInst + 1
      insts := s.insts ++ [inst]
      log := s.log ++ [⟨.inst, inst, 0, 0, s.nInst⟩] })
  refine ⟨T, B, ?_, t2, ?_, b2, ?_, b4.trans t4, b5.trans t5⟩
  · rw [b1, t1]; simp
  · rw [t3, List.range_eq_range']
  · rw [b3, List.range_eq_range']

/-- What the statements of the DEF file add. -/
structure IdMade (s : IdSt) (ds : List IdDef) (M : List IdObj) : Prop where
  old : ∀ x ∈ s.insts, ∀ o ∈ M, o.kind = .instTerm ∨ o.kind = .instBlk → o.owner ≠ x
  kinds : ∀ o ∈ M, o.kind ≠ .cell ∧ o.kind ≠ .cellTerm ∧ o.kind ≠ .cellBlk
  comp : ∀ i c, IdDef.comp i c ∈ ds → ∃ np nb, s.name2 c = some (np, nb) ∧
    (M.filter (fun o => o.kind = .instTerm ∧ o.owner = i)).map (·.pos) = List.range np ∧
    (M.filter (fun o => o.kind = .instBlk ∧ o.owner = i)).map (·.pos) = List.range nb
  owners : ∀ o ∈ M, o.kind = .instTerm ∨ o.kind = .instBlk → ∃ c, IdDef.comp o.owner c ∈ ds
  insts : (M.filter (fun o => o.kind = .inst)).map (·.owner) = idCompNames ds
  nets : (M.filter (fun o => o.kind = .net)).map (·.owner) = idNetNames ds
  terms : (M.filter (fun o => o.kind = .term)).map (·.owner) = idPinNames ds
  blks : (M.filter (fun o => o.kind = .blk)).length = idNumBlks ds

theorem idMade_single (s s1 : IdSt) (d : IdDef) (r : List IdDef) (o : IdObj) (M : List IdObj)
    (h : IdMade s1 r M) (hn : s1.name2 = s.name2) (hi : s1.insts = s.insts)
    (hd : (∃ n p, d = .pin n p ∧ o.kind = .term ∧ o.owner = n) ∨
      (∃ n p, d = .net n p ∧ o.kind = .net ∧ o.owner = n) ∨ (d = .blockage ∧ o.kind = .blk)) :
    IdMade s (d :: r) (o :: M) := by
  obtain ⟨a1, a2, a3, a4, a5, a6, a7, a8⟩ := h
  rw [hn] at a3
  rw [hi] at a1
  refine ⟨?_, ?_, ?_, ?_, ?_, ?_, ?_, ?_⟩
  · intro x hx p hp hk
    rcases List.mem_cons.1 hp with h | h
    · subst h; grind
    · exact a1 x hx p h hk
  · intro p hp
    rcases List.mem_cons.1 hp with h | h
    · subst h; grind
    · exact a2 p h
  · intro i c hc
    have hc : IdDef.comp i c ∈ r := by
      rcases List.mem_cons.1 hc with h | h
      · grind
      · exact h
    obtain ⟨np, nb, b1, b2, b3⟩ := a3 i c hc
    refine ⟨np, nb, b1, ?_, ?_⟩
    · rw [List.filter_cons_of_neg (by grind)]; exact b2
    · rw [List.filter_cons_of_neg (by grind)]; exact b3
  · intro p hp hk
    rcases List.mem_cons.1 hp with h | h
    · subst h; grind
    · obtain ⟨c, hc⟩ := a4 p h hk
      exact ⟨c, List.mem_cons_of_mem _ hc⟩
  all_goals
    rcases hd with ⟨n, p, rfl, h1, h2⟩ | ⟨n, p, rfl, h1, h2⟩ | ⟨rfl, h1⟩ <;>
      simp_all [idCompNames, idNetNames, idPinNames, idNumBlks, List.filter_cons, List.count_cons]

theorem idDefs_made (ds : List IdDef) (s s' : IdSt) (e : idDefs ds s = some s') :
    ∃ M, s'.log = s.log ++ M ∧ IdMade s ds M := by
  induction ds generalizing s with
  | nil =>
    simp only [idDefs, Option.some.injEq] at e
    subst e
    refine ⟨[], by simp, ?_⟩
    constructor <;> simp [idCompNames, idNetNames, idPinNames, idNumBlks]
  | cons d r ih =>
    simp only [idDefs] at e
    split at e
    · cases e
    · rename_i s1 e1
      obtain ⟨M, hM, hm⟩ := ih s1 e
      cases d with
      | comp inst cell =>
        simp only [idDef] at e1
        split at e1
        · cases e1
        · rename_i np nb hc
          split at e1
          · cases e1
          · rename_i hin
            simp only [Option.some.injEq] at e1
            subst e1
            obtain ⟨T, B, l1, l2, l3, l4, l5, l6, l7⟩ := idComp_log inst np nb s
            obtain ⟨a1, a2, a3, a4, a5, a6, a7, a8⟩ := hm
            rw [l6] at a3
            rw [l7] at a1
            have ai : ∀ o ∈ M, o.kind = .instTerm ∨ o.kind = .instBlk → o.owner ≠ inst :=
              a1 inst (by simp)
            have hNew : ∀ x, x ≠ inst → ∀ k, k = IdKind.instTerm ∨ k = .instBlk →
                ([⟨.inst, inst, 0, 0, s.nInst⟩] ++ T ++ B : List IdObj).filter
                  (fun o => decide (o.kind = k ∧ o.owner = x)) = [] := by
              intro x hx k hk
              apply filter_none
              intro o ho
              simp only [List.mem_append, List.mem_singleton] at ho
              rcases ho with (h | h) | h
              · subst h; rcases hk with rfl | rfl <;> simp
              · have := l2 o h; grind
              · have := l4 o h; grind
            have hMi : ∀ k, k = IdKind.instTerm ∨ k = .instBlk →
                M.filter (fun o => decide (o.kind = k ∧ o.owner = inst)) = [] := by
              intro k hk
              apply filter_none
              intro o ho
              have := ai o ho
              grind
            refine ⟨[⟨.inst, inst, 0, 0, s.nInst⟩] ++ T ++ B ++ M, ?_, ?_, ?_, ?_, ?_, ?_, ?_, ?_, ?_⟩
            · rw [hM, l1]; simp
            · intro x hx o ho hk
              have hxi : x ≠ inst := fun h => hin (h ▸ hx)
              simp only [List.mem_append, List.mem_singleton] at ho
              rcases ho with ((h | h) | h) | h
              · subst h; simp at hk
              · rw [(l2 o h).2]; exact hxi.symm
              · rw [(l4 o h).2]; exact hxi.symm
              · exact a1 x (by simp [hx]) o h hk
            · intro o ho
              simp only [List.mem_append, List.mem_singleton] at ho
              rcases ho with ((h | h) | h) | h
              · subst h; simp
              · rw [(l2 o h).1]; simp
              · rw [(l4 o h).1]; simp
              · exact a2 o h
            · intro i c hic
              by_cases hii : i = inst
              · subst hii
                have : c = cell := by
                  rcases List.mem_cons.1 hic with h | h
                  · injection h
                  · exfalso
                    -- a second component of this name is not accepted
                    have hno : ∀ (l : List IdDef) (t t' : IdSt), idDefs l t = some t' →
                        i ∈ t.insts → IdDef.comp i c ∉ l := by
                      intro l
                      induction l with
                      | nil => intro t t' _ _; simp
                      | cons d2 r2 ih2 =>
                        intro t t' et hit hmem
                        simp only [idDefs] at et
                        split at et
                        · cases et
                        · rename_i t1 et1
                          rcases List.mem_cons.1 hmem with h | h
                          · subst h
                            simp only [idDef] at et1
                            split at et1
                            · cases et1
                            · rw [if_pos hit] at et1; cases et1
                          · refine ih2 t1 t' et ?_ h
                            cases d2 with
                            | comp i2 c2 =>
                              simp only [idDef] at et1
                              split at et1
                              · cases et1
                              · split at et1
                                · cases et1
                                · rename_i np2 nb2 _ _
                                  simp only [Option.some.injEq] at et1
                                  subst et1
                                  obtain ⟨_, _, _, _, _, _, _, _, q⟩ := idComp_log i2 np2 nb2 t
                                  rw [q]; simp [hit]
                            | pin n p =>
                              simp only [idDef] at et1
                              split at et1
                              · cases et1
                              · simp only [Option.some.injEq] at et1
                                subst et1; exact hit
                            | net n p =>
                              simp only [idDef, Option.some.injEq] at et1
                              subst et1; exact hit
                            | blockage =>
                              simp only [idDef, Option.some.injEq] at et1
                              subst et1; exact hit
                    exact hno r _ _ e (by rw [l7]; simp) h
                subst this
                refine ⟨np, nb, hc, ?_, ?_⟩
                · rw [List.filter_append, hMi _ (.inl rfl), List.append_nil, List.filter_append,
                    List.filter_append, filter_none (l := [_]), filter_all (l := T),
                    filter_none (l := B)]
                  · simpa using l3
                  · intro o ho; have := l4 o ho; simp [this.1]
                  · intro o ho; have := l2 o ho; simp [this.1, this.2]
                  · intro o ho; simp only [List.mem_singleton] at ho; subst ho; simp
                · rw [List.filter_append, hMi _ (.inr rfl), List.append_nil, List.filter_append,
                    List.filter_append, filter_none (l := [_]), filter_none (l := T),
                    filter_all (l := B)]
                  · simpa using l5
                  · intro o ho; have := l4 o ho; simp [this.1, this.2]
                  · intro o ho; have := l2 o ho; simp [this.1]
                  · intro o ho; simp only [List.mem_singleton] at ho; subst ho; simp
              · have hr : IdDef.comp i c ∈ r := by
                  rcases List.mem_cons.1 hic with h | h
                  · injection h with h1; exact absurd h1 hii
                  · exact h
                obtain ⟨np', nb', b1, b2, b3⟩ := a3 i c hr
                refine ⟨np', nb', b1, ?_, ?_⟩
                · rw [List.filter_append, hNew i hii _ (.inl rfl), List.nil_append]; exact b2
                · rw [List.filter_append, hNew i hii _ (.inr rfl), List.nil_append]; exact b3
            · intro o ho hk
              simp only [List.mem_append, List.mem_singleton] at ho
              rcases ho with ((h | h) | h) | h
              · subst h; simp at hk
              · rw [(l2 o h).2]; exact ⟨cell, by simp⟩
              · rw [(l4 o h).2]; exact ⟨cell, by simp⟩
              · obtain ⟨c, hc⟩ := a4 o h hk
                exact ⟨c, List.mem_cons_of_mem _ hc⟩
            · rw [List.filter_append, List.filter_append, List.filter_append,
                filter_none (l := T) (by intro o ho; simp [(l2 o ho).1]),
                filter_none (l := B) (by intro o ho; simp [(l4 o ho).1])]
              simp [a5, idCompNames]
            · rw [List.filter_append, List.filter_append, List.filter_append,
                filter_none (l := T) (by intro o ho; simp [(l2 o ho).1]),
                filter_none (l := B) (by intro o ho; simp [(l4 o ho).1])]
              simp [a6, idNetNames]
            · rw [List.filter_append, List.filter_append, List.filter_append,
                filter_none (l := T) (by intro o ho; simp [(l2 o ho).1]),
                filter_none (l := B) (by intro o ho; simp [(l4 o ho).1])]
              simp [a7, idPinNames]
            · rw [List.filter_append, List.filter_append, List.filter_append,
                filter_none (l := T) (by intro o ho; simp [(l2 o ho).1]),
                filter_none (l := B) (by intro o ho; simp [(l4 o ho).1])]
              simp [a8, idNumBlks, List.count_cons]
      | pin n p =>
        simp only [idDef] at e1
        split at e1
        · cases e1
        · simp only [Option.some.injEq] at e1
          subst e1
          exact ⟨_ :: M, by rw [hM]; simp; rfl,
            idMade_single s _ _ r _ M hm rfl rfl (.inl ⟨n, p, rfl, rfl, rfl⟩)⟩
      | net n p =>
        simp only [idDef, Option.some.injEq] at e1
        subst e1
        exact ⟨_ :: M, by rw [hM]; simp; rfl,
          idMade_single s _ _ r _ M hm rfl rfl (.inr (.inl ⟨n, p, rfl, rfl, rfl⟩))⟩
      | blockage =>
        simp only [idDef, Option.some.injEq] at e1
        subst e1
        exact ⟨_ :: M, by rw [hM]; simp; rfl,
          idMade_single s _ _ r _ M hm rfl rfl (.inr (.inr ⟨rfl, rfl⟩))⟩

/-! ## Cells -/

theorem idMacro_name2 (s : IdSt) (m : IdMacro) (c : String) :
    (idMacro s m).name2 c = if c = m.name then some (idNumPins m, idNumObs m) else s.name2 c := by
  have h := idItems_fst m.name m.items 0 0 s
  unfold idMacro
  dsimp only [idMacroEnd]
  rw [h.1, h.2.1, h.2.2]
  simp [idNumPins, idNumObs]

theorem idLef_name2 (lef : List IdMacro) (s : IdSt) (c : String) (v : Nat × Nat)
    (h : (lef.foldl idMacro s).name2 c = some v) :
    (∃ m, IdLast lef c m ∧ v = (idNumPins m, idNumObs m)) ∨
    (s.name2 c = some v ∧ ∀ x ∈ lef, x.name ≠ c) := by
  induction lef generalizing s with
  | nil => exact .inr ⟨h, by simp⟩
  | cons m r ih =>
    rcases ih (idMacro s m) h with ⟨m', ⟨h1, pre, post, h2, h3⟩, h4⟩ | ⟨h1, h2⟩
    · exact .inl ⟨m', ⟨h1, m :: pre, post, by simp [h2], h3⟩, h4⟩
    · rw [idMacro_name2] at h1
      split at h1
      · rename_i hc
        simp only [Option.some.injEq] at h1
        exact .inl ⟨m, ⟨hc.symm, [], r, rfl, h2⟩, h1.symm⟩
      · rename_i hc
        refine .inr ⟨h1, ?_⟩
        intro x hx
        rcases List.mem_cons.1 hx with h | h
        · subst h; exact fun e => hc e.symm
        · exact h2 x h

theorem idLef_known (lef : List IdMacro) (s : IdSt) (c : String) :
    ((lef.foldl idMacro s).name2 c).isSome ↔ (s.name2 c).isSome ∨ ∃ m ∈ lef, m.name = c := by
  induction lef generalizing s with
  | nil => simp
  | cons m r ih =>
    rw [List.foldl_cons, ih, idMacro_name2]
    split
    · rename_i hc
      subst hc
      simp
    · rename_i hc
      simp only [List.mem_cons, exists_eq_or_imp]
      constructor
      · rintro (h | h)
        · exact .inl h
        · exact .inr (.inr h)
      · rintro (h | h | h)
        · exact .inl h
        · exact absurd h.symm hc
        · exact .inr h

theorem idLef_cells (lef : List IdMacro) (s : IdSt) :
    ((lef.foldl idMacro s).log.filter (fun o => o.kind = .cell)).map (·.owner) =
      (s.log.filter (fun o => o.kind = .cell)).map (·.owner) ++ lef.map (·.name) := by
  have hi : ∀ name (is : List IdItem) np nb (s : IdSt),
      (idItems name is np nb s).2.2.log.filter (fun o => o.kind = .cell) =
        s.log.filter (fun o => o.kind = .cell) := by
    intro name is
    induction is with
    | nil => intro np nb s; rfl
    | cons i r ih => intro np nb s; cases i <;> simp only [idItems] <;> rw [ih] <;> simp [idItem]
  induction lef generalizing s with
  | nil => simp
  | cons m r ih =>
    rw [List.foldl_cons, ih]
    simp [idMacro, idMacroEnd, hi]

/-- The pins and obstructions of a cell. -/
theorem idItems_log (name : String) (is : List IdItem) (np nb : Nat) (s : IdSt) :
    ∃ L, (idItems name is np nb s).2.2.log = s.log ++ L ∧
      (idItems name is np nb s).2.2.nRef = s.nRef ∧
      (∀ o ∈ L, (o.kind = .cellTerm ∨ o.kind = .cellBlk) ∧ o.home = s.nRef) ∧
      (L.filter (fun o => o.kind = .cellTerm)).map (·.pos) = List.range' np (is.count .pin) ∧
      (L.filter (fun o => o.kind = .cellBlk)).map (·.pos) = List.range' nb (is.count .obs) := by
  induction is generalizing np nb s with
  | nil => exact ⟨[], by simp [idItems]⟩
  | cons i r ih =>
    cases i with
    | pin =>
      obtain ⟨L, h1, h2, h3, h4, h5⟩ := ih (np + 1) nb (idItem name np nb s .pin)
      refine ⟨⟨.cellTerm, name, s.nRef, np, s.nTerm⟩ :: L, ?_, h2, ?_, ?_, ?_⟩
      · simp only [idItems]; rw [h1]; simp [idItem]
      · intro o ho
        rcases List.mem_cons.1 ho with h | h
        · subst h; simp
        · exact h3 o h
      · simp [h4, List.range'_succ]
      · simpa using h5
    | obs =>
      obtain ⟨L, h1, h2, h3, h4, h5⟩ := ih np (nb + 1) (idItem name np nb s .obs)
      refine ⟨⟨.cellBlk, name, s.nRef, nb, s.nBlk⟩ :: L, ?_, h2, ?_, ?_, ?_⟩
      · simp only [idItems]; rw [h1]; simp [idItem]
      · intro o ho
        rcases List.mem_cons.1 ho with h | h
        · subst h; simp
        · exact h3 o h
      · simpa using h4
      · simp [h5, List.range'_succ]

theorem idLef_items (lef : List IdMacro) (s : IdSt) :
    ∃ L, (lef.foldl idMacro s).log = s.log ++ L ∧ (∀ o ∈ L, o.kind ≠ .cell → s.nRef ≤ o.home) ∧
      ∀ (i : Nat) m, lef[i]? = some m →
        (L.filter (fun o => o.kind = .cellTerm ∧ o.home = s.nRef + i)).map (·.pos) =
          List.range (idNumPins m) ∧
        (L.filter (fun o => o.kind = .cellBlk ∧ o.home = s.nRef + i)).map (·.pos) =
          List.range (idNumObs m) := by
  induction lef generalizing s with
  | nil => exact ⟨[], by simp⟩
  | cons m r ih =>
    obtain ⟨L, h1, h2, h3⟩ := ih (idMacro s m)
    obtain ⟨K, k1, k2, k3, k4, k5⟩ := idItems_log m.name m.items 0 0 s
    have hr : (idMacro s m).nRef = s.nRef + 1 := by
      unfold idMacro; dsimp only [idMacroEnd]; rw [k2]
    have hl : (idMacro s m).log = s.log ++ K ++ [⟨.cell, m.name, 0, 0, s.nRef + 1⟩] := by
      unfold idMacro; dsimp only [idMacroEnd]; rw [k1, k2]
    rw [hr] at h2 h3
    refine ⟨K ++ [⟨.cell, m.name, 0, 0, s.nRef + 1⟩] ++ L, ?_, ?_, ?_⟩
    · rw [List.foldl_cons, h1, hl]; simp
    · intro o ho hk
      simp only [List.mem_append, List.mem_singleton] at ho
      rcases ho with (h | h) | h
      · have := (k3 o h).2; omega
      · subst h; simp at hk
      · have := h2 o h hk; omega
    · intro i x hx
      cases i with
      | zero =>
        simp only [List.getElem?_cons_zero, Option.some.injEq] at hx
        subst hx
        have hL : ∀ k, k ≠ IdKind.cell →
            L.filter (fun o => decide (o.kind = k ∧ o.home = s.nRef + (0 : Nat))) = [] := by
          intro k hk
          apply filter_none
          intro o ho
          have := h2 o ho
          rw [decide_eq_false_iff_not]
          rintro ⟨e1, e2⟩
          have := this (by rw [e1]; exact hk)
          omega
        have hK : ∀ k, K.filter (fun o => decide (o.kind = k ∧ o.home = s.nRef + (0 : Nat))) =
            K.filter (fun o => decide (o.kind = k)) := by
          intro k
          apply List.filter_congr
          intro o ho
          have := (k3 o ho).2
          simp [this]
        constructor
        · rw [List.filter_append, List.filter_append, hL _ (by simp), hK]
          simpa [idNumPins, List.range_eq_range'] using k4
        · rw [List.filter_append, List.filter_append, hL _ (by simp), hK]
          simpa [idNumObs, List.range_eq_range'] using k5
      | succ i =>
        rw [List.getElem?_cons_succ] at hx
        have := h3 i x hx
        have e : s.nRef + ((i + 1 : Nat) : Int) = s.nRef + 1 + (i : Int) := by omega
        have hK : ∀ k, K.filter (fun o => decide (o.kind = k ∧ o.home = s.nRef + 1 + (i : Int))) = [] := by
          intro k
          apply filter_none
          intro o ho
          have := (k3 o ho).2
          rw [decide_eq_false_iff_not]
          rintro ⟨_, e2⟩
          omega
        rw [e]
        constructor
        · rw [List.filter_append, List.filter_append, hK]
          simpa using this.1
        · rw [List.filter_append, List.filter_append, hK]
          simpa using this.2

/-! ## When the files are accepted -/

theorem idDefs_ok (ds : List IdDef) (s : IdSt) :
    (idDefs ds s).isSome ↔
      (∀ i c, IdDef.comp i c ∈ ds → (s.name2 c).isSome) ∧
      (∀ i ∈ idCompNames ds, i ∉ s.insts) ∧ (idCompNames ds).Nodup ∧
      ∀ n p, IdDef.pin n p ∈ ds → p = false := by
  induction ds generalizing s with
  | nil => simp [idDefs, idCompNames]
  | cons d r ih =>
    cases d with
    | comp i c =>
      simp only [idDefs, idDef]
      cases hc : s.name2 c with
      | none =>
        simp only [Option.isSome_none, Bool.false_eq_true, false_iff]
        rintro ⟨h, _⟩
        have := h i c (by simp)
        simp [hc] at this
      | some v =>
        obtain ⟨np, nb⟩ := v
        dsimp only
        by_cases hi : i ∈ s.insts
        · rw [if_pos hi]
          simp only [Option.isSome_none, Bool.false_eq_true, false_iff]
          rintro ⟨_, h, _⟩
          exact h i (by simp [idCompNames]) hi
        · rw [if_neg hi]
          dsimp only
          rw [ih]
          obtain ⟨_, _, _, _, _, _, _, q1, q2⟩ := idComp_log i np nb s
          rw [q1, q2]
          have hn : idCompNames (.comp i c :: r) = i :: idCompNames r := by simp [idCompNames]
          rw [hn, List.nodup_cons]
          simp only [List.mem_append, List.mem_singleton, List.mem_cons, not_or]
          constructor
          · rintro ⟨h1, h2, h3, h4⟩
            refine ⟨?_, ?_, ⟨?_, h3⟩, ?_⟩
            · rintro i' c' (h | h)
              · injection h with _ h; subst h; simp [hc]
              · exact h1 i' c' h
            · rintro x (h | h)
              · subst h; exact hi
              · exact (h2 x h).1
            · intro h; exact (h2 i h).2.1 rfl
            · rintro n p (h | h)
              · cases h
              · exact h4 n p h
          · rintro ⟨h1, h2, ⟨h5, h3⟩, h4⟩
            refine ⟨fun i' c' h => h1 i' c' (.inr h), ?_, h3, fun n p h => h4 n p (.inr h)⟩
            intro x hx
            exact ⟨h2 x (.inr hx), fun e => h5 (e ▸ hx), List.not_mem_nil⟩
    | pin n p =>
      simp only [idDefs, idDef]
      cases p with
      | true =>
        simp only [if_pos, Option.isSome_none, Bool.false_eq_true, false_iff]
        rintro ⟨_, _, _, h⟩
        have := h n true (by simp)
        cases this
      | false =>
        simp only [Bool.false_eq_true, if_false]
        rw [ih]
        have hn : idCompNames (.pin n false :: r) = idCompNames r := by simp [idCompNames]
        rw [hn]
        simp only [List.mem_cons]
        constructor
        · rintro ⟨h1, h2, h3, h4⟩
          refine ⟨?_, h2, h3, ?_⟩
          · rintro i' c' (h | h)
            · cases h
            · exact h1 i' c' h
          · rintro n p (h | h)
            · injection h
            · exact h4 n p h
        · rintro ⟨h1, h2, h3, h4⟩
          exact ⟨fun i' c' h => h1 i' c' (.inr h), h2, h3, fun n p h => h4 n p (.inr h)⟩
    | net n p =>
      simp only [idDefs, idDef]
      rw [ih]
      have hn : idCompNames (.net n p :: r) = idCompNames r := by simp [idCompNames]
      rw [hn]
      simp
    | blockage =>
      simp only [idDefs, idDef]
      rw [ih]
      have hn : idCompNames (.blockage :: r) = idCompNames r := by simp [idCompNames]
      rw [hn]
      simp

end TR
