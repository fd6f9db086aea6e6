import Verif.Ids.Spec

/-! # Lemmas on the numbering -/

namespace TR

/-- An earlier object that meets a later one has the smaller id. -/
def IdOrd (l : List IdObj) : Prop := l.Pairwise (fun a b => IdMeet a b → a.id < b.id)

theorem idOrd_push {l : List IdObj} {o : IdObj} (h : IdOrd l)
    (ho : ∀ a ∈ l, IdMeet a o → a.id < o.id) : IdOrd (l ++ [o]) := by
  unfold IdOrd at *
  rw [List.pairwise_append]
  refine ⟨h, by simp, ?_⟩
  intro a ha b hb
  simp only [List.mem_singleton] at hb
  subst hb
  exact ho a ha

/-- While LEF is read. -/
structure IdLefInv (s : IdSt) : Prop where
  ord : IdOrd s.log
  ref : 0 ≤ s.nRef
  kinds : ∀ a ∈ s.log, a.kind = .cell ∨ a.kind = .cellTerm ∨ a.kind = .cellBlk
  cell : ∀ a ∈ s.log, a.kind = .cell → 0 < a.id ∧ a.id ≤ s.nRef
  term : ∀ a ∈ s.log, a.kind = .cellTerm → a.home ≤ s.nRef ∧ (a.home = s.nRef → a.id < s.nTerm)
  blk : ∀ a ∈ s.log, a.kind = .cellBlk → a.home ≤ s.nRef ∧ (a.home = s.nRef → a.id < s.nBlk)
  nInst : s.nInst = 0
  insts : s.insts = []

theorem idItem_inv (name : String) (np nb : Nat) (s : IdSt) (i : IdItem) (h : IdLefInv s) :
    IdLefInv (idItem name np nb s i) := by
  obtain ⟨ho, hr, hk, hc, ht, hb, hi, hs⟩ := h
  cases i <;> simp only [idItem]
  · refine ⟨idOrd_push ho ?_, hr, ?_, ?_, ?_, ?_, hi, hs⟩
    · intro a ha hm
      simp [IdMeet] at hm
      exact (ht a ha hm.1).2 hm.2
    · intro a ha
      rcases List.mem_append.1 ha with h | h
      · exact hk a h
      · simp only [List.mem_singleton] at h
        subst h
        simp
    · intro a ha h1
      rcases List.mem_append.1 ha with h | h
      · exact hc a h h1
      · simp only [List.mem_singleton] at h
        subst h
        simp at h1
    · intro a ha h1
      rcases List.mem_append.1 ha with h | h
      · have := ht a h h1
        dsimp only
        exact ⟨this.1, fun e => by have := this.2 e; omega⟩
      · simp only [List.mem_singleton] at h
        subst h
        dsimp only
        exact ⟨by omega, fun _ => by omega⟩
    · intro a ha h1
      rcases List.mem_append.1 ha with h | h
      · exact hb a h h1
      · simp only [List.mem_singleton] at h
        subst h
        simp at h1
  · refine ⟨idOrd_push ho ?_, hr, ?_, ?_, ?_, ?_, hi, hs⟩
    · intro a ha hm
      simp [IdMeet] at hm
      exact (hb a ha hm.1).2 hm.2
    · intro a ha
      rcases List.mem_append.1 ha with h | h
      · exact hk a h
      · simp only [List.mem_singleton] at h
        subst h
        simp
    · intro a ha h1
      rcases List.mem_append.1 ha with h | h
      · exact hc a h h1
      · simp only [List.mem_singleton] at h
        subst h
        simp at h1
    · intro a ha h1
      rcases List.mem_append.1 ha with h | h
      · exact ht a h h1
      · simp only [List.mem_singleton] at h
        subst h
        simp at h1
    · intro a ha h1
      rcases List.mem_append.1 ha with h | h
      · have := hb a h h1
        dsimp only
        exact ⟨this.1, fun e => by have := this.2 e; omega⟩
      · simp only [List.mem_singleton] at h
        subst h
        dsimp only
        exact ⟨by omega, fun _ => by omega⟩

theorem idItems_inv (name : String) (is : List IdItem) (np nb : Nat) (s : IdSt)
    (h : IdLefInv s) : IdLefInv (idItems name is np nb s).2.2 := by
  induction is generalizing np nb s with
  | nil => exact h
  | cons i r ih =>
    cases i <;> exact ih _ _ _ (idItem_inv _ _ _ _ _ h)

theorem idItems_fst (name : String) (is : List IdItem) (np nb : Nat) (s : IdSt) :
    (idItems name is np nb s).1 = np + is.count .pin ∧
    (idItems name is np nb s).2.1 = nb + is.count .obs ∧
    (idItems name is np nb s).2.2.name2 = s.name2 := by
  induction is generalizing np nb s with
  | nil => simp [idItems]
  | cons i r ih =>
    cases i <;> simp only [idItems] <;> rw [(ih _ _ _).1, (ih _ _ _).2.1, (ih _ _ _).2.2] <;>
      simp [idItem, List.count_cons] <;> omega

theorem idMacro_inv (s : IdSt) (m : IdMacro) (h : IdLefInv s) : IdLefInv (idMacro s m) := by
  have h2 := idItems_inv m.name m.items 0 0 s h
  unfold idMacro
  dsimp only
  generalize idItems m.name m.items 0 0 s = r at h2
  obtain ⟨ho, hr, hk, hc, ht, hb, hi, hs⟩ := h2
  refine ⟨idOrd_push ho ?_, ?_, ?_, ?_, ?_, ?_, hi, hs⟩
  · intro a ha hm
    simp [IdMeet] at hm
    have := (hc a ha hm).2
    dsimp only
    omega
  · dsimp only [idMacroEnd]; omega
  · intro a ha
    rcases List.mem_append.1 ha with h | h
    · exact hk a h
    · simp only [List.mem_singleton] at h
      subst h
      simp
  · intro a ha h1
    rcases List.mem_append.1 ha with h | h
    · have := hc a h h1
      dsimp only [idMacroEnd]
      omega
    · simp only [List.mem_singleton] at h
      subst h
      dsimp only [idMacroEnd]
      omega
  · intro a ha h1
    rcases List.mem_append.1 ha with h | h
    · have := (ht a h h1).1
      dsimp only [idMacroEnd]
      exact ⟨by omega, fun e => by omega⟩
    · simp only [List.mem_singleton] at h
      subst h
      simp at h1
  · intro a ha h1
    rcases List.mem_append.1 ha with h | h
    · have := (hb a h h1).1
      dsimp only [idMacroEnd]
      exact ⟨by omega, fun e => by omega⟩
    · simp only [List.mem_singleton] at h
      subst h
      simp at h1

theorem idLef_inv (lef : List IdMacro) (s : IdSt) (h : IdLefInv s) :
    IdLefInv (lef.foldl idMacro s) := by
  induction lef generalizing s with
  | nil => exact h
  | cons m r ih => exact ih _ (idMacro_inv s m h)

theorem idInit_inv : IdLefInv idInit := by
  refine ⟨List.Pairwise.nil, by simp [idInit], ?_, ?_, ?_, ?_, rfl, rfl⟩ <;>
    intro a ha <;> simp [idInit] at ha

/-- While DEF is read. -/
structure IdDefInv (s : IdSt) : Prop where
  ord : IdOrd s.log
  cell : ∀ a ∈ s.log, a.kind = .cell → 0 < a.id
  inst : ∀ a ∈ s.log, a.kind = .inst → a.id < s.nInst
  net : ∀ a ∈ s.log, a.kind = .net → 0 ≤ a.id ∧ a.id < s.nNet
  term : ∀ a ∈ s.log, a.kind = .instTerm ∨ a.kind = .term → a.id < s.nTerm
  blk : ∀ a ∈ s.log, a.kind = .instBlk ∨ a.kind = .blk → a.id < s.nBlk
  pos : 0 ≤ s.nNet

theorem IdLefInv.toDef {s : IdSt} (h : IdLefInv s) (hn : s.nNet = 0) : IdDefInv s := by
  refine ⟨h.ord, fun a ha hk => (h.cell a ha hk).1, ?_, ?_, ?_, ?_, by omega⟩ <;>
    intro a ha hk <;> have := h.kinds a ha <;> grind

theorem idLef_nNet (lef : List IdMacro) (s : IdSt) : (lef.foldl idMacro s).nNet = s.nNet := by
  have hi : ∀ name (is : List IdItem) np nb (s : IdSt),
      (idItems name is np nb s).2.2.nNet = s.nNet := by
    intro name is
    induction is with
    | nil => intro np nb s; rfl
    | cons i r ih => intro np nb s; cases i <;> exact ih _ _ _
  induction lef generalizing s with
  | nil => rfl
  | cons m r ih =>
    rw [List.foldl_cons, ih]
    exact hi _ _ _ _ _

/-- One more object, of a kind whose ids are below its counter, which is then raised. -/
theorem idDef_push (s s' : IdSt) (o : IdObj) (h : IdDefInv s) (hl : s'.log = s.log ++ [o])
    (h1 : s.nInst ≤ s'.nInst) (h2 : s.nNet ≤ s'.nNet) (h3 : s.nTerm ≤ s'.nTerm)
    (h4 : s.nBlk ≤ s'.nBlk)
    (ho : (o.kind = .inst ∧ o.id = s.nInst ∧ o.id < s'.nInst) ∨
      (o.kind = .net ∧ o.id = s.nNet ∧ o.id < s'.nNet) ∨
      ((o.kind = .instTerm ∨ o.kind = .term) ∧ o.id = s.nTerm ∧ o.id < s'.nTerm) ∨
      ((o.kind = .instBlk ∨ o.kind = .blk) ∧ o.id = s.nBlk ∧ o.id < s'.nBlk)) :
    IdDefInv s' := by
  obtain ⟨hord, hc, hi, hn, ht, hb, hp⟩ := h
  refine ⟨?_, ?_, ?_, ?_, ?_, ?_, by omega⟩
  · rw [hl]
    refine idOrd_push hord ?_
    intro a ha hm
    have := hi a ha
    have := hn a ha
    have := ht a ha
    have := hb a ha
    unfold IdMeet at hm
    grind
  all_goals
    intro a ha hk
    rw [hl] at ha
    rcases List.mem_append.1 ha with h | h
    · have := hc a h
      have := hi a h
      have := hn a h
      have := ht a h
      have := hb a h
      grind
    · simp only [List.mem_singleton] at h
      subst h
      grind

theorem idInstTerms_inv (inst : String) (home : Int) (n k : Nat) (s : IdSt) (h : IdDefInv s) :
    IdDefInv (idInstTerms inst home n k s) := by
  induction n generalizing k s with
  | zero => exact h
  | succ n ih =>
    refine ih _ _ (idDef_push s _ _ h rfl ?_ ?_ ?_ ?_ ?_) <;> dsimp only <;> try omega
    exact .inr (.inr (.inl ⟨.inl rfl, rfl, by omega⟩))

theorem idInstBlks_inv (inst : String) (home : Int) (n k : Nat) (s : IdSt) (h : IdDefInv s) :
    IdDefInv (idInstBlks inst home n k s) := by
  induction n generalizing k s with
  | zero => exact h
  | succ n ih =>
    refine ih _ _ (idDef_push s _ _ h rfl ?_ ?_ ?_ ?_ ?_) <;> dsimp only <;> try omega
    exact .inr (.inr (.inr ⟨.inl rfl, rfl, by omega⟩))

theorem idDef_inv (s s' : IdSt) (d : IdDef) (h : IdDefInv s) (e : idDef s d = some s') :
    IdDefInv s' := by
  cases d with
  | comp inst cell =>
    simp only [idDef] at e
    split at e
    · cases e
    · split at e
      · cases e
      · simp only [Option.some.injEq] at e
        subst e
        unfold idComp
        refine idInstBlks_inv _ _ _ _ _ (idInstTerms_inv _ _ _ _ _ ?_)
        refine idDef_push s _ _ h rfl ?_ ?_ ?_ ?_ ?_ <;> dsimp only <;> try omega
        exact .inl ⟨rfl, rfl, by omega⟩
  | pin name hp =>
    simp only [idDef] at e
    split at e
    · cases e
    · simp only [Option.some.injEq] at e
      subst e
      refine idDef_push s _ _ h rfl ?_ ?_ ?_ ?_ ?_ <;> dsimp only <;> try omega
      exact .inr (.inr (.inl ⟨.inr rfl, rfl, by omega⟩))
  | net name sp =>
    simp only [idDef, Option.some.injEq] at e
    subst e
    refine idDef_push s _ _ h rfl ?_ ?_ ?_ ?_ ?_ <;> dsimp only <;> try omega
    exact .inr (.inl ⟨rfl, rfl, by omega⟩)
  | blockage =>
    simp only [idDef, Option.some.injEq] at e
    subst e
    refine idDef_push s _ _ h rfl ?_ ?_ ?_ ?_ ?_ <;> dsimp only <;> try omega
    exact .inr (.inr (.inr ⟨.inr rfl, rfl, by omega⟩))

theorem idDefs_inv (ds : List IdDef) (s s' : IdSt) (h : IdDefInv s) (e : idDefs ds s = some s') :
    IdDefInv s' := by
  induction ds generalizing s with
  | nil => simp only [idDefs, Option.some.injEq] at e; subst e; exact h
  | cons d r ih =>
    simp only [idDefs] at e
    split at e
    · cases e
    · rename_i s1 e1
      exact ih s1 (idDef_inv s s1 d h e1) e

theorem idRead_inv {lef : List IdMacro} {ds : List IdDef} {s : IdSt} (e : idRead lef ds = some s) :
    IdDefInv s :=
  idDefs_inv ds _ s ((idLef_inv lef idInit idInit_inv).toDef
    ((idLef_nNet lef idInit).trans rfl)) e

/-! ## Sets -/

theorem idInsert_mem {o : IdObj} {l : List IdObj} (hs : l.Pairwise (fun a b => a.id < b.id))
    (hi : ∀ a ∈ l, a.id = o.id → a = o) :
    (∀ x, x ∈ idInsert o l ↔ x = o ∨ x ∈ l) ∧
    (idInsert o l).Pairwise (fun a b => a.id < b.id) := by
  induction l with
  | nil => simp [idInsert]
  | cons a r ih =>
    rw [List.pairwise_cons] at hs
    have ih := ih hs.2 (fun b hb => hi b (List.mem_cons_of_mem _ hb))
    simp only [idInsert]
    split
    · rename_i hlt
      refine ⟨fun x => by simp, ?_⟩
      rw [List.pairwise_cons]
      refine ⟨?_, List.pairwise_cons.2 hs⟩
      intro b hb
      rcases List.mem_cons.1 hb with h | h
      · subst h; exact hlt
      · have := hs.1 b h; omega
    · split
      · rename_i h1 h2
        refine ⟨fun x => ?_, ?_⟩
        · rw [List.mem_cons, ih.1, List.mem_cons]
          constructor
          · rintro (h | h | h)
            · exact .inr (.inl h)
            · exact .inl h
            · exact .inr (.inr h)
          · rintro (h | h | h)
            · exact .inr (.inl h)
            · exact .inl h
            · exact .inr (.inr h)
        · rw [List.pairwise_cons]
          refine ⟨fun b hb => ?_, ih.2⟩
          rcases (ih.1 b).1 hb with h | h
          · subst h; exact h2
          · exact hs.1 b h
      · rename_i h1 h2
        have := hi a (List.mem_cons_self ..) (by omega)
        subst this
        exact ⟨fun x => by simp, List.pairwise_cons.2 hs⟩

theorem idSet_aux (os acc : List IdObj) (hs : acc.Pairwise (fun a b => a.id < b.id))
    (hi : ∀ a ∈ acc ++ os, ∀ b ∈ acc ++ os, a.id = b.id → a = b) :
    (∀ x, x ∈ os.foldl (fun s o => idInsert o s) acc ↔ x ∈ acc ∨ x ∈ os) ∧
    (os.foldl (fun s o => idInsert o s) acc).Pairwise (fun a b => a.id < b.id) := by
  induction os generalizing acc with
  | nil => exact ⟨fun x => by simp, hs⟩
  | cons o r ih =>
    have h1 := idInsert_mem (o := o) hs (fun a ha e =>
      hi a (by simp [ha]) o (by simp) e)
    have h2 := ih (idInsert o acc) h1.2 (by
      intro a ha b hb e
      refine hi a ?_ b ?_ e
      · rcases List.mem_append.1 ha with h | h
        · rcases (h1.1 a).1 h with h | h
          · simp [h]
          · simp [h]
        · simp [h]
      · rcases List.mem_append.1 hb with h | h
        · rcases (h1.1 b).1 h with h | h
          · simp [h]
          · simp [h]
        · simp [h])
    rw [List.foldl_cons]
    refine ⟨fun x => ?_, h2.2⟩
    rw [h2.1, h1.1, List.mem_cons]
    constructor
    · rintro ((h | h) | h)
      · exact .inr (.inl h)
      · exact .inl h
      · exact .inr (.inr h)
    · rintro (h | h | h)
      · exact .inl (.inr h)
      · exact .inl (.inl h)
      · exact .inr h

/-! ## Workers -/

theorem idPins_spec (net : Nat) (bound : Bool) (n k : Nat) (c : Int) :
    (idPins net bound n k c).2 = c + n ∧ (idPins net bound n k c).1.length = n ∧
    ∀ j, j < n → (idPins net bound n k c).1[j]? = some ⟨net, k + j, bound, c + j⟩ := by
  induction n generalizing k c with
  | zero => simp [idPins]
  | succ n ih =>
    obtain ⟨a, b, h⟩ := ih (k + 1) (c + 1)
    simp only [idPins]
    refine ⟨by rw [a]; omega, by simp [b], ?_⟩
    intro j hj
    cases j with
    | zero => simp
    | succ j =>
      rw [List.getElem?_cons_succ, h j (by omega)]
      congr 2 <;> omega

theorem idPins_pw (net : Nat) (bound : Bool) (n k : Nat) (c : Int) :
    (idPins net bound n k c).1.Pairwise (fun a b => a.id < b.id) ∧
    ∀ p ∈ (idPins net bound n k c).1, c ≤ p.id ∧ p.id < c + n ∧ p.net = net := by
  induction n generalizing k c with
  | zero => simp [idPins]
  | succ n ih =>
    obtain ⟨a, b⟩ := ih (k + 1) (c + 1)
    simp only [idPins]
    refine ⟨?_, ?_⟩
    · rw [List.pairwise_cons]
      exact ⟨fun p hp => by have := b p hp; dsimp only; omega, a⟩
    · intro p hp
      rcases List.mem_cons.1 hp with h | h
      · subst h; dsimp only; omega
      · have := b p h; omega

theorem idNets_pw (ns : List (Nat × Nat)) (i : Nat) (c : Int) :
    ((idNets ns i c).map (·.2)).flatten.Pairwise (fun a b => a.id < b.id) ∧
    ∀ p ∈ ((idNets ns i c).map (·.2)).flatten, c ≤ p.id := by
  induction ns generalizing i c with
  | nil => simp [idNets]
  | cons x r ih =>
    obtain ⟨nt, nb⟩ := x
    simp only [idNets, List.map_cons, List.flatten_cons]
    have t := idPins_pw i false nt 0 c
    have t2 := (idPins_spec i false nt 0 c).1
    generalize idPins i false nt 0 c = T at t t2
    have b := idPins_pw i true nb nt T.2
    have b2 := (idPins_spec i true nb nt T.2).1
    generalize idPins i true nb nt T.2 = B at b b2
    have h := ih (i + 1) B.2
    rw [List.pairwise_append, List.pairwise_append]
    refine ⟨⟨⟨t.1, b.1, ?_⟩, h.1, ?_⟩, ?_⟩
    · intro p hp q hq
      have := t.2 p hp
      have := b.2 q hq
      omega
    · intro p hp q hq
      have := h.2 q hq
      rcases List.mem_append.1 hp with hp | hp
      · have := t.2 p hp; omega
      · have := b.2 p hp; omega
    · intro p hp
      rcases List.mem_append.1 hp with hp | hp
      · rcases List.mem_append.1 hp with hp | hp
        · exact (t.2 p hp).1
        · have := b.2 p hp; omega
      · have := h.2 p hp; omega

end TR
