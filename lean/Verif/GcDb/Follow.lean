import Verif.GcDb.Lemmas
/-! # Lemmas: the checker follows the routes -/
namespace TR

theorem metalOf_cons (w : PartNet) (nets : List PartNet) (n : Nat) : metalOf (w :: nets) n =
    (if w.net = n then (w.ext ++ w.route).flatMap DbFig.metal else []) ++ metalOf nets n := by
  by_cases h : w.net = n <;> simp [metalOf, h]
theorem cutsOf_cons (w : PartNet) (nets : List PartNet) (n : Nat) : cutsOf (w :: nets) n =
    (if w.net = n then (w.ext ++ w.route).flatMap DbFig.cuts else []) ++ cutsOf nets n := by
  by_cases h : w.net = n <;> simp [cutsOf, h]

def withPatch (l : Nat) (b : Box) (w : PartNet) : PartNet := { w with route := w.route ++ [.patch l b] }

theorem cutsOf_modify (n l : Nat) (b : Box) : ∀ (nets : List PartNet) (i : Nat), cutsOf (nets.modify i (withPatch l b)) n = cutsOf nets n := by
  intro nets
  induction nets with
  | nil => intro i; cases i <;> rfl
  | cons w nets ih =>
    intro i
    cases i with
    | zero => rw [List.modify_zero_cons, cutsOf_cons, cutsOf_cons]; simp [withPatch, DbFig.cuts]
    | succ i => rw [List.modify_succ_cons, cutsOf_cons, cutsOf_cons, ih]

theorem metalOf_modify (n l : Nat) (b : Box) (x : LBox) : ∀ (nets : List PartNet) (i : Nat), x ∈ metalOf (nets.modify i (withPatch l b)) n ↔
    x ∈ metalOf nets n ∨ ((nets[i]?).map (·.net) = some n ∧ x = (l, b)) := by
  intro nets
  induction nets with
  | nil => intro i; cases i <;> simp [metalOf]
  | cons w nets ih =>
    intro i
    cases i with
    | zero =>
      rw [List.modify_zero_cons, metalOf_cons, metalOf_cons]
      by_cases h : w.net = n
      · simp only [withPatch, h, if_true, List.mem_append, List.flatMap_append, List.flatMap_cons, List.flatMap_nil, DbFig.metal, List.append_nil, List.mem_singleton,
          List.getElem?_cons_zero, Option.map_some, true_and]
        constructor
        · rintro ((h1 | h1 | h1) | h1)
          · exact .inl (.inl (.inl h1))
          · exact .inl (.inl (.inr h1))
          · exact .inr h1
          · exact .inl (.inr h1)
        · rintro (((h1 | h1) | h1) | h1)
          · exact .inl (.inl h1)
          · exact .inl (.inr (.inl h1))
          · exact .inr h1
          · exact .inl (.inr (.inr h1))
      · simp [withPatch, h]
    | succ i =>
      rw [List.modify_succ_cons, metalOf_cons, metalOf_cons, List.mem_append, ih, List.mem_append]
      simp only [List.getElem?_cons_succ]
      constructor
      · rintro (h | h | h)
        · exact .inl (.inl h)
        · exact .inl (.inr h)
        · exact .inr h
      · rintro ((h | h) | h)
        · exact .inl h
        · exact .inr (.inl h)
        · exact .inr (.inr h)

theorem modify_net (l : Nat) (b : Box) (nets : List PartNet) (i j : Nat) : ((nets.modify i (withPatch l b))[j]?).map (·.net) = (nets[j]?).map (·.net) := by
  rw [List.getElem?_modify]
  by_cases h : i = j
  · subst h; cases nets[i]? <;> simp [withPatch]
  · simp [h]

/-- the nets with patches written into their routes -/
def withPatches (ps : List DbPatch) (nets : List PartNet) : List PartNet := ps.foldl (fun ns p => ns.modify p.part (withPatch p.layer p.box)) nets

theorem writePatches_nets (s : CheckerSt) : s.writePatches.nets = withPatches s.pw s.nets := rfl

theorem withPatches_cuts (n : Nat) : ∀ (ps : List DbPatch) (nets : List PartNet), cutsOf (withPatches ps nets) n = cutsOf nets n := by
  intro ps
  induction ps with
  | nil => intro nets; rfl
  | cons p ps ih => intro nets; rw [withPatches, List.foldl_cons]; exact (ih _).trans (cutsOf_modify ..)

theorem withPatches_metal (n : Nat) (x : LBox) : ∀ (ps : List DbPatch) (nets : List PartNet), x ∈ metalOf (withPatches ps nets) n ↔
    x ∈ metalOf nets n ∨ ∃ p ∈ ps, (nets[p.part]?).map (·.net) = some n ∧ x = (p.layer, p.box) := by
  intro ps
  induction ps with
  | nil => intro nets; simp [withPatches]
  | cons p ps ih =>
    intro nets
    rw [withPatches, List.foldl_cons]
    refine (ih _).trans ?_
    rw [metalOf_modify]
    simp only [modify_net, List.mem_cons]
    constructor
    · rintro ((h | h) | ⟨q, hq, h⟩)
      · exact .inl h
      · exact .inr ⟨p, .inl rfl, h⟩
      · exact .inr ⟨q, .inr hq, h⟩
    · rintro (h | ⟨q, hq | hq, h⟩)
      · exact .inl (.inl h)
      · subst hq; exact .inl (.inr h)
      · exact .inr ⟨q, hq, h⟩

theorem withPatches_len : ∀ (ps : List DbPatch) (nets : List PartNet) (j : Nat), ((withPatches ps nets)[j]?).map (·.net) = (nets[j]?).map (·.net) := by
  intro ps
  induction ps with
  | nil => intro nets j; rfl
  | cons p ps ih => intro nets j; rw [withPatches, List.foldl_cons]; exact (ih _ j).trans (modify_net ..)

theorem withPatches_ext : ∀ (ps : List DbPatch) (nets : List PartNet) (j : Nat), ((withPatches ps nets)[j]?).map (·.ext) = (nets[j]?).map (·.ext) := by
  intro ps
  induction ps with
  | nil => intro nets j; rfl
  | cons p ps ih =>
    intro nets j; rw [withPatches, List.foldl_cons]
    refine (ih _ j).trans ?_
    rw [List.getElem?_modify]
    by_cases h : p.part = j
    · rw [h]; cases nets[j]? <;> simp [withPatch]
    · simp [h]

/-- fixed shapes and shapes without a net are known -/
structure KnowsRest (db : ShapeDb) (F : List FixedShape) : Prop where
  fixedMetal : ∀ o l b, (l, b) ∈ (db o).fixedPoly ↔ ∃ s ∈ F, s.obj.owner = o ∧ s.isCut = false ∧ s.layer = l ∧ s.box = b
  fixedCuts : ∀ o, (db o).fixedCut = (F.filter (fun s => decide (s.obj.owner = o) && s.isCut)).map (fun s => (s.layer, s.box))
  others : ∀ o, (∀ n, o ≠ .net n) → (db o).routePoly = [] ∧ (db o).routeCut = []

/-- the routed shapes of a net are known, and possibly more metal -/
structure KnowsNet (db : ShapeDb) (nets : List PartNet) (more : List LBox) (n : Nat) : Prop where
  metal : ∀ x, x ∈ (db (.net n)).routePoly ↔ x ∈ metalOf nets n ∨ x ∈ more
  cuts : (db (.net n)).routeCut = cutsOf nets n

theorem knows_iff {db : ShapeDb} {F : List FixedShape} {nets : List PartNet} : Knows db F nets ↔ KnowsRest db F ∧ ∀ n, KnowsNet db nets [] n := by
  constructor
  · intro h
    refine ⟨⟨h.fixedMetal, h.fixedCuts, h.others⟩, fun n => ⟨fun x => ?_, h.cuts n⟩⟩
    rw [mem_metalOf]; simp only [List.not_mem_nil, or_false]
    exact h.metal n x.1 x.2
  · rintro ⟨hr, hn⟩
    refine ⟨hr.fixedMetal, hr.fixedCuts, fun n l b => ?_, fun n => (hn n).cuts, hr.others⟩
    have := (hn n).metal (l, b)
    rw [mem_metalOf] at this; simpa using this

theorem mem_patchBoxes {s : CheckerSt} {n : Nat} {ps : List DbPatch} {x : LBox} : x ∈ patchBoxes s n ps ↔ ∃ p ∈ ps, s.netOf p = some n ∧ x = (p.layer, p.box) := by
  simp only [patchBoxes, List.mem_map, List.mem_filter, decide_eq_true_eq]
  constructor
  · rintro ⟨p, ⟨hp, hn⟩, rfl⟩; exact ⟨p, hp, hn, rfl⟩
  · rintro ⟨p, hp, hn, rfl⟩; exact ⟨p, ⟨hp, hn⟩, rfl⟩

theorem update_knows {s : CheckerSt} {F : List FixedShape} (hr : KnowsRest s.db F) (hn : ∀ n, n ∉ s.pending → KnowsNet s.db s.nets [] n) :
    KnowsRest s.update.db F ∧ ∀ n, KnowsNet s.update.db s.nets (patchBoxes s n s.pw) n := by
  have hdb : ∀ o, s.update.db o = _ := fun o => patches_add s o s.pw ((s.pending ++ s.pw.filterMap s.netOf).foldl (refresh s.nets) s.db)
  have hfix : ∀ o, (s.update.db o).fixedPoly = (s.db o).fixedPoly ∧ (s.update.db o).fixedCut = (s.db o).fixedCut := by
    intro o
    rw [hdb o]
    cases o with
    | net n =>
      dsimp only
      by_cases h : n ∈ s.pending ++ s.pw.filterMap s.netOf
      · rw [refreshAll_in _ _ _ h]; exact ⟨rfl, rfl⟩
      · rw [refreshAll_out]
        · exact ⟨rfl, rfl⟩
        · intro m hm e; cases e; exact h hm
    | _ => dsimp only; rw [refreshAll_out]; · exact ⟨rfl, rfl⟩
           · intro m _ e; cases e
  refine ⟨⟨fun o l b => ?_, fun o => ?_, fun o ho => ?_⟩, fun n => ?_⟩
  · rw [(hfix o).1]; exact hr.fixedMetal o l b
  · rw [(hfix o).2]; exact hr.fixedCuts o
  · rw [hdb o]
    cases o with
    | net n => exact absurd rfl (ho n)
    | _ => dsimp only; rw [refreshAll_out]; · exact hr.others _ ho
           · intro m _; exact ho m
  · by_cases h : n ∈ s.pending ++ s.pw.filterMap s.netOf
    · constructor
      · intro x; rw [hdb]; dsimp only; rw [refreshAll_in _ _ _ h]; simp
      · rw [hdb]; dsimp only; rw [refreshAll_in _ _ _ h]
    · have hp : patchBoxes s n s.pw = [] := by
        cases hb : patchBoxes s n s.pw with
        | nil => rfl
        | cons x xs =>
          have : x ∈ patchBoxes s n s.pw := by rw [hb]; exact List.mem_cons_self
          obtain ⟨p, hp, hn', _⟩ := mem_patchBoxes.1 this
          exact absurd (List.mem_append_right _ (List.mem_filterMap.2 ⟨p, hp, hn'⟩)) h
      have h1 := hn n (fun hp => h (List.mem_append_left _ hp))
      have he : s.update.db (.net n) = s.db (.net n) := by
        rw [hdb]; dsimp only; rw [hp, refreshAll_out]
        · simp
        · intro m hm e; cases e; exact h hm
      rw [hp]
      exact ⟨by rw [he]; exact h1.metal, by rw [he]; exact h1.cuts⟩

/-- state between two steps: everything is known, and the last patches are part of the routes -/
structure Settled (s : CheckerSt) (F : List FixedShape) : Prop where
  pending : s.pending = []
  knows : Knows s.db F s.nets
  patches : ∀ p ∈ s.pw, ∀ n, s.netOf p = some n → (p.layer, p.box) ∈ metalOf s.nets n

theorem main_write {s : CheckerSt} {F : List FixedShape} (hr : KnowsRest s.db F) (hn : ∀ n, n ∉ s.pending → KnowsNet s.db s.nets [] n)
    (node : Bool) (patches : List DbPatch) : Settled ((s.main node true patches).writePatches) F := by
  generalize hs' : (if (true && node) = true then { s with pw := patches } else s) = s'
  have h1 : s'.nets = s.nets ∧ s'.db = s.db ∧ s'.pending = s.pending := by rw [← hs']; split <;> exact ⟨rfl, rfl, rfl⟩
  have hm : s.main node true patches = if s'.pending ≠ [] ∨ s'.pw ≠ [] then s'.update else s' := by unfold CheckerSt.main; simp only [hs']
  rw [hm]
  by_cases hc : s'.pending ≠ [] ∨ s'.pw ≠ []
  · rw [if_pos hc]
    obtain ⟨h2, h3⟩ := update_knows (s := s') (F := F) (by rw [h1.2.1]; exact hr) (by rw [h1.2.1, h1.2.2, h1.1]; exact hn)
    refine ⟨rfl, knows_iff.2 ⟨h2, fun n => ⟨fun x => ?_, ?_⟩⟩, fun p hp n hn' => ?_⟩
    · have := (h3 n).metal x
      refine this.trans ?_
      simp only [List.not_mem_nil, or_false]
      refine Iff.trans ?_ (withPatches_metal n x s'.update.pw s'.update.nets).symm
      rw [mem_patchBoxes]; exact Iff.rfl
    · exact (h3 n).cuts.trans (withPatches_cuts n s'.update.pw s'.update.nets).symm
    · refine (withPatches_metal n _ s'.update.pw s'.update.nets).2 (.inr ⟨p, hp, ?_, rfl⟩)
      have : (s'.update.writePatches).netOf p = s'.netOf p := withPatches_len _ _ _
      rw [this] at hn'; exact hn'
  · rw [if_neg hc]
    rw [not_or, Decidable.not_not, Decidable.not_not] at hc
    have he : s'.writePatches = s' := by
      cases s'; simp only at hc; simp [CheckerSt.writePatches, hc.2]
    rw [he]
    refine ⟨hc.1, knows_iff.2 ⟨by rw [h1.2.1]; exact hr, fun n => ?_⟩, fun p hp => ?_⟩
    · rw [h1.2.1, h1.1]; apply hn; rw [← h1.2.2, hc.1]; simp
    · rw [hc.2] at hp; cases hp

theorem main_check {s : CheckerSt} {F : List FixedShape} (h : Settled s F) (node : Bool) : Settled (s.main node false []) F := by
  have hm : s.main node false [] = if s.pending ≠ [] ∨ s.pw ≠ [] then s.update else s := by unfold CheckerSt.main; simp
  rw [hm]
  split
  · obtain ⟨hr, hn⟩ := knows_iff.1 h.knows
    obtain ⟨h2, h3⟩ := update_knows (s := s) hr (fun n _ => hn n)
    refine ⟨rfl, knows_iff.2 ⟨h2, fun n => ⟨fun x => ?_, (h3 n).cuts⟩⟩, h.patches⟩
    refine ((h3 n).metal x).trans ?_
    simp only [List.not_mem_nil, or_false]
    constructor
    · rintro (hx | hx)
      · exact hx
      · obtain ⟨p, hp, hn', rfl⟩ := mem_patchBoxes.1 hx
        exact h.patches p hp n hn'
    · exact .inl
  · exact h

theorem metalOf_set {nets : List PartNet} {i n : Nat} {w : PartNet} (hw : nets[i]? = some w) (r : List DbFig) (hn : n ≠ w.net) :
    metalOf (nets.set i { w with route := r }) n = metalOf nets n ∧ cutsOf (nets.set i { w with route := r }) n = cutsOf nets n := by
  induction nets generalizing i with
  | nil => simp at hw
  | cons v nets ih =>
    cases i with
    | zero =>
      simp only [List.getElem?_cons_zero, Option.some.injEq] at hw
      subst hw
      have : ¬ v.net = n := fun e => hn e.symm
      rw [List.set_cons_zero, metalOf_cons, metalOf_cons, cutsOf_cons, cutsOf_cons]; simp [this]
    | succ i =>
      rw [List.getElem?_cons_succ] at hw
      rw [List.set_cons_succ, metalOf_cons, metalOf_cons, cutsOf_cons, cutsOf_cons, (ih hw).1, (ih hw).2]; exact ⟨rfl, rfl⟩

theorem step_settled {s : CheckerSt} {F : List FixedShape} (h : Settled s F) (node : Bool) (op : QueueOp) : Settled (s.step node op) F := by
  cases op with
  | check => exact main_check h node
  | reroute i figs patches =>
    simp only [CheckerSt.step]
    cases hi : s.nets[i]? with
    | none => exact h
    | some w =>
      dsimp only
      obtain ⟨hr, hn⟩ := knows_iff.1 h.knows
      refine main_write (s := ⟨s.nets.set i { w with route := figs }, s.db, s.pending ++ [w.net], s.pw⟩) hr (fun n hn' => ?_) node patches
      dsimp only at hn' ⊢
      have : n ≠ w.net := fun e => hn' (by rw [e]; simp)
      obtain ⟨e1, e2⟩ := metalOf_set hi figs this
      exact ⟨by rw [e1]; exact (hn n).metal, by rw [e2]; exact (hn n).cuts⟩

theorem steps_settled (node : Bool) {F : List FixedShape} (ops : List QueueOp) : ∀ {s : CheckerSt}, Settled s F → Settled (ops.foldl (CheckerSt.step node) s) F := by
  induction ops with
  | nil => intro s h; exact h
  | cons op ops ih => intro s h; exact ih (step_settled h node op)

end TR
