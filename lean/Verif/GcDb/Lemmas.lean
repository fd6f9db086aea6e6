import Verif.GcDb.Spec
/-! # Lemmas: the shapes known to the violation checker -/
namespace TR

theorem dbset_same (db : ShapeDb) (o : DbOwner) (d : DbNet) : ShapeDb.set db o d o = d := by simp [ShapeDb.set]
theorem dbset_other (db : ShapeDb) {o q : DbOwner} (d : DbNet) (h : q ≠ o) : ShapeDb.set db o d q = db q := by simp [ShapeDb.set, h]

theorem add_many (bs : List Box) (l : Nat) : ∀ d : DbNet, bs.foldl (fun d b => d.add false false (l, b)) d =
    { d with routePoly := d.routePoly ++ bs.map (fun b => (l, b)) } := by
  induction bs with
  | nil => intro d; simp
  | cons b bs ih => intro d; rw [List.foldl_cons, ih]; simp [DbNet.add]

theorem add_cuts (bs : List Box) (l : Nat) : ∀ d : DbNet, bs.foldl (fun d b => d.add true false (l, b)) d =
    { d with routeCut := d.routeCut ++ bs.map (fun b => (l, b)) } := by
  induction bs with
  | nil => intro d; simp
  | cons b bs ih => intro d; rw [List.foldl_cons, ih]; simp [DbNet.add]

theorem addFig_eq (d : DbNet) (f : DbFig) : d.addFig f = { d with routePoly := d.routePoly ++ f.metal, routeCut := d.routeCut ++ f.cuts } := by
  cases f with
  | seg l b => simp [DbNet.addFig, DbNet.add, DbFig.metal, DbFig.cuts]
  | patch l b => simp [DbNet.addFig, DbNet.add, DbFig.metal, DbFig.cuts]
  | via l1 c l2 b1 bc b2 =>
    simp only [DbNet.addFig]
    rw [add_many, add_cuts, add_many]
    simp [DbFig.metal, DbFig.cuts]

theorem addFigs_eq (fs : List DbFig) : ∀ d : DbNet, d.addFigs fs =
    { d with routePoly := d.routePoly ++ fs.flatMap DbFig.metal, routeCut := d.routeCut ++ fs.flatMap DbFig.cuts } := by
  induction fs with
  | nil => intro d; simp [DbNet.addFigs]
  | cons f fs ih =>
    intro d
    have h : d.addFigs (f :: fs) = (d.addFig f).addFigs fs := rfl
    rw [h, ih, addFig_eq]
    simp

/-- routed shapes of a net of the design, over all its parts -/
def metalOf (nets : List PartNet) (n : Nat) : List LBox :=
  (nets.filter (fun w => decide (w.net = n))).flatMap (fun w => (w.ext ++ w.route).flatMap DbFig.metal)
def cutsOf (nets : List PartNet) (n : Nat) : List LBox :=
  (nets.filter (fun w => decide (w.net = n))).flatMap (fun w => (w.ext ++ w.route).flatMap DbFig.cuts)

theorem addPart_same (db : ShapeDb) (p : PartNet) : addPart db p (.net p.net) =
    { db (.net p.net) with routePoly := (db (.net p.net)).routePoly ++ (p.ext ++ p.route).flatMap DbFig.metal,
                           routeCut := (db (.net p.net)).routeCut ++ (p.ext ++ p.route).flatMap DbFig.cuts } := by
  rw [addPart, dbset_same, addFigs_eq, addFigs_eq]
  simp

theorem addPart_other (db : ShapeDb) (p : PartNet) {o : DbOwner} (h : o ≠ .net p.net) : addPart db p o = db o := by
  rw [addPart, dbset_other _ _ h]

theorem addParts_net (n : Nat) : ∀ (nets : List PartNet) (db : ShapeDb), nets.foldl addPart db (.net n) =
    { db (.net n) with routePoly := (db (.net n)).routePoly ++ metalOf nets n, routeCut := (db (.net n)).routeCut ++ cutsOf nets n } := by
  intro nets
  induction nets with
  | nil => intro db; simp [metalOf, cutsOf]
  | cons p nets ih =>
    intro db
    rw [List.foldl_cons, ih]
    by_cases h : p.net = n
    · subst h
      rw [addPart_same]
      simp [metalOf, cutsOf]
    · rw [addPart_other _ _ (by intro e; cases e; exact h rfl)]
      simp [metalOf, cutsOf, h]

theorem addParts_other {o : DbOwner} : ∀ (nets : List PartNet) (db : ShapeDb), (∀ p ∈ nets, o ≠ .net p.net) → nets.foldl addPart db o = db o := by
  intro nets
  induction nets with
  | nil => intro db _; rfl
  | cons p nets ih =>
    intro db h
    rw [List.foldl_cons, ih _ (fun q hq => h q (List.mem_cons_of_mem _ hq)), addPart_other _ _ (h p List.mem_cons_self)]

theorem metalOf_filter (nets : List PartNet) (n : Nat) : metalOf (nets.filter (fun p => p.net == n)) n = metalOf nets n := by
  have : (fun p : PartNet => p.net == n) = (fun p => decide (p.net = n)) := by funext p; by_cases h : p.net = n <;> simp [h]
  rw [this]; unfold metalOf; rw [List.filter_filter]; simp
theorem cutsOf_filter (nets : List PartNet) (n : Nat) : cutsOf (nets.filter (fun p => p.net == n)) n = cutsOf nets n := by
  have : (fun p : PartNet => p.net == n) = (fun p => decide (p.net = n)) := by funext p; by_cases h : p.net = n <;> simp [h]
  rw [this]; unfold cutsOf; rw [List.filter_filter]; simp

theorem refresh_same (nets : List PartNet) (db : ShapeDb) (n : Nat) : refresh nets db n (.net n) =
    { db (.net n) with routePoly := metalOf nets n, routeCut := cutsOf nets n } := by
  rw [refresh, addParts_net, dbset_same, metalOf_filter, cutsOf_filter]
  simp [DbNet.clear]

theorem refresh_other (nets : List PartNet) (db : ShapeDb) (n : Nat) {o : DbOwner} (h : o ≠ .net n) : refresh nets db n o = db o := by
  rw [refresh, addParts_other, dbset_other _ _ h]
  intro p hp
  rw [List.mem_filter] at hp
  have : p.net = n := by simpa using hp.2
  rw [this]; exact h

theorem refreshAll_in (nets : List PartNet) {n : Nat} : ∀ (ns : List Nat) (db : ShapeDb), n ∈ ns → ns.foldl (refresh nets) db (.net n) =
    { db (.net n) with routePoly := metalOf nets n, routeCut := cutsOf nets n } := by
  intro ns
  induction ns with
  | nil => intro db h; cases h
  | cons m ns ih =>
    intro db h
    rw [List.foldl_cons]
    by_cases hn : n ∈ ns
    · rw [ih _ hn]
      by_cases hm : n = m
      · subst hm; rw [refresh_same]
      · rw [refresh_other _ _ _ (by intro e; cases e; exact hm rfl)]
    · have hm : n = m := by cases h with | head => rfl | tail _ h => exact absurd h hn
      subst hm
      have key : ∀ (ns : List Nat) (db : ShapeDb), n ∉ ns → ns.foldl (refresh nets) db (.net n) = db (.net n) := by
        intro ns
        induction ns with
        | nil => intro db _; rfl
        | cons k ns ih2 =>
          intro db h2
          rw [List.foldl_cons, ih2 _ (fun h => h2 (List.mem_cons_of_mem _ h)), refresh_other]
          intro e; cases e; exact h2 List.mem_cons_self
      rw [key _ _ hn, refresh_same]

theorem refreshAll_out (nets : List PartNet) {o : DbOwner} : ∀ (ns : List Nat) (db : ShapeDb), (∀ n ∈ ns, o ≠ .net n) → ns.foldl (refresh nets) db o = db o := by
  intro ns
  induction ns with
  | nil => intro db _; rfl
  | cons k ns ih =>
    intro db h
    rw [List.foldl_cons, ih _ (fun n hn => h n (List.mem_cons_of_mem _ hn)), refresh_other _ _ _ (h k List.mem_cons_self)]

/-- boxes of the patches of a net -/
def patchBoxes (s : CheckerSt) (n : Nat) (ps : List DbPatch) : List LBox :=
  (ps.filter (fun p => decide (s.netOf p = some n))).map (fun p => (p.layer, p.box))

theorem patches_add (s : CheckerSt) (o : DbOwner) : ∀ (ps : List DbPatch) (db : ShapeDb),
    (ps.foldl (fun db p => match s.netOf p with
      | some n => ShapeDb.set db (.net n) ((db (.net n)).addFig (.patch p.layer p.box))
      | none => db) db) o =
    match o with
    | .net n => { db (.net n) with routePoly := (db (.net n)).routePoly ++ patchBoxes s n ps }
    | o => db o := by
  intro ps
  induction ps with
  | nil => intro db; cases o <;> simp [patchBoxes]
  | cons p ps ih =>
    intro db
    rw [List.foldl_cons, ih]
    cases hp : s.netOf p with
    | none => cases o <;> simp [patchBoxes, hp]
    | some m =>
      cases o with
      | net n =>
        by_cases hn : n = m
        · subst hn
          simp only [dbset_same, addFig_eq]
          simp [patchBoxes, hp, DbFig.metal, DbFig.cuts]
        · have : (DbOwner.net n) ≠ .net m := by intro e; cases e; exact hn rfl
          simp only [dbset_other _ _ this]
          have h2 : ¬ m = n := fun e => hn e.symm
          simp [patchBoxes, hp, h2]
      | _ => simp only; rw [dbset_other]; intro e; cases e

theorem mem_metalOf {nets : List PartNet} {n : Nat} {x : LBox} : x ∈ metalOf nets n ↔
    ∃ w ∈ nets, w.net = n ∧ ∃ f, (f ∈ w.ext ∨ f ∈ w.route) ∧ x ∈ f.metal := by
  simp only [metalOf, List.mem_flatMap, List.mem_filter, decide_eq_true_eq, List.mem_append]
  constructor
  · rintro ⟨w, ⟨hw, hn⟩, f, hf, hx⟩; exact ⟨w, hw, hn, f, hf, hx⟩
  · rintro ⟨w, hw, hn, f, hf, hx⟩; exact ⟨w, ⟨hw, hn⟩, f, hf, hx⟩

/-! ## Fixed shapes -/

theorem initFixed_eq (o : DbOwner) (F : List FixedShape) : ∀ db : ShapeDb,
    (F.foldl (fun db s => ShapeDb.set db s.obj.owner ((db s.obj.owner).add s.isCut true (s.layer, s.box))) db) o =
    { db o with fixedPoly := (db o).fixedPoly ++ (F.filter (fun s => decide (s.obj.owner = o) && !s.isCut)).map (fun s => (s.layer, s.box)),
                fixedCut := (db o).fixedCut ++ (F.filter (fun s => decide (s.obj.owner = o) && s.isCut)).map (fun s => (s.layer, s.box)) } := by
  induction F with
  | nil => intro db; simp
  | cons s F ih =>
    intro db
    rw [List.foldl_cons, ih]
    by_cases h : s.obj.owner = o
    · subst h
      rw [dbset_same]
      cases hc : s.isCut <;> simp [DbNet.add, hc]
    · rw [dbset_other _ _ (fun e => h e.symm)]
      simp [h]

/-- the closed form of the initial shapes -/
theorem initDb_net (F : List FixedShape) (nets : List PartNet) (n : Nat) : initDb F nets (.net n) =
    ⟨(F.filter (fun s => decide (s.obj.owner = .net n) && !s.isCut)).map (fun s => (s.layer, s.box)),
     (F.filter (fun s => decide (s.obj.owner = .net n) && s.isCut)).map (fun s => (s.layer, s.box)), metalOf nets n, cutsOf nets n⟩ := by
  rw [initDb, addParts_net, initFixed, initFixed_eq]
  simp

theorem initDb_other (F : List FixedShape) (nets : List PartNet) (o : DbOwner) (h : ∀ n, o ≠ .net n) : initDb F nets o =
    ⟨(F.filter (fun s => decide (s.obj.owner = o) && !s.isCut)).map (fun s => (s.layer, s.box)),
     (F.filter (fun s => decide (s.obj.owner = o) && s.isCut)).map (fun s => (s.layer, s.box)), [], []⟩ := by
  rw [initDb, addParts_other _ _ (fun p _ => h p.net), initFixed, initFixed_eq]
  simp

theorem initDb_knows (F : List FixedShape) (nets : List PartNet) : Knows (initDb F nets) F nets := by
  have hf : ∀ o, (initDb F nets o).fixedPoly = (F.filter (fun s => decide (s.obj.owner = o) && !s.isCut)).map (fun s => (s.layer, s.box)) ∧
      (initDb F nets o).fixedCut = (F.filter (fun s => decide (s.obj.owner = o) && s.isCut)).map (fun s => (s.layer, s.box)) := by
    intro o
    by_cases h : ∃ n, o = .net n
    · obtain ⟨n, rfl⟩ := h; rw [initDb_net]; exact ⟨rfl, rfl⟩
    · rw [initDb_other F nets o (fun n e => h ⟨n, e⟩)]; exact ⟨rfl, rfl⟩
  refine ⟨fun o l b => ?_, fun o => (hf o).2, fun n l b => ?_, fun n => ?_, fun o h => ?_⟩
  · rw [(hf o).1]
    simp only [List.mem_map, List.mem_filter, Bool.and_eq_true, decide_eq_true_eq, Bool.not_eq_true', Prod.mk.injEq]
    constructor
    · rintro ⟨s, ⟨hs, ho, hc⟩, hl, hb⟩; exact ⟨s, hs, ho, hc, hl, hb⟩
    · rintro ⟨s, hs, ho, hc, hl, hb⟩; exact ⟨s, ⟨hs, ho, hc⟩, hl, hb⟩
  · rw [initDb_net]; exact mem_metalOf
  · rw [initDb_net]; rfl
  · rw [initDb_other F nets o h]; exact ⟨rfl, rfl⟩

end TR
