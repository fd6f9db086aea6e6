import Verif.GcDb.FindSpec
import Verif.GcDb.Props

/-!
# C204: what the checker finds are the present shapes
-/

namespace TR

theorem gqDedup_mem {α : Type} [DecidableEq α] (l : List α) : ∀ (acc : List α) (x : α),
    x ∈ l.foldl (fun os o => if o ∈ os then os else os ++ [o]) acc ↔ x ∈ acc ∨ x ∈ l := by
  induction l with
  | nil => intro acc x; simp
  | cons a l ih =>
      intro acc x
      rw [List.foldl_cons, ih]
      by_cases h : a ∈ acc
      · rw [if_pos h, List.mem_cons]
        constructor
        · rintro (h1 | h1)
          · exact .inl h1
          · exact .inr (.inr h1)
        · rintro (h1 | rfl | h1)
          · exact .inl h1
          · exact .inl h
          · exact .inr h1
      · rw [if_neg h, List.mem_cons, List.mem_append, List.mem_singleton, or_assoc]

theorem gqDedup_nodup {α : Type} [DecidableEq α] (l : List α) : ∀ (acc : List α), acc.Nodup →
    (l.foldl (fun os o => if o ∈ os then os else os ++ [o]) acc).Nodup := by
  induction l with
  | nil => intro acc h; exact h
  | cons a l ih =>
      intro acc h
      rw [List.foldl_cons]
      apply ih
      by_cases ha : a ∈ acc
      · rw [if_pos ha]; exact h
      · rw [if_neg ha]
        rw [List.nodup_append]
        refine ⟨h, by simp, ?_⟩
        intro x hx y hy he
        rw [List.mem_singleton] at hy
        subst hy he
        exact ha hx

theorem gqMake_snd (addr : Nat → Nat) (gs : List GqObj) : ∀ m, (gqMake addr m gs).map (·.2) = gs := by
  induction gs with
  | nil => intro m; rfl
  | cons g gs ih => intro m; simp [gqMake, ih]

/-- the entries of a net -/
def gqOf (objs : DbOwner → List (Nat × GqObj)) (o : DbOwner) : List GqEnt := (objs o).map fun x => (o, x.1, x.2)

theorem gqAdd_perm (o : DbOwner) (xs : List (Nat × GqObj)) : ∀ es : List GqEnt,
    (xs.foldl (fun es x => (o, x.1, x.2) :: es) es).Perm (es ++ xs.map fun x => (o, x.1, x.2)) := by
  induction xs with
  | nil => intro es; simp
  | cons x xs ih =>
      intro es
      rw [List.foldl_cons, List.map_cons]
      exact (ih _).trans List.perm_middle.symm

theorem gqErase_perm (o : DbOwner) (r : List GqEnt) (xs : List (Nat × GqObj)) : ∀ es : List GqEnt,
    es.Perm ((xs.map fun x => (o, x.1, x.2)) ++ r) → (xs.foldl (fun es x => es.erase (o, x.1, x.2)) es).Perm r := by
  induction xs with
  | nil => intro es h; simpa using h
  | cons x xs ih =>
      intro es h
      rw [List.foldl_cons]
      apply ih
      have := h.erase (o, x.1, x.2)
      rwa [List.map_cons, List.cons_append, List.erase_cons_head] at this

/-- changing the objects of one net -/
theorem gqFlat_split (os : List DbOwner) (hnd : os.Nodup) (o : DbOwner) (ho : o ∈ os) (objs : DbOwner → List (Nat × GqObj)) :
    ∃ r, ∀ xs, (os.flatMap (gqOf fun p => if p = o then xs else objs p)).Perm ((xs.map fun x => (o, x.1, x.2)) ++ r) := by
  induction os with
  | nil => cases ho
  | cons a os ih =>
      rw [List.nodup_cons] at hnd
      by_cases h : a = o
      · subst h
        refine ⟨os.flatMap (gqOf objs), fun xs => ?_⟩
        rw [List.flatMap_cons]
        have e1 : gqOf (fun p => if p = a then xs else objs p) a = xs.map fun x => (a, x.1, x.2) := by simp [gqOf]
        have e2 : os.flatMap (gqOf fun p => if p = a then xs else objs p) = os.flatMap (gqOf objs) := by
          have : ∀ l : List DbOwner, a ∉ l → l.flatMap (gqOf fun p => if p = a then xs else objs p) = l.flatMap (gqOf objs) := by
            intro l
            induction l with
            | nil => intro _; rfl
            | cons b l ih2 =>
                intro hb
                rw [List.mem_cons, not_or] at hb
                have hba : b ≠ a := fun e => hb.1 e.symm
                rw [List.flatMap_cons, List.flatMap_cons, ih2 hb.2]
                simp [gqOf, hba]
          exact this os hnd.1
        rw [e1, e2]
      · have ho' : o ∈ os := by
          rcases List.mem_cons.1 ho with rfl | h1
          · exact absurd rfl h
          · exact h1
        obtain ⟨r, hr⟩ := ih hnd.2 ho'
        refine ⟨gqOf objs a ++ r, fun xs => ?_⟩
        rw [List.flatMap_cons]
        have e1 : gqOf (fun p => if p = o then xs else objs p) a = gqOf objs a := by simp [gqOf, h]
        rw [e1]
        refine ((hr xs).append_left _).trans ?_
        rw [← List.append_assoc, ← List.append_assoc]
        exact List.perm_append_comm.append_right _

theorem gqSelf (o : DbOwner) (objs : DbOwner → List (Nat × GqObj)) : (fun p => if p = o then objs o else objs p) = objs := by
  funext p
  by_cases h : p = o
  · subst h; simp
  · simp [h]

/-- taking a net out and deleting its objects -/
theorem gq_out (s : GqSt) (hnd : s.owners.Nodup) (o : DbOwner) (ho : o ∈ s.owners) (h : s.ents.Perm (s.owners.flatMap (gqOf s.objs))) :
    ((s.removeNet o).clearPins o).ents.Perm (s.owners.flatMap (gqOf ((s.removeNet o).clearPins o).objs)) := by
  obtain ⟨r, hr⟩ := gqFlat_split s.owners hnd o ho s.objs
  have h0 := hr (s.objs o)
  rw [gqSelf] at h0
  have h1 := hr []
  refine (gqErase_perm o r (s.objs o) s.ents (h.trans h0)).trans ?_
  exact h1.symm

/-- making the objects of a net that has none, and putting them in -/
theorem gq_in (mk : DbNet → List GqObj) (addr : Nat → Nat) (s : GqSt) (hnd : s.owners.Nodup) (o : DbOwner) (ho : o ∈ s.owners)
    (he : s.objs o = []) (h : s.ents.Perm (s.owners.flatMap (gqOf s.objs))) :
    ((s.initNet mk addr o).addNet o).ents.Perm (s.owners.flatMap (gqOf ((s.initNet mk addr o).addNet o).objs)) := by
  obtain ⟨r, hr⟩ := gqFlat_split s.owners hnd o ho s.objs
  have h0 := hr (s.objs o)
  rw [gqSelf, he] at h0
  have h1 := hr (s.objs o ++ gqMake addr s.made (mk (s.chk.db o)))
  refine (gqAdd_perm o _ _).trans ?_
  refine List.Perm.trans ?_ h1.symm
  refine List.perm_append_comm.trans ?_
  have e : (s.initNet mk addr o).objs o = s.objs o ++ gqMake addr s.made (mk (s.chk.db o)) := by simp [GqSt.initNet]
  rw [e]
  exact (h.trans h0).append_left _

/-- everything about a state that stays -/
structure GqInv (mk : DbNet → List GqObj) (F : List FixedShape) (s : GqSt) : Prop where
  owners : s.owners = gqOwners F s.chk.nets
  pend : ∀ n ∈ s.chk.pending, DbOwner.net n ∈ s.owners
  objs : ∀ o ∈ s.owners, (s.objs o).map (·.2) = mk (s.chk.db o)
  ents : s.ents.Perm (s.owners.flatMap (gqOf s.objs))

theorem gqOwners_nodup (F : List FixedShape) (nets : List PartNet) : (gqOwners F nets).Nodup := gqDedup_nodup _ _ List.nodup_nil

theorem gqOwners_net (F : List FixedShape) (nets : List PartNet) (w : PartNet) (h : w ∈ nets) : DbOwner.net w.net ∈ gqOwners F nets := by
  unfold gqOwners
  rw [gqDedup_mem]
  exact .inr (List.mem_append_right _ (List.mem_map.2 ⟨w, h, rfl⟩))

theorem gqNets_mem (c : CheckerSt) (n : Nat) : n ∈ gqNets c ↔ n ∈ c.pending ∨ ∃ p ∈ c.pw, c.netOf p = some n := by
  unfold gqNets
  rw [gqDedup_mem]
  simp [List.mem_filterMap]

theorem gqNets_nodup (c : CheckerSt) : (gqNets c).Nodup := gqDedup_nodup _ _ List.nodup_nil

/-- the first loop -/
theorem gq_outs (ns : List Nat) : ∀ (s : GqSt), s.owners.Nodup → (∀ n ∈ ns, DbOwner.net n ∈ s.owners) →
    s.ents.Perm (s.owners.flatMap (gqOf s.objs)) →
    ∀ t, t = ns.foldl (fun s n => (s.removeNet (.net n)).clearPins (.net n)) s →
      t.owners = s.owners ∧ t.chk = s.chk ∧ t.ents.Perm (t.owners.flatMap (gqOf t.objs)) ∧
      ∀ o, t.objs o = if ∃ n ∈ ns, o = .net n then [] else s.objs o := by
  induction ns with
  | nil =>
      rintro s hnd hm h t rfl
      exact ⟨rfl, rfl, h, fun o => by simp⟩
  | cons n ns ih =>
      rintro s hnd hm h t rfl
      rw [List.foldl_cons]
      have h1 := gq_out s hnd (.net n) (hm n (by simp)) h
      obtain ⟨a, b, c, d⟩ := ih ((s.removeNet (.net n)).clearPins (.net n)) hnd
        (fun m hm' => hm m (List.mem_cons_of_mem _ hm')) h1 _ rfl
      refine ⟨a, b, c, fun o => ?_⟩
      rw [d o]
      by_cases h1 : ∃ m ∈ ns, o = .net m
      · obtain ⟨m, hm1, hm2⟩ := h1
        rw [if_pos ⟨m, hm1, hm2⟩, if_pos ⟨m, List.mem_cons_of_mem _ hm1, hm2⟩]
      · rw [if_neg h1]
        by_cases h2 : o = .net n
        · rw [if_pos ⟨n, by simp, h2⟩]
          simp [GqSt.clearPins, h2]
        · rw [if_neg]
          · simp [GqSt.clearPins, GqSt.removeNet, h2]
          · rintro ⟨m, hm1, hm2⟩
            rcases List.mem_cons.1 hm1 with rfl | h3
            · exact h2 hm2
            · exact h1 ⟨m, h3, hm2⟩

/-- the second loop -/
theorem gq_ins (mk : DbNet → List GqObj) (addr : Nat → Nat) (ns : List Nat) : ∀ (s : GqSt), s.owners.Nodup → ns.Nodup →
    (∀ n ∈ ns, DbOwner.net n ∈ s.owners) → (∀ n ∈ ns, s.objs (.net n) = []) → s.ents.Perm (s.owners.flatMap (gqOf s.objs)) →
    ∀ t, t = ns.foldl (fun s n => (s.initNet mk addr (.net n)).addNet (.net n)) s →
      t.owners = s.owners ∧ t.chk = s.chk ∧ t.ents.Perm (t.owners.flatMap (gqOf t.objs)) ∧
      (∀ n ∈ ns, (t.objs (.net n)).map (·.2) = mk (s.chk.db (.net n))) ∧
      ∀ o, (∀ n ∈ ns, o ≠ .net n) → t.objs o = s.objs o := by
  induction ns with
  | nil =>
      rintro s hnd _ hm he h t rfl
      exact ⟨rfl, rfl, h, by simp, fun o _ => rfl⟩
  | cons n ns ih =>
      rintro s hnd hnn hm he h t rfl
      rw [List.nodup_cons] at hnn
      rw [List.foldl_cons]
      have h1 := gq_in mk addr s hnd (.net n) (hm n (by simp)) (he n (by simp)) h
      have hobj : ∀ m ∈ ns, ((s.initNet mk addr (.net n)).addNet (.net n)).objs (.net m) = [] := by
        intro m hm'
        have hne : m ≠ n := by rintro rfl; exact hnn.1 hm'
        simp [GqSt.addNet, GqSt.initNet, hne, he m (List.mem_cons_of_mem _ hm')]
      obtain ⟨a, b, c, d, e⟩ := ih ((s.initNet mk addr (.net n)).addNet (.net n)) hnd hnn.2
        (fun m hm' => hm m (List.mem_cons_of_mem _ hm')) hobj h1 _ rfl
      refine ⟨a, b, c, ?_, ?_⟩
      · intro m hm'
        rcases List.mem_cons.1 hm' with rfl | h3
        · rw [e (.net m) (fun k hk hke => by injection hke with hke; subst hke; exact hnn.1 hk)]
          simp [GqSt.addNet, GqSt.initNet, he m (by simp), gqMake_snd]
        · exact d m h3
      · intro o ho
        rw [e o fun m hm' => ho m (List.mem_cons_of_mem _ hm')]
        have := ho n (by simp)
        simp [GqSt.addNet, GqSt.initNet, this]

theorem refresh_else (nets : List PartNet) (n : Nat) (db : ShapeDb) (o : DbOwner) (h : o ≠ .net n) : refresh nets db n o = db o := by
  unfold refresh
  have : ∀ (l : List PartNet) (db : ShapeDb), (∀ p ∈ l, p.net = n) → (l.foldl addPart db) o = db o := by
    intro l
    induction l with
    | nil => intro db _; rfl
    | cons p l ih =>
        intro db hl
        rw [List.foldl_cons, ih _ fun q hq => hl q (List.mem_cons_of_mem _ hq)]
        have := hl p (by simp)
        unfold addPart ShapeDb.set
        rw [this, if_neg h]
  rw [this _ _ fun p hp => by simpa using (List.mem_filter.1 hp).2]
  unfold ShapeDb.set
  rw [if_neg h]

theorem update_else (c : CheckerSt) (o : DbOwner) (h : ∀ n ∈ gqNets c, o ≠ .net n) : c.update.db o = c.db o := by
  unfold CheckerSt.update
  dsimp only
  have h1 : ∀ (ps : List DbPatch) (db : ShapeDb), (∀ p ∈ ps, p ∈ c.pw) →
      (ps.foldl (fun db p => match c.netOf p with
        | some n => ShapeDb.set db (.net n) ((db (.net n)).addFig (.patch p.layer p.box))
        | none => db) db) o = db o := by
    intro ps
    induction ps with
    | nil => intro db _; rfl
    | cons p ps ih =>
        intro db hp
        rw [List.foldl_cons, ih _ fun q hq => hp q (List.mem_cons_of_mem _ hq)]
        cases hn : c.netOf p with
        | none => rfl
        | some n =>
            have := h n ((gqNets_mem c n).2 (.inr ⟨p, hp p (by simp), hn⟩))
            simp [ShapeDb.set, this]
  refine (h1 c.pw _ fun p hp => hp).trans ?_
  have h2 : ∀ (ns : List Nat) (db : ShapeDb), (∀ n ∈ ns, n ∈ c.pending ++ c.pw.filterMap c.netOf) →
      (ns.foldl (refresh c.nets) db) o = db o := by
    intro ns
    induction ns with
    | nil => intro db _; rfl
    | cons n ns ih =>
        intro db hn
        rw [List.foldl_cons, ih _ fun m hm => hn m (List.mem_cons_of_mem _ hm)]
        apply refresh_else
        apply h
        rw [gqNets_mem]
        have := hn n (by simp)
        simpa [List.mem_filterMap] using this
  exact h2 _ _ fun n hn => hn

theorem gqNets_owned {mk : DbNet → List GqObj} {F : List FixedShape} {s : GqSt} (h : GqInv mk F s) :
    ∀ n ∈ gqNets s.chk, DbOwner.net n ∈ s.owners := by
  intro n hn
  rcases (gqNets_mem _ _).1 hn with h1 | ⟨p, _, h1⟩
  · exact h.pend n h1
  · unfold CheckerSt.netOf at h1
    cases hw : s.chk.nets[p.part]? with
    | none => rw [hw] at h1; cases h1
    | some w =>
        rw [hw] at h1
        simp only [Option.map_some, Option.some.injEq] at h1
        subst h1
        rw [h.owners]
        exact gqOwners_net _ _ _ (List.mem_of_getElem? hw)

theorem gqUpdate_inv (mk : DbNet → List GqObj) (addr : Nat → Nat) (F : List FixedShape) (s : GqSt) (h : GqInv mk F s) :
    GqInv mk F (s.update mk addr) ∧ (s.update mk addr).chk = s.chk.update := by
  have hnd : s.owners.Nodup := by rw [h.owners]; exact gqOwners_nodup _ _
  have hown := gqNets_owned h
  obtain ⟨a1, b1, c1, d1⟩ := gq_outs (gqNets s.chk) s hnd hown h.ents _ rfl
  generalize ht : (gqNets s.chk).foldl (fun s n => (s.removeNet (.net n)).clearPins (.net n)) s = t at a1 b1 c1 d1
  obtain ⟨a2, b2, c2, d2, e2⟩ := gq_ins mk addr (gqNets s.chk) { t with chk := s.chk.update } (by dsimp only; rw [a1]; exact hnd)
    (gqNets_nodup _) (by dsimp only; rw [a1]; exact hown)
    (by intro n hn; dsimp only; rw [d1, if_pos ⟨n, hn, rfl⟩]) c1 _ rfl
  have hu : s.update mk addr = (gqNets s.chk).foldl (fun s n => (s.initNet mk addr (.net n)).addNet (.net n))
      { t with chk := s.chk.update } := by
    unfold GqSt.update
    dsimp only
    rw [ht]
  rw [← hu] at a2 b2 c2 d2 e2
  dsimp only at a2 b2 d2 e2
  refine ⟨⟨?_, ?_, ?_, c2⟩, b2⟩
  · rw [a2, a1, h.owners, b2]; rfl
  · rw [b2]
    intro n hn
    exact absurd hn (by simp [CheckerSt.update])
  · intro o ho
    rw [a2, a1] at ho
    rw [b2]
    by_cases ho' : ∃ n ∈ gqNets s.chk, o = .net n
    · obtain ⟨n, hn, rfl⟩ := ho'
      exact d2 n hn
    · have hne : ∀ n ∈ gqNets s.chk, o ≠ .net n := fun n hn he => ho' ⟨n, hn, he⟩
      rw [e2 o hne, d1, if_neg ho', update_else _ _ hne]
      exact h.objs o ho

theorem gqMain_inv (mk : DbNet → List GqObj) (addr : Nat → Nat) (F : List FixedShape) (node b : Bool) (ps : List DbPatch) (s : GqSt)
    (h : GqInv mk F s) : GqInv mk F (s.main mk addr node b ps) ∧ (s.main mk addr node b ps).chk = s.chk.main node b ps := by
  unfold GqSt.main CheckerSt.main
  dsimp only
  have h' : GqInv mk F (if (b && node) = true then { s with chk := { s.chk with pw := ps } } else s) ∧
      (if (b && node) = true then { s with chk := { s.chk with pw := ps } } else s).chk =
        if (b && node) = true then { s.chk with pw := ps } else s.chk := by
    by_cases hb : (b && node) = true
    · rw [if_pos hb, if_pos hb]
      exact ⟨⟨h.owners, h.pend, h.objs, h.ents⟩, rfl⟩
    · rw [if_neg hb, if_neg hb]
      exact ⟨h, rfl⟩
  generalize (if (b && node) = true then { s with chk := { s.chk with pw := ps } } else s) = t at h' ⊢
  rw [← h'.2]
  by_cases hc : t.chk.pending ≠ [] ∨ t.chk.pw ≠ []
  · rw [if_pos hc, if_pos hc]
    exact gqUpdate_inv mk addr F t h'.1
  · rw [if_neg hc, if_neg hc]
    exact ⟨h'.1, rfl⟩

theorem gqOwners_congr (F : List FixedShape) (a b : List PartNet) (h : a.map (·.net) = b.map (·.net)) : gqOwners F a = gqOwners F b := by
  have : a.map (fun w => DbOwner.net w.net) = b.map (fun w => DbOwner.net w.net) := by
    have := congrArg (List.map DbOwner.net) h
    simpa [List.map_map, Function.comp_def] using this
  unfold gqOwners
  rw [this]

theorem withPatches_nets (ps : List DbPatch) (nets : List PartNet) : (withPatches ps nets).map (·.net) = nets.map (·.net) := by
  apply List.ext_getElem?
  intro j
  rw [List.getElem?_map, List.getElem?_map]
  exact withPatches_len ps nets j

theorem gqWrite_inv (mk : DbNet → List GqObj) (F : List FixedShape) (s : GqSt) (h : GqInv mk F s) : GqInv mk F s.writePatches := by
  refine ⟨?_, h.pend, h.objs, h.ents⟩
  show s.owners = gqOwners F s.chk.writePatches.nets
  rw [h.owners, writePatches_nets]
  exact gqOwners_congr F _ _ (withPatches_nets _ _).symm

theorem gqStep_inv (mk : DbNet → List GqObj) (addr : Nat → Nat) (F : List FixedShape) (node : Bool) (op : QueueOp) (s : GqSt)
    (h : GqInv mk F s) : GqInv mk F (s.step mk addr node op) ∧ (s.step mk addr node op).chk = s.chk.step node op := by
  cases op with
  | check => exact gqMain_inv mk addr F node false [] s h
  | reroute i figs ps =>
      simp only [GqSt.step, CheckerSt.step]
      cases hi : s.chk.nets[i]? with
      | none => exact ⟨h, rfl⟩
      | some w =>
          dsimp only
          have h1 : GqInv mk F { s with chk := { s.chk with
              nets := s.chk.nets.set i { w with route := figs }
              pending := s.chk.pending ++ [w.net] } } := by
            refine ⟨?_, ?_, h.objs, h.ents⟩
            · dsimp only
              rw [h.owners]
              apply gqOwners_congr
              apply List.ext_getElem?
              intro j
              rw [List.getElem?_map, List.getElem?_map, List.getElem?_set]
              by_cases hij : i = j
              · subst hij
                have hl : i < s.chk.nets.length := (List.getElem?_eq_some_iff.1 hi).1
                rw [hi]
                simp [hl]
              · simp [hij]
            · dsimp only
              intro n hn
              rcases List.mem_append.1 hn with h1 | h1
              · exact h.pend n h1
              · rw [List.mem_singleton] at h1
                subst h1
                rw [h.owners]
                exact gqOwners_net _ _ _ (List.mem_of_getElem? hi)
          obtain ⟨h2, h3⟩ := gqMain_inv mk addr F node true ps _ h1
          refine ⟨gqWrite_inv mk F _ h2, ?_⟩
          show ((GqSt.main mk addr node true ps _).chk).writePatches = _
          rw [h3]

theorem gqSteps_inv (mk : DbNet → List GqObj) (addr : Nat → Nat) (F : List FixedShape) (node : Bool) (ops : List QueueOp) : ∀ (s : GqSt),
    GqInv mk F s → GqInv mk F (ops.foldl (GqSt.step mk addr node) s) ∧
      (ops.foldl (GqSt.step mk addr node) s).chk = ops.foldl (CheckerSt.step node) s.chk := by
  induction ops with
  | nil => intro s h; exact ⟨h, rfl⟩
  | cons op ops ih =>
      intro s h
      obtain ⟨h1, h2⟩ := gqStep_inv mk addr F node op s h
      obtain ⟨h3, h4⟩ := ih _ h1
      exact ⟨h3, by rw [List.foldl_cons, List.foldl_cons, h4, h2]⟩

theorem gqInit_inv (mk : DbNet → List GqObj) (addr : Nat → Nat) (F : List FixedShape) (nets : List PartNet) :
    GqInv mk F (gqInit mk addr F nets) ∧ (gqInit mk addr F nets).chk = ⟨nets, initDb F nets, [], []⟩ := by
  have hnd := gqOwners_nodup F nets
  -- making the objects of all nets
  have k1 : ∀ (os : List DbOwner) (s : GqSt), os.Nodup → (∀ o ∈ os, s.objs o = []) →
      ∀ t, t = os.foldl (GqSt.initNet mk addr) s → t.chk = s.chk ∧ t.owners = s.owners ∧ t.ents = s.ents ∧
        (∀ o ∈ os, (t.objs o).map (·.2) = mk (s.chk.db o)) ∧ ∀ o, o ∉ os → t.objs o = s.objs o := by
    intro os
    induction os with
    | nil => rintro s _ _ t rfl; exact ⟨rfl, rfl, rfl, by simp, fun o _ => rfl⟩
    | cons a os ih =>
        rintro s hn he t rfl
        rw [List.nodup_cons] at hn
        rw [List.foldl_cons]
        obtain ⟨c1, c2, c3, c4, c5⟩ := ih (s.initNet mk addr a) hn.2 (fun o ho => by
          have : o ≠ a := by rintro rfl; exact hn.1 ho
          simp [GqSt.initNet, this, he o (List.mem_cons_of_mem _ ho)]) _ rfl
        refine ⟨c1, c2, c3, ?_, ?_⟩
        · intro o ho
          rcases List.mem_cons.1 ho with rfl | h
          · rw [c5 o hn.1]
            simp [GqSt.initNet, he o (by simp), gqMake_snd]
          · exact c4 o h
        · intro o ho
          rw [List.mem_cons, not_or] at ho
          rw [c5 o ho.2]
          simp [GqSt.initNet, ho.1]
  have k2 : ∀ (os : List DbOwner) (s : GqSt), ∀ t, t = os.foldl GqSt.addNet s → t.chk = s.chk ∧ t.owners = s.owners ∧ t.objs = s.objs ∧
      t.ents.Perm (s.ents ++ os.flatMap (gqOf s.objs)) := by
    intro os
    induction os with
    | nil => rintro s t rfl; exact ⟨rfl, rfl, rfl, by simp⟩
    | cons a os ih =>
        rintro s t rfl
        rw [List.foldl_cons]
        obtain ⟨c1, c2, c3, c4⟩ := ih (s.addNet a) _ rfl
        refine ⟨c1, c2, c3, c4.trans ?_⟩
        rw [List.flatMap_cons, ← List.append_assoc]
        exact (gqAdd_perm a _ _).append_right _
  obtain ⟨a1, a2, a3, a4, _⟩ := k1 (gqOwners F nets) ⟨⟨nets, initDb F nets, [], []⟩, gqOwners F nets, fun _ => [], [], 0⟩ hnd
    (fun _ _ => rfl) _ rfl
  obtain ⟨b1, b2, b3, b4⟩ := k2 (gqOwners F nets) _ _ (rfl : gqInit mk addr F nets = _)
  rw [a1] at b1
  rw [a2] at b2
  refine ⟨⟨(by rw [b2, b1]), (by rw [b1]; intro n hn; cases hn), ?_, ?_⟩, b1⟩
  · intro o ho
    rw [b2] at ho
    rw [b3, b1]
    exact a4 o ho
  · rw [b2, b3]
    rw [a3] at b4
    simpa using b4

theorem knows_same {db db' : ShapeDb} {F : List FixedShape} {nets : List PartNet} (h : Knows db F nets) (h' : Knows db' F nets)
    {mk : DbNet → List GqObj} (hmk : OnlyMetal mk) (o : DbOwner) : mk (db o) = mk (db' o) := by
  refine hmk _ _ (fun x => ?_) (fun x => ?_) ?_ ?_
  · rw [show x = (x.1, x.2) from rfl, h.fixedMetal, h'.fixedMetal]
  · by_cases ho : ∃ n, o = .net n
    · obtain ⟨n, rfl⟩ := ho
      rw [show x = (x.1, x.2) from rfl, h.metal, h'.metal]
    · have hn : ∀ n, o ≠ .net n := fun n e => ho ⟨n, e⟩
      rw [(h.others o hn).1, (h'.others o hn).1]
  · rw [h.fixedCuts, h'.fixedCuts]
  · by_cases ho : ∃ n, o = .net n
    · obtain ⟨n, rfl⟩ := ho
      rw [h.cuts, h'.cuts]
    · have hn : ∀ n, o ≠ .net n := fun n e => ho ⟨n, e⟩
      rw [(h.others o hn).2, (h'.others o hn).2]

/-- two states with the same nets and metal find the same -/
theorem gq_same (mk : DbNet → List GqObj) (hmk : OnlyMetal mk) (F : List FixedShape) (s t : GqSt) (hs : GqInv mk F s) (ht : GqInv mk F t)
    (hn : s.chk.nets = t.chk.nets) (ks : Knows s.chk.db F s.chk.nets) (kt : Knows t.chk.db F s.chk.nets) (r : Bool) (l : Nat) (q : Box) :
    (gqShapes (s.query r l q)).Perm (gqShapes (t.query r l q)) := by
  have key : ∀ u : GqSt, GqInv mk F u → (gqShapes (u.query r l q)).Perm
      (((gqOwners F u.chk.nets).flatMap fun o => (mk (u.chk.db o)).map fun g => (o, g)).filter
        fun e => decide (e.2.rect = r) && decide (e.2.layer = l) && e.2.box.overlaps q) := by
    intro u hu
    unfold gqShapes GqSt.query
    refine ((hu.ents.filter _).map _).trans (List.Perm.of_eq ?_)
    rw [← hu.owners]
    have : ∀ os : List DbOwner, (∀ o ∈ os, o ∈ u.owners) →
        ((os.flatMap (gqOf u.objs)).filter fun e => decide (e.2.2.rect = r) && decide (e.2.2.layer = l) && e.2.2.box.overlaps q).map
          (fun e => (e.1, e.2.2)) =
        (os.flatMap fun o => (mk (u.chk.db o)).map fun g => (o, g)).filter
          fun e => decide (e.2.rect = r) && decide (e.2.layer = l) && e.2.box.overlaps q := by
      intro os
      induction os with
      | nil => intro _; rfl
      | cons o os ih =>
          intro ho
          rw [List.flatMap_cons, List.flatMap_cons, List.filter_append, List.filter_append, List.map_append,
            ih fun p hp => ho p (List.mem_cons_of_mem _ hp)]
          congr 1
          rw [← hu.objs o (ho o (by simp))]
          unfold gqOf
          induction u.objs o with
          | nil => rfl
          | cons x xs ih2 =>
              simp only [List.map_cons, List.filter_cons]
              split
              · rw [List.map_cons, ih2]
              · exact ih2
    exact this u.owners fun o ho => ho
  refine (key s hs).trans (List.Perm.trans (List.Perm.of_eq ?_) (key t ht).symm)
  rw [hn]
  congr 2
  funext o
  rw [knows_same ks kt hmk o]

/-- the start without patches of an initial check -/
theorem gqStart (mk : DbNet → List GqObj) (addr : Nat → Nat) {node recheck : Bool} (h : ¬ (node = true ∧ recheck = true))
    (F : List FixedShape) (nets : List PartNet) (first : List DbPatch) :
    (if recheck then (gqInit mk addr F nets).main mk addr node true first else gqInit mk addr F nets) = gqInit mk addr F nets := by
  cases recheck with
  | false => rfl
  | true =>
      cases node with
      | true => exact absurd ⟨rfl, rfl⟩ h
      | false =>
          have := (gqInit_inv mk addr F nets).2
          simp [GqSt.main, this]

/-- **C204 (live).** After any history of reroutings, checks and patches in a region, whatever the checker made, every entry of its
search structures is an edge or rectangle that the checker has then, and every one it has is there once; nothing deleted is found,
even if addresses are used again. -/
theorem c204_live (mk : DbNet → List GqObj) (addr : Nat → Nat) (node recheck : Bool) (F : List FixedShape) (nets : List PartNet)
    (first : List DbPatch) (ops : List QueueOp) (last : List DbPatch) :
    (ops.foldl (GqSt.step mk addr node)
      (if recheck then (gqInit mk addr F nets).main mk addr node true first else gqInit mk addr F nets)).Live ∧
    (gqQueue mk addr node recheck F nets first ops last).Live := by
  have h0 : GqInv mk F (if recheck then (gqInit mk addr F nets).main mk addr node true first else gqInit mk addr F nets) := by
    cases recheck with
    | false => exact (gqInit_inv mk addr F nets).1
    | true => exact (gqMain_inv mk addr F node true first _ (gqInit_inv mk addr F nets).1).1
  have h1 := (gqSteps_inv mk addr F node ops _ h0).1
  refine ⟨h1.ents, ?_⟩
  exact (gqWrite_inv mk F _ (gqMain_inv mk addr F node true last _ h1).1).ents

/-- **C204.** After every rerouting and check of a queue entry, and at the final check, asking the checker for the edges or the
rectangles in a box of a layer gives, with their nets, what a checker would give that were newly made for the present routes — unless
patches were made in an initial check. -/
theorem c204_found (mk : DbNet → List GqObj) (hmk : OnlyMetal mk) (addr addr' : Nat → Nat) (node recheck : Bool)
    (h : ¬ (node = true ∧ recheck = true)) (F : List FixedShape) (nets : List PartNet) (first : List DbPatch) (ops : List QueueOp)
    (r : Bool) (l : Nat) (q : Box) :
    (∀ s, s = ops.foldl (GqSt.step mk addr node)
        (if recheck then (gqInit mk addr F nets).main mk addr node true first else gqInit mk addr F nets) →
      (gqShapes (s.query r l q)).Perm (gqShapes ((gqInit mk addr' F s.chk.nets).query r l q))) ∧
    ∀ last s, s = gqQueue mk addr node recheck F nets first ops last →
      (gqShapes (s.query r l q)).Perm (gqShapes ((gqInit mk addr' F s.chk.nets).query r l q)) := by
  have hi := gqInit_inv mk addr F nets
  have h1 := gqSteps_inv mk addr F node ops _ hi.1
  rw [hi.2] at h1
  have fin : ∀ s : GqSt, GqInv mk F s → Knows s.chk.db F s.chk.nets →
      (gqShapes (s.query r l q)).Perm (gqShapes ((gqInit mk addr' F s.chk.nets).query r l q)) := by
    intro s hs hk
    have hf := gqInit_inv mk addr' F s.chk.nets
    refine gq_same mk hmk F s _ hs hf.1 (by rw [hf.2]) hk ?_ r l q
    rw [hf.2]
    exact initDb_knows F s.chk.nets
  have h2 := c113_follows node recheck h F nets first ops
  rw [start_settled h] at h2
  constructor
  · rintro s rfl
    rw [gqStart mk addr h]
    refine fin _ h1.1 ?_
    rw [h1.2]
    exact h2.1 _ rfl
  · rintro last s rfl
    have e : (gqQueue mk addr node recheck F nets first ops last).chk = routeQueue node recheck F nets first ops last := by
      unfold gqQueue routeQueue
      dsimp only
      rw [gqStart mk addr h, start_settled h]
      show (GqSt.main mk addr node true last _).chk.writePatches = _
      rw [(gqMain_inv mk addr F node true last _ h1.1).2, h1.2]
    refine fin _ ?_ ?_
    · unfold gqQueue
      dsimp only
      rw [gqStart mk addr h]
      exact gqWrite_inv mk F _ (gqMain_inv mk addr F node true last _ h1.1).1
    · rw [e]
      exact h2.2 last _ rfl

/-- a checker that makes one rectangle of every cut, fixed or not -/
def gqExMk (d : DbNet) : List GqObj := (d.fixedCut ++ d.routeCut).map fun x => ⟨true, x.1, x.2⟩

example : OnlyMetal gqExMk := by
  intro d e _ _ h3 h4
  unfold gqExMk
  rw [h3, h4]

/-- the region of C113: all objects get the same address, and the cut of the old route of net 7 is no longer found, that of the new
one of net 8 is -/
example : (gqQueue gqExMk (fun _ => 0) false true followFixed followNets [] followOps []).query true 5 ⟨⟨0, 0⟩, ⟨1000, 1000⟩⟩ =
      [(.vdd, 0, ⟨true, 5, followBox 900⟩)] ∧
    (gqInit gqExMk (fun _ => 0) followFixed followNets).query true 5 ⟨⟨0, 0⟩, ⟨1000, 1000⟩⟩ =
      [(.net 7, 0, ⟨true, 5, followBox 110⟩), (.vdd, 0, ⟨true, 5, followBox 900⟩)] ∧
    (gqQueue gqExMk (fun _ => 0) false true followFixed followNets [] followOps []).query true 3 ⟨⟨0, 0⟩, ⟨1000, 1000⟩⟩ =
      [(.net 8, 0, ⟨true, 3, followBox 310⟩)] := by decide +kernel

end TR
