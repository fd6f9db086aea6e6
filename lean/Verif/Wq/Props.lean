import Verif.Wq.Spec
import Verif.Geom.Lemmas

/-!
# C203: what is found in a region are the present routes
-/

namespace TR

/-- the entries of an object -/
def wqEnt (x : Nat × WqFig) : WqEnts := x.2.boxes.map fun b => (b, x.1)

theorem wqAdd_perm (es : WqEnts) (x : Nat × WqFig) : (wqAdd es x).Perm (es ++ wqEnt x) := by
  unfold wqAdd wqEnt
  generalize x.2.boxes = bs
  induction bs generalizing es with
  | nil => simp
  | cons b bs ih =>
      rw [List.foldl_cons, List.map_cons]
      exact (ih _).trans (List.perm_middle.symm)

theorem wqAdds_perm (xs : List (Nat × WqFig)) (es : WqEnts) : (xs.foldl wqAdd es).Perm (es ++ xs.flatMap wqEnt) := by
  induction xs generalizing es with
  | nil => simp
  | cons x xs ih =>
      rw [List.foldl_cons, List.flatMap_cons, ← List.append_assoc]
      exact (ih _).trans ((wqAdd_perm es x).append_right _)

theorem wqRemove_perm (es r : WqEnts) (x : Nat × WqFig) (h : es.Perm (wqEnt x ++ r)) : (wqRemove es x).Perm r := by
  unfold wqRemove
  unfold wqEnt at h
  generalize x.2.boxes = bs at h ⊢
  induction bs generalizing es with
  | nil => simpa using h
  | cons b bs ih =>
      rw [List.foldl_cons]
      apply ih
      have := h.erase (b, x.1)
      rwa [List.map_cons, List.cons_append, List.erase_cons_head] at this

theorem wqRemoves_perm (xs : List (Nat × WqFig)) (es r : WqEnts) (h : es.Perm (xs.flatMap wqEnt ++ r)) :
    (xs.foldl wqRemove es).Perm r := by
  induction xs generalizing es with
  | nil => simpa using h
  | cons x xs ih =>
      rw [List.foldl_cons]
      apply ih
      apply wqRemove_perm
      rwa [List.flatMap_cons, List.append_assoc] at h

/-- the entries are those of the present objects -/
def WqInv (S : WqSt) : Prop := S.ents.Perm ((wqFigs S.nets).flatMap wqEnt)

theorem wqInit_inv (ns : List WqNet) : WqInv (wqInit ns) := by
  have key : ∀ es : WqEnts, (ns.foldl (fun es n => n.ext.foldl wqAdd (n.routes.foldl wqAdd es)) es).Perm
      (es ++ (wqFigs ns).flatMap wqEnt) := by
    induction ns with
    | nil => intro es; simp [wqFigs]
    | cons n ns ih =>
        intro es
        rw [List.foldl_cons]
        refine (ih _).trans ?_
        unfold wqFigs
        rw [List.flatMap_cons, List.flatMap_append, List.flatMap_append, ← List.append_assoc, ← List.append_assoc]
        refine List.Perm.append_right _ ?_
        exact (wqAdds_perm _ _).trans ((wqAdds_perm _ _).append_right _)
  simpa [WqInv, wqInit] using key []

theorem wqFigs_set (ns : List WqNet) (k : Nat) (n m : WqNet) (h : ns[k]? = some n) :
    ∃ r, (wqFigs ns).Perm (n.routes ++ n.ext ++ r) ∧ (wqFigs (ns.set k m)).Perm (m.routes ++ m.ext ++ r) := by
  induction ns generalizing k with
  | nil => simp at h
  | cons a ns ih =>
      cases k with
      | zero =>
          simp only [List.getElem?_cons_zero, Option.some.injEq] at h
          subst h
          exact ⟨wqFigs ns, .refl _, .refl _⟩
      | succ k =>
          rw [List.getElem?_cons_succ] at h
          obtain ⟨r, h1, h2⟩ := ih k h
          refine ⟨(a.routes ++ a.ext) ++ r, ?_, ?_⟩
          · show ((a.routes ++ a.ext) ++ wqFigs ns).Perm _
            refine (h1.append_left _).trans ?_
            rw [← List.append_assoc (a.routes ++ a.ext), ← List.append_assoc (n.routes ++ n.ext)]
            exact List.perm_append_comm.append_right _
          · show ((a.routes ++ a.ext) ++ wqFigs (ns.set k m)).Perm _
            refine (h2.append_left _).trans ?_
            rw [← List.append_assoc (a.routes ++ a.ext), ← List.append_assoc (m.routes ++ m.ext)]
            exact List.perm_append_comm.append_right _

theorem wqOp_inv (S : WqSt) (h : WqInv S) (o : WqOp) : WqInv (S.op o) := by
  cases o with
  | ripup k =>
      simp only [WqSt.op]
      cases hk : S.nets[k]? with
      | none => exact h
      | some n =>
          obtain ⟨r, h1, h2⟩ := wqFigs_set S.nets k n { n with routes := [] } hk
          show (n.routes.foldl wqRemove S.ents).Perm _
          apply wqRemoves_perm
          refine h.trans ((h1.flatMap_right _).trans ?_)
          rw [List.append_assoc, List.flatMap_append]
          refine List.Perm.append_left _ ?_
          exact (h2.flatMap_right _).symm
  | route k i f =>
      simp only [WqSt.op]
      cases hk : S.nets[k]? with
      | none => exact h
      | some n =>
          obtain ⟨r, h1, h2⟩ := wqFigs_set S.nets k n { n with routes := n.routes ++ [(i, f)] } hk
          show (wqAdd S.ents (i, f)).Perm _
          refine (wqAdd_perm _ _).trans ((h.append_right _).trans ?_)
          refine ((h1.flatMap_right _).append_right _).trans ?_
          refine List.Perm.trans ?_ (h2.flatMap_right _).symm
          simp only [List.flatMap_append, List.flatMap_cons, List.flatMap_nil, List.append_nil, List.append_assoc]
          refine List.Perm.append_left _ ?_
          rw [← List.append_assoc]
          exact List.perm_append_comm

theorem wqRun_inv (S : WqSt) (h : WqInv S) (os : List WqOp) : WqInv (S.run os) := by
  induction os generalizing S with
  | nil => exact h
  | cons o os ih => exact ih _ (wqOp_inv S h o)

theorem wqOp_nets (S : WqSt) (o : WqOp) : (S.op o).nets = wqNets S.nets o := by
  have key : ∀ (ns : List WqNet) (k : Nat) (g : WqNet → WqNet),
      (match ns[k]? with | none => ns | some n => ns.set k (g n)) = ns.mapIdx fun i n => if i = k then g n else n := by
    intro ns k g
    apply List.ext_getElem?
    intro j
    rw [List.getElem?_mapIdx]
    cases hk : ns[k]? with
    | none =>
        dsimp only
        cases hj : ns[j]? with
        | none => rfl
        | some n =>
            have : j ≠ k := by rintro rfl; rw [hk] at hj; cases hj
            simp [this]
    | some n =>
        dsimp only
        rw [List.getElem?_set]
        by_cases hjk : k = j
        · subst hjk
          have hlt : k < ns.length := (List.getElem?_eq_some_iff.1 hk).1
          rw [hk]
          simp [hlt]
        · have : j ≠ k := fun e => hjk e.symm
          simp only [hjk, if_false, this]
          cases ns[j]? <;> rfl
  cases o with
  | ripup k =>
      rw [show wqNets S.nets (.ripup k) = _ from (key S.nets k fun n => { n with routes := [] }).symm]
      simp only [WqSt.op]
      cases S.nets[k]? <;> rfl
  | route k i f =>
      rw [show wqNets S.nets (.route k i f) = _ from (key S.nets k fun n => { n with routes := n.routes ++ [(i, f)] }).symm]
      simp only [WqSt.op]
      cases S.nets[k]? <;> rfl

/-- **C203 (nets).** Ripping up and routing change nothing but the routes inside of the net that is named. -/
theorem c203_nets (ns : List WqNet) (os : List WqOp) : ((wqInit ns).run os).nets = os.foldl wqNets ns := by
  have : ∀ S : WqSt, (S.run os).nets = os.foldl wqNets S.nets := by
    induction os with
    | nil => intro S; rfl
    | cons o os ih => intro S; rw [WqSt.run, ih, wqOp_nets, List.foldl_cons]
  exact this _

/-- **C203.** After any history of ripping up and routing in a region, what is found in a box of a layer are the boxes of the
objects that the nets have then, each as often as the object has it: nothing is missing, and nothing is found of a route that was
deleted. -/
theorem c203_found (ns : List WqNet) (os : List WqOp) (q : Box) (l : Int) :
    (((wqInit ns).run os).query q l).Perm
      ((wqFigs (os.foldl wqNets ns)).flatMap fun x =>
        (x.2.boxes.filter fun b => decide (b.1 = l) && b.2.overlaps q).map fun b => (b.2, x.1)) := by
  have h := wqRun_inv _ (wqInit_inv ns) os
  unfold WqInv at h
  rw [c203_nets] at h
  unfold WqSt.query
  refine (h.filterMap _).trans ?_
  rw [List.filterMap_flatMap]
  refine List.Perm.of_eq ?_
  congr 1
  funext x
  unfold wqEnt
  induction x.2.boxes with
  | nil => rfl
  | cons b bs ih =>
      rw [List.map_cons, List.filterMap_cons, ih, List.filter_cons]
      by_cases h1 : b.1 = l <;> by_cases h2 : b.2.overlaps q = true <;> simp [h1, h2]

/-- the box has a point in common with another -/
theorem wq_meets (b q : Box) (hb : b.Valid) (hq : q.Valid) : b.overlaps q = true ↔
    ∃ p : Point, (b.left ≤ p.x ∧ p.x ≤ b.right ∧ b.bottom ≤ p.y ∧ p.y ≤ b.top) ∧
      q.left ≤ p.x ∧ p.x ≤ q.right ∧ q.bottom ≤ p.y ∧ p.y ≤ q.top := by
  unfold Box.Valid at hb hq
  rw [Box.overlaps_true]
  constructor
  · intro h
    refine ⟨⟨max b.left q.left, max b.bottom q.bottom⟩, ?_, ?_⟩ <;> dsimp only <;> omega
  · rintro ⟨p, h1, h2⟩
    omega

theorem wq_moved (b : Box) (o : Point) (hb : b.Valid) : (b.transform ⟨o.x, o.y, .R0⟩).Valid ∧
    ∀ p : Point, ((b.transform ⟨o.x, o.y, .R0⟩).left ≤ p.x ∧ p.x ≤ (b.transform ⟨o.x, o.y, .R0⟩).right ∧
      (b.transform ⟨o.x, o.y, .R0⟩).bottom ≤ p.y ∧ p.y ≤ (b.transform ⟨o.x, o.y, .R0⟩).top) ↔ b.HasAt o p := by
  have hb' : b.ll.x ≤ b.ur.x ∧ b.ll.y ≤ b.ur.y := hb
  unfold Box.transform
  dsimp only
  rw [Box.mk4_eq]
  simp only [Point.transform, Box.Valid, Box.left, Box.right, Box.bottom, Box.top, Box.HasAt]
  refine ⟨by omega, fun p => by omega⟩

theorem wqSeg_box (l k : Int) (b e : Point) (bx ex : Int) (w : Nat) (h : (WqFig.seg l b e bx ex w).Ok) :
    (wqSegBox b e bx ex w).Valid ∧ ∀ p : Point, (k = l ∧ ((wqSegBox b e bx ex w).left ≤ p.x ∧ p.x ≤ (wqSegBox b e bx ex w).right ∧
      (wqSegBox b e bx ex w).bottom ≤ p.y ∧ p.y ≤ (wqSegBox b e bx ex w).top)) ↔ (WqFig.seg l b e bx ex w).Covers k p := by
  obtain ⟨h1, h2, h3⟩ := h
  have hm : ∀ a c d g : Int, a ≤ d → c ≤ g → Box.mk4 a c d g = ⟨⟨a, c⟩, ⟨d, g⟩⟩ := by
    intro a c d g h1 h2
    rw [Box.mk4_eq, Int.min_eq_left h1, Int.min_eq_left h2, Int.max_eq_right h1, Int.max_eq_right h2]
  unfold wqSegBox
  by_cases hx : b.x = e.x
  · dsimp only
    rw [if_neg (by simpa using hx), hm _ _ _ _ (by omega) (by omega)]
    simp only [Box.Valid, Box.left, Box.right, Box.bottom, Box.top, WqFig.Covers]
    refine ⟨by omega, fun p => ⟨fun h => ⟨h.1, .inr (by omega)⟩, fun h => ⟨h.1, ?_⟩⟩⟩
    have := h.2
    omega
  · dsimp only
    rw [if_pos hx, hm _ _ _ _ (by omega) (by omega)]
    simp only [Box.Valid, Box.left, Box.right, Box.bottom, Box.top, WqFig.Covers]
    refine ⟨by omega, fun p => ⟨fun h => ⟨h.1, .inl (by omega)⟩, fun h => ⟨h.1, ?_⟩⟩⟩
    have := h.2
    omega

theorem wq_covers (f : WqFig) (h : f.Ok) (q : Box) (hq : q.Valid) (l : Int) :
    (∃ b ∈ f.boxes, b.1 = l ∧ b.2.overlaps q = true) ↔
      ∃ p : Point, f.Covers l p ∧ q.left ≤ p.x ∧ p.x ≤ q.right ∧ q.bottom ≤ p.y ∧ p.y ≤ q.top := by
  cases f with
  | seg k b e bx ex w =>
      obtain ⟨h1, h2⟩ := wqSeg_box k l b e bx ex w h
      simp only [WqFig.boxes, List.mem_singleton, exists_eq_left, wq_meets _ _ h1 hq, ← h2]
      constructor
      · rintro ⟨rfl, p, hp, hp'⟩
        exact ⟨p, ⟨rfl, hp⟩, hp'⟩
      · rintro ⟨p, ⟨rfl, hp⟩, hp'⟩
        exact ⟨rfl, p, hp, hp'⟩
  | patch k o off =>
      obtain ⟨h1, h2⟩ := wq_moved off o h
      simp only [WqFig.boxes, List.mem_singleton, exists_eq_left, wq_meets _ _ h1 hq, h2, WqFig.Covers]
      constructor
      · rintro ⟨rfl, p, hp, hp'⟩
        exact ⟨p, ⟨rfl, hp⟩, hp'⟩
      · rintro ⟨p, ⟨rfl, hp⟩, hp'⟩
        exact ⟨rfl, p, hp, hp'⟩
  | via o l1 l2 cut f1 f2 fc =>
      have key : ∀ (fs : List Box) (k : Int), (∀ b ∈ fs, b.Valid) →
          ((∃ b ∈ fs.map (fun b => (k, b.transform ⟨o.x, o.y, .R0⟩)), b.1 = l ∧ b.2.overlaps q = true) ↔
            ∃ p : Point, (l = k ∧ ∃ b ∈ fs, b.HasAt o p) ∧ q.left ≤ p.x ∧ p.x ≤ q.right ∧ q.bottom ≤ p.y ∧ p.y ≤ q.top) := by
        intro fs k hfs
        constructor
        · rintro ⟨c, hc, rfl, hov⟩
          obtain ⟨b, hb, rfl⟩ := List.mem_map.1 hc
          obtain ⟨h1, h2⟩ := wq_moved b o (hfs b hb)
          obtain ⟨p, hp, hp'⟩ := (wq_meets _ _ h1 hq).1 hov
          exact ⟨p, ⟨rfl, b, hb, (h2 p).1 hp⟩, hp'⟩
        · rintro ⟨p, ⟨rfl, b, hb, hp⟩, hp'⟩
          obtain ⟨h1, h2⟩ := wq_moved b o (hfs b hb)
          exact ⟨_, List.mem_map.2 ⟨b, hb, rfl⟩, rfl, (wq_meets _ _ h1 hq).2 ⟨p, (h2 p).2 hp, hp'⟩⟩
      have h' : ∀ b ∈ f1 ++ f2 ++ fc, b.Valid := h
      have k1 := key f1 l1 fun b hb => h' b (by simp [hb])
      have k2 := key f2 l2 fun b hb => h' b (by simp [hb])
      have k3 := key fc cut fun b hb => h' b (by simp [hb])
      constructor
      · rintro ⟨c, hc, hc'⟩
        rcases List.mem_append.1 hc with hc | hc
        · rcases List.mem_append.1 hc with hc | hc
          · obtain ⟨p, hp, hp'⟩ := k1.1 ⟨c, hc, hc'⟩
            exact ⟨p, .inl hp, hp'⟩
          · obtain ⟨p, hp, hp'⟩ := k2.1 ⟨c, hc, hc'⟩
            exact ⟨p, .inr (.inl hp), hp'⟩
        · obtain ⟨p, hp, hp'⟩ := k3.1 ⟨c, hc, hc'⟩
          exact ⟨p, .inr (.inr hp), hp'⟩
      · rintro ⟨p, hp | hp | hp, hp'⟩
        · obtain ⟨c, hc, hc'⟩ := k1.2 ⟨p, hp, hp'⟩
          exact ⟨c, List.mem_append_left _ (List.mem_append_left _ hc), hc'⟩
        · obtain ⟨c, hc, hc'⟩ := k2.2 ⟨p, hp, hp'⟩
          exact ⟨c, List.mem_append_left _ (List.mem_append_right _ hc), hc'⟩
        · obtain ⟨c, hc, hc'⟩ := k3.2 ⟨p, hp, hp'⟩
          exact ⟨c, List.mem_append_right _ hc, hc'⟩

/-- **C203 (metal).** After any history of ripping up and routing, asking for a box of a layer gives an object if and only if a net
has this object then and its metal or cut on that layer has a point in the box. -/
theorem c203_metal (ns : List WqNet) (os : List WqOp) (hok : ∀ x ∈ wqFigs (os.foldl wqNets ns), x.2.Ok) (q : Box) (hq : q.Valid)
    (l : Int) (i : Nat) :
    (∃ b, (b, i) ∈ ((wqInit ns).run os).query q l) ↔
      ∃ f, (i, f) ∈ wqFigs (os.foldl wqNets ns) ∧
        ∃ p : Point, f.Covers l p ∧ q.left ≤ p.x ∧ p.x ≤ q.right ∧ q.bottom ≤ p.y ∧ p.y ≤ q.top := by
  constructor
  · rintro ⟨b, hb⟩
    have hb := (c203_found ns os q l).mem_iff.1 hb
    obtain ⟨x, hx, hb⟩ := List.mem_flatMap.1 hb
    obtain ⟨c, hc, he⟩ := List.mem_map.1 hb
    obtain ⟨hc, hc'⟩ := List.mem_filter.1 hc
    injection he with he1 he2
    subst he1 he2
    refine ⟨x.2, hx, (wq_covers x.2 (hok x hx) q hq l).1 ⟨c, hc, ?_⟩⟩
    simpa using hc'
  · rintro ⟨f, hf, hp⟩
    obtain ⟨c, hc, h1, h2⟩ := (wq_covers f (hok _ hf) q hq l).2 hp
    refine ⟨c.2, (c203_found ns os q l).mem_iff.2 (List.mem_flatMap.2 ⟨(i, f), hf, List.mem_map.2 ⟨c, List.mem_filter.2 ⟨hc, ?_⟩, rfl⟩⟩)⟩
    simp [h1, h2]

/-- two nets, one with a wire inside and one outside; the first is ripped up and given a via and a shorter wire -/
def wqExNets : List WqNet :=
  [{ routes := [(1, .seg 2 ⟨0, 0⟩ ⟨100, 0⟩ 5 5 10)], ext := [(2, .seg 2 ⟨100, 0⟩ ⟨150, 0⟩ 5 5 10)] },
   { routes := [(3, .patch 4 ⟨50, 50⟩ ⟨⟨-5, -5⟩, ⟨5, 20⟩⟩)] }]
def wqExOps : List WqOp :=
  [.ripup 0, .route 0 4 (.seg 2 ⟨0, 0⟩ ⟨40, 0⟩ 5 5 10),
   .route 0 5 (.via ⟨40, 0⟩ 2 4 3 [⟨⟨-5, -5⟩, ⟨5, 5⟩⟩] [⟨⟨-6, -4⟩, ⟨6, 4⟩⟩] [⟨⟨-3, -3⟩, ⟨3, 3⟩⟩])]

example : (((wqInit wqExNets).run wqExOps).query ⟨⟨50, -10⟩, ⟨90, 10⟩⟩ 2 = []) ∧
    ((wqInit wqExNets).query ⟨⟨50, -10⟩, ⟨90, 10⟩⟩ 2 = [(⟨⟨-5, -5⟩, ⟨105, 5⟩⟩, 1)]) ∧
    (((wqInit wqExNets).run wqExOps).query ⟨⟨30, -10⟩, ⟨110, 10⟩⟩ 2 =
      [(⟨⟨35, -5⟩, ⟨45, 5⟩⟩, 5), (⟨⟨-5, -5⟩, ⟨45, 5⟩⟩, 4), (⟨⟨95, -5⟩, ⟨155, 5⟩⟩, 2)]) ∧
    (((wqInit wqExNets).run wqExOps).query ⟨⟨43, 3⟩, ⟨60, 10⟩⟩ 3 = [(⟨⟨37, -3⟩, ⟨43, 3⟩⟩, 5)]) := by decide +kernel

example : ∀ x ∈ wqFigs (wqExOps.foldl wqNets wqExNets), x.2.Ok := by
  intro x hx
  have : x ∈ [(4, WqFig.seg 2 ⟨0, 0⟩ ⟨40, 0⟩ 5 5 10),
      (5, .via ⟨40, 0⟩ 2 4 3 [⟨⟨-5, -5⟩, ⟨5, 5⟩⟩] [⟨⟨-6, -4⟩, ⟨6, 4⟩⟩] [⟨⟨-3, -3⟩, ⟨3, 3⟩⟩]),
      (2, .seg 2 ⟨100, 0⟩ ⟨150, 0⟩ 5 5 10), (3, .patch 4 ⟨50, 50⟩ ⟨⟨-5, -5⟩, ⟨5, 20⟩⟩)] := by
    exact hx
  simp only [List.mem_cons, List.not_mem_nil, or_false] at this
  rcases this with rfl | rfl | rfl | rfl <;> simp [WqFig.Ok, Box.Valid, Box.left, Box.right, Box.bottom, Box.top]

end TR
