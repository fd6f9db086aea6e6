import Verif.PA.Try.Spec
import Verif.GcDb.Lemmas
import Verif.GC.Rects.Lemmas
import Verif.GC.Layer
/-! # Property C206: what a wire or via tried at a pin is compared with -/
namespace TR

theorem ptSkip_near (C : PtCells) (p : PtPin) (o : DbObj) : ptSkip C (some (p.target C)) o = false ↔ p.Near C o := by
  cases p with
  | cell id net =>
    cases o with
    | instTerm j n u => simp [ptSkip, PtPin.target, PtPin.Near]
    | instBlockage j => simp [ptSkip, PtPin.target, PtPin.Near]
    | term j n u => simp [ptSkip, PtPin.target, PtPin.Near]
    | blockage j => simp [ptSkip, PtPin.target, PtPin.Near]
    | routed n => simp [ptSkip, PtPin.target, PtPin.Near]
  | block id net =>
    cases o with
    | term j n u => simp [ptSkip, PtPin.target, PtPin.Near]
    | instTerm j n u => simp [ptSkip, PtPin.target, PtPin.Near]
    | instBlockage j => simp [ptSkip, PtPin.target, PtPin.Near]
    | blockage j => simp [ptSkip, PtPin.target, PtPin.Near]
    | routed n => simp [ptSkip, PtPin.target, PtPin.Near]

theorem ptCons {α : Type} {a : α} {l : List α} {p : α → Prop} : (∃ x, x ∈ a :: l ∧ p x) ↔ p a ∨ ∃ x, x ∈ l ∧ p x := by simp

/-- the fixed shapes are those that are not skipped -/
theorem ptFixed (C : PtCells) (t : Option PtTarget) (F : List FixedShape) : ∀ db : ShapeDb,
    let e := F.foldl (fun db s => if ptSkip C t s.obj then db
      else ShapeDb.set db s.obj.owner ((db s.obj.owner).add s.isCut true (s.layer, s.box))) db
    ∀ o, (∀ x, x ∈ (e o).fixedPoly ↔ x ∈ (db o).fixedPoly ∨ ∃ s ∈ F, ptSkip C t s.obj = false ∧ s.obj.owner = o ∧ s.isCut = false ∧ (s.layer, s.box) = x) ∧
      (∀ x, x ∈ (e o).fixedCut ↔ x ∈ (db o).fixedCut ∨ ∃ s ∈ F, ptSkip C t s.obj = false ∧ s.obj.owner = o ∧ s.isCut = true ∧ (s.layer, s.box) = x) ∧
      (e o).routePoly = (db o).routePoly ∧ (e o).routeCut = (db o).routeCut := by
  induction F with
  | nil => intro db e o; simp [e]
  | cons s F ih =>
    intro db e o
    obtain ⟨h1, h2, h3, h4⟩ := ih (if ptSkip C t s.obj then db else ShapeDb.set db s.obj.owner ((db s.obj.owner).add s.isCut true (s.layer, s.box))) o
    have he : e = F.foldl (fun db s => if ptSkip C t s.obj then db
      else ShapeDb.set db s.obj.owner ((db s.obj.owner).add s.isCut true (s.layer, s.box)))
      (if ptSkip C t s.obj then db else ShapeDb.set db s.obj.owner ((db s.obj.owner).add s.isCut true (s.layer, s.box))) := rfl
    rw [← he] at h1 h2 h3 h4
    rw [h3, h4]
    simp only [h1, h2]
    cases hk : ptSkip C t s.obj with
    | true => simp [hk]
    | false =>
      by_cases ho : s.obj.owner = o
      · subst ho
        cases hc : s.isCut with
        | true =>
          simp only [hk, hc, Bool.false_eq_true, if_false, dbset_same, DbNet.add, List.mem_append, List.mem_singleton, ptCons, and_true, true_and,
            or_assoc, reduceCtorEq, false_and, and_false, false_or, implies_true]
          exact fun x => or_congr_right (or_congr_left eq_comm)
        | false =>
          simp only [hk, hc, Bool.false_eq_true, if_false, dbset_same, DbNet.add, List.mem_append, List.mem_singleton, ptCons, and_true, true_and,
            or_assoc, reduceCtorEq, false_and, and_false, false_or, implies_true]
          exact fun x => or_congr_right (or_congr_left eq_comm)
      · have hn : o ≠ s.obj.owner := fun h => ho h.symm
        simp [hk, ho, dbset_other _ _ hn]

/-- routed shapes of the design are skipped as soon as there is a target -/
theorem ptRouted (C : PtCells) (p : PtPin) (R : List FixedShape) (hR : ∀ s ∈ R, ∃ n, s.obj = .routed n) : ∀ db : ShapeDb,
    R.foldl (fun db s => if ptSkip C (some (p.target C)) s.obj then db
      else ShapeDb.set db s.obj.owner ((db s.obj.owner).add s.isCut false (s.layer, s.box))) db = db := by
  induction R with
  | nil => intro db; rfl
  | cons s R ih =>
    intro db
    obtain ⟨n, hn⟩ := hR s (by simp)
    have hk : ptSkip C (some (p.target C)) s.obj = true := by
      rw [hn]
      cases p <;> rfl
    rw [List.foldl_cons, if_pos hk]
    exact ih (fun s hs => hR s (by simp [hs])) db

theorem ptKnows_add (C : PtCells) (F R : List FixedShape) (hR : ∀ s ∈ R, ∃ n, s.obj = .routed n) (p : PtPin) (f : DbFig) (w : DbOwner) :
    PtKnows C F p f w (ptAdd (ptInit C false (some (p.target C)) F R) f w) := by
  have hi : ptInit C false (some (p.target C)) F R = F.foldl (fun db s => if ptSkip C (some (p.target C)) s.obj then db
      else ShapeDb.set db s.obj.owner ((db s.obj.owner).add s.isCut true (s.layer, s.box))) (fun _ => ⟨[], [], [], []⟩) := by
    unfold ptInit
    simp only [Bool.false_eq_true, if_false]
    exact ptRouted C p R hR _
  have hf := ptFixed C (some (p.target C)) F (fun _ => ⟨[], [], [], []⟩)
  dsimp only at hf
  rw [← hi] at hf
  generalize ptInit C false (some (p.target C)) F R = db at hf
  have key : ∀ o, (ptAdd db f w o).fixedPoly = (db o).fixedPoly ∧ (ptAdd db f w o).fixedCut = (db o).fixedCut ∧
      (ptAdd db f w o).routePoly = (if o = w then f.metal else []) ∧ (ptAdd db f w o).routeCut = (if o = w then f.cuts else []) := by
    intro o
    obtain ⟨_, _, h3, h4⟩ := hf o
    unfold ptAdd
    by_cases h : o = w
    · subst h
      rw [dbset_same, addFig_eq]
      simp [h3, h4]
    · rw [dbset_other _ _ h]
      simp [h, h3, h4]
  refine ⟨fun o l b => ?_, fun o l b => ?_, fun o l b => ?_, fun o l b => ?_⟩
  · rw [(key o).1, (hf o).1]
    simp [ptSkip_near]
  · rw [(key o).2.1, (hf o).2.1]
    simp [ptSkip_near]
  · rw [(key o).2.2.1]
    by_cases h : o = w <;> simp [h]
  · rw [(key o).2.2.2]
    by_cases h : o = w <;> simp [h]

/-- **C206.** A wire tried at a pin is compared with the shapes of the pin's instance — at a pin of the block, with those of the pin — and with nothing else of the
design, and counts as one net with the shapes of the pin itself. -/
theorem c206_wire (C : PtCells) (F R : List FixedShape) (hR : ∀ s ∈ R, ∃ n, s.obj = .routed n) (p : PtPin) (f : DbFig) :
    ∃ o, p.Owner o ∧ PtKnows C F p f o (ptWire C F R p f) := by
  refine ⟨p.wireOwner, ?_, ptKnows_add C F R hR p f _⟩
  cases p with
  | cell id net => cases net <;> exact ⟨_, rfl, rfl⟩
  | block id net => cases net <;> exact ⟨_, rfl, rfl⟩

/-- **C206 (vias).** The same holds of a via at a pin of an instance, and at a pin of the block that is in no net. -/
theorem c206_via_partial (C : PtCells) (F R : List FixedShape) (hR : ∀ s ∈ R, ∃ n, s.obj = .routed n) (p : PtPin) (hp : ∀ id n, p ≠ .block id (some n)) (f : DbFig) :
    ∃ o, p.Owner o ∧ PtKnows C F p f o (ptVia C F R p f) := by
  refine ⟨p.viaOwner, ?_, ptKnows_add C F R hR p f _⟩
  cases p with
  | cell id net => cases net <;> exact ⟨_, rfl, rfl⟩
  | block id net =>
    cases net with
    | none => exact ⟨_, rfl, rfl⟩
    | some n => exact absurd rfl (hp id n)

/-- **C206 (several pins).** Vias tried together are compared with one another only. -/
theorem c206_group (C : PtCells) (target : Option PtTarget) (F R : List FixedShape) (objs : List (DbFig × DbOwner)) (o : DbOwner) :
    (ptGroup C target F R objs o).fixedPoly = [] ∧ (ptGroup C target F R objs o).fixedCut = [] ∧
    (∀ x, x ∈ (ptGroup C target F R objs o).routePoly ↔ ∃ f, (f, o) ∈ objs ∧ x ∈ f.metal) ∧
    (∀ x, x ∈ (ptGroup C target F R objs o).routeCut ↔ ∃ f, (f, o) ∈ objs ∧ x ∈ f.cuts) := by
  have gen : ∀ (objs : List (DbFig × DbOwner)) (db : ShapeDb), let e := objs.foldl (fun db x => ptAdd db x.1 x.2) db
      (e o).fixedPoly = (db o).fixedPoly ∧ (e o).fixedCut = (db o).fixedCut ∧
      (∀ x, x ∈ (e o).routePoly ↔ x ∈ (db o).routePoly ∨ ∃ f, (f, o) ∈ objs ∧ x ∈ f.metal) ∧
      (∀ x, x ∈ (e o).routeCut ↔ x ∈ (db o).routeCut ∨ ∃ f, (f, o) ∈ objs ∧ x ∈ f.cuts) := by
    intro objs
    induction objs with
    | nil => intro db e; simp [e]
    | cons y objs ih =>
      intro db e
      obtain ⟨h1, h2, h3, h4⟩ := ih (ptAdd db y.1 y.2)
      have he : e = objs.foldl (fun db x => ptAdd db x.1 x.2) (ptAdd db y.1 y.2) := rfl
      rw [← he] at h1 h2 h3 h4
      rw [h1, h2]
      simp only [h3, h4]
      obtain ⟨f, w⟩ := y
      unfold ptAdd
      dsimp only
      by_cases hw : o = w
      · subst hw
        rw [dbset_same, addFig_eq]
        refine ⟨rfl, rfl, fun x => ?_, fun x => ?_⟩
        · simp only [List.mem_append, List.mem_cons, Prod.mk.injEq, and_true, or_assoc]
          constructor
          · rintro (h | h | ⟨g, hg, h⟩)
            · exact .inl h
            · exact .inr ⟨f, .inl rfl, h⟩
            · exact .inr ⟨g, .inr hg, h⟩
          · rintro (h | ⟨g, rfl | hg, h⟩)
            · exact .inl h
            · exact .inr (.inl h)
            · exact .inr (.inr ⟨g, hg, h⟩)
        · simp only [List.mem_append, List.mem_cons, Prod.mk.injEq, and_true, or_assoc]
          constructor
          · rintro (h | h | ⟨g, hg, h⟩)
            · exact .inl h
            · exact .inr ⟨f, .inl rfl, h⟩
            · exact .inr ⟨g, .inr hg, h⟩
          · rintro (h | ⟨g, rfl | hg, h⟩)
            · exact .inl h
            · exact .inr (.inl h)
            · exact .inr (.inr ⟨g, hg, h⟩)
      · rw [dbset_other _ _ hw]
        simp [hw]
  obtain ⟨h1, h2, h3, h4⟩ := gen objs (ptInit C true target F R)
  have h0 : ptInit C true target F R o = ⟨[], [], [], []⟩ := by simp [ptInit]
  rw [h0] at h1 h2 h3 h4
  exact ⟨h1, h2, fun x => (h3 x).trans (by simp), fun x => (h4 x).trans (by simp)⟩

theorem mem_ptOn (layer : Nat) (xs : List LBox) (b : Box) : b ∈ ptOn layer xs ↔ (layer, b) ∈ xs := by
  unfold ptOn
  simp only [List.mem_map, List.mem_filter, decide_eq_true_eq]
  constructor
  · rintro ⟨⟨l, c⟩, ⟨h, rfl⟩, rfl⟩; exact h
  · intro h; exact ⟨_, ⟨h, rfl⟩, rfl⟩

/-- a maximal rectangle of a net of the checker is among the rectangles of the layer -/
theorem ptLayer_rect (L : GLayer) (u : Bool) (addr : DbOwner → Nat) (pg : DbOwner → Bool) (edges : List GEdge) (os : List DbOwner) (layer : Nat) (db : ShapeDb)
    {i : Nat} {o : DbOwner} (hi : os[i]? = some o) {q : Box × Bool} (hq : q ∈ flaggedRects (ptOn layer (db o).routePoly) (ptOn layer (db o).fixedPoly)) :
    ∃ r ∈ (ptLayer L u addr pg edges os layer db).rects, r.net = i ∧ r.box = q.1 ∧ r.fixed = q.2 := by
  have hm : (i, q) ∈ os.zipIdx.flatMap (fun p => (flaggedRects (ptOn layer (db p.1).routePoly) (ptOn layer (db p.1).fixedPoly)).map (fun q => (p.2, q))) :=
    List.mem_flatMap.2 ⟨(o, i), List.mem_zipIdx_iff_getElem?.2 hi, List.mem_map.2 ⟨q, hq, rfl⟩⟩
  obtain ⟨k, hk⟩ := List.mem_iff_getElem?.1 hm
  exact ⟨⟨k, q.1, i, q.2⟩, List.mem_map.2 ⟨((i, q), k), List.mem_zipIdx_iff_getElem?.2 hk, rfl⟩, rfl, rfl, rfl⟩

theorem ptLayer_ok (L : GLayer) (u : Bool) (addr : DbOwner → Nat) (pg : DbOwner → Bool) (edges : List GEdge) (os : List DbOwner) (layer : Nat) (db : ShapeDb)
    (hE : ∀ e ∈ edges, e.Ok) (hT : ∀ t, L.minSpc = some (.prl t) → t.Ok) : (ptLayer L u addr pg edges os layer db).Ok := by
  refine ⟨fun r hr => ?_, fun r hr s hs h => ?_, hE, hT⟩
  · obtain ⟨⟨⟨i, q⟩, k⟩, hx, rfl⟩ := List.mem_map.1 hr
    have h1 := List.mem_of_getElem? (List.mem_zipIdx_iff_getElem?.1 hx)
    obtain ⟨p, _, h2⟩ := List.mem_flatMap.1 h1
    obtain ⟨q', h3, h4⟩ := List.mem_map.1 h2
    obtain ⟨b, h5, h6⟩ := List.mem_map.1 h3
    cases h4
    cases h6
    exact (mem_maxRects.1 h5).solid
  · obtain ⟨⟨x, k⟩, hx, rfl⟩ := List.mem_map.1 hr
    obtain ⟨⟨y, l⟩, hy, rfl⟩ := List.mem_map.1 hs
    have h' : k = l := h
    subst h'
    have h1 := List.mem_zipIdx_iff_getElem?.1 hx
    have h2 := List.mem_zipIdx_iff_getElem?.1 hy
    have h3 := h1.symm.trans h2
    cases h3
    rfl

/-- **C206 (finding).** A via tried at a pin of the block that is in a net — pin access tries no others — is given to the pin instead of to the net, and the shapes of
the pin are those of the net: as soon as metal of the via overlaps metal of its own pin, the check of that layer reports a short, and the via is refused. -/
theorem c206_block_pin_via (C : PtCells) (F R : List FixedShape) (hR : ∀ s ∈ R, ∃ n, s.obj = .routed n) (id n : Nat) (f : DbFig)
    (hF : ∀ s ∈ F, ∀ net u, s.obj = .term id net u → net = some n)
    (L : GLayer) (useMinObs : Bool) (addr : DbOwner → Nat) (pg : DbOwner → Bool) (edges : List GEdge) (os : List DbOwner) (layer : Nat)
    (hos : ∀ o, (ptVia C F R (.block id (some n)) f o) ≠ ⟨[], [], [], []⟩ → o ∈ os)
    (hE : ∀ e ∈ edges, e.Ok) (hT : ∀ t, L.minSpc = some (.prl t) → t.Ok)
    (hRules : (ptLayer L useMinObs addr pg edges os layer (ptVia C F R (.block id (some n)) f)).RulesOk)
    (v : Box) (hv : (layer, v) ∈ f.metal) (s : FixedShape) (hs : s ∈ F) (hpin : ∃ u, s.obj = .term id (some n) u) (hc : s.isCut = false) (hl : s.layer = layer)
    (c : Point) (hcv : CellOf v c) (hcs : CellOf s.box c)
    (ord : List GRect → List GRect) (hord : ∀ l, (ord l).Perm l) (st : GStore) :
    ∃ st', checkLayer (ptLayer L useMinObs addr pg edges os layer (ptVia C F R (.block id (some n)) f)) ord none (clearMarkers st) = some st' ∧
      ∃ m ∈ st'.markers, m.rule = .short ∧ CellOf m.box c := by
  have K : PtKnows C F (.block id (some n)) f (.term id) (ptVia C F R (.block id (some n)) f) := ptKnows_add C F R hR _ f _
  have hoD := ptLayer_ok L useMinObs addr pg edges os layer (ptVia C F R (.block id (some n)) f) hE hT
  generalize hdb : ptVia C F R (.block id (some n)) f = db at *
  obtain ⟨u, hu⟩ := hpin
  -- the via is metal of the pin, the shapes of the pin are metal of the net
  have hm1 : (layer, v) ∈ (db (.term id)).routePoly := (K.metal _ _ _).2 ⟨rfl, hv⟩
  have hm2 : (layer, s.box) ∈ (db (.net n)).fixedPoly := (K.fixedMetal _ _ _).2 ⟨s, hs, ⟨_, _, hu⟩, by rw [hu]; rfl, hc, hl, rfl⟩
  have hf1 : (db (.term id)).fixedPoly = [] := by
    rw [List.eq_nil_iff_forall_not_mem]
    rintro ⟨l, b⟩ hx
    obtain ⟨t, ht, ⟨net, u', hn⟩, ho, _⟩ := (K.fixedMetal _ _ _).1 hx
    have hh := hF t ht net u' hn
    subst hh
    rw [hn] at ho
    cases ho
  have ho1 : DbOwner.term id ∈ os := hos _ (fun h => by rw [h] at hm1; cases hm1)
  have ho2 : DbOwner.net n ∈ os := hos _ (fun h => by rw [h] at hm2; cases hm2)
  obtain ⟨i, hi⟩ := List.mem_iff_getElem?.1 ho1
  obtain ⟨j, hj⟩ := List.mem_iff_getElem?.1 ho2
  have hij : i ≠ j := fun h => by rw [h, hj] at hi; cases hi
  -- rectangles of the two that contain the cell
  obtain ⟨b1, hb1, hc1⟩ := cell_in_max (bs := ptOn layer (db (.term id)).routePoly ++ ptOn layer (db (.term id)).fixedPoly) (c := c)
    ⟨v, List.mem_append.2 (.inl ((mem_ptOn _ _ _).2 hm1)), hcv⟩
  obtain ⟨b2, hb2, hc2⟩ := cell_in_max (bs := ptOn layer (db (.net n)).routePoly ++ ptOn layer (db (.net n)).fixedPoly) (c := c)
    ⟨s.box, List.mem_append.2 (.inr ((mem_ptOn _ _ _).2 hm2)), hcs⟩
  obtain ⟨r, hr, hr1, hr2, hr3⟩ := ptLayer_rect L useMinObs addr pg edges os layer db hi
    (q := (b1, decide (b1 ∈ maxRects (ptOn layer (db (.term id)).fixedPoly)))) (List.mem_map.2 ⟨b1, hb1, rfl⟩)
  obtain ⟨t, ht, ht1, ht2, ht3⟩ := ptLayer_rect L useMinObs addr pg edges os layer db hj
    (q := (b2, decide (b2 ∈ maxRects (ptOn layer (db (.net n)).fixedPoly)))) (List.mem_map.2 ⟨b2, hb2, rfl⟩)
  have hrf : r.fixed = false := by
    rw [hr3, hf1]
    dsimp only
    rw [decide_eq_false_iff_not]
    intro h
    obtain ⟨x, hx, _⟩ := (mem_maxRects.1 h).metal c hc1
    cases hx
  dsimp only at hr2 ht2
  generalize hD : ptLayer L useMinObs addr pg edges os layer db = D at *
  have hnr : D.net r.net = ⟨addr (.term id), false, pg (.term id)⟩ := by
    rw [hr1, ← hD]
    simp only [ptLayer]
    rw [hi]
    rfl
  have hnt : D.net t.net = ⟨addr (.net n), false, pg (.net n)⟩ := by
    rw [ht1, ← hD]
    simp only [ptLayer]
    rw [hj]
    rfl
  have hroute : D.routePolys r.net = ptOn layer (db (.term id)).routePoly := by
    rw [hr1, ← hD]
    simp only [ptLayer]
    rw [hi]
  obtain ⟨p1, p2, p3, p4⟩ := hc1
  obtain ⟨q1, q2, q3, q4⟩ := hc2
  obtain ⟨st', hst, -, hmem⟩ := c57_layer hoD hRules hord none st
  let mb : Box := ⟨⟨min (max r.box.left t.box.left) (min r.box.right t.box.right), min (max r.box.bottom t.box.bottom) (min r.box.top t.box.top)⟩,
    ⟨max (max r.box.left t.box.left) (min r.box.right t.box.right), max (max r.box.bottom t.box.bottom) (min r.box.top t.box.top)⟩⟩
  have hcm : CellOf mb c := by
    unfold CellOf
    simp only [mb, Box.left, Box.right, Box.bottom, Box.top, hr2, ht2] at *
    omega
  refine ⟨st', hst, ⟨mb, D.layer.num, .short, srcPair (D.net r.net).owner (D.net t.net).owner⟩, ?_, rfl, hcm⟩
  refine (hmem _).2 ⟨r, hr, t, ht, ⟨fun _ h => (by cases h), ?_, Or.inr (Or.inl ?_)⟩⟩
  · intro h
    have := hoD.ids r hr t ht h
    rw [this, ht1] at hr1
    exact hij hr1.symm
  · refine ⟨by rw [hr1, ht1]; exact hij, ⟨c, ?_, ?_⟩, .inl hrf, ⟨rfl, rfl, rfl, rfl⟩, ?_, .inl ⟨c, ⟨v, ?_, hcv⟩, .inl ⟨hcm.1, hcm.2.1⟩, .inl ⟨hcm.2.2.1, hcm.2.2.2⟩⟩, rfl, rfl,
      srcPair_names D r t⟩
    · rw [hr2]; unfold Box.Has; omega
    · rw [ht2]; unfold Box.Has; omega
    · unfold ObsOverPin
      simp [hnr, hnt]
    · rw [hroute]; exact (mem_ptOn _ _ _).2 hm1

/-! ### examples -/

/-- instance 5 has the pins 50 (net 7) and 51 (no net) and the obstruction 52; pin 60 belongs to instance 6; pin 3 of the block is in net 7 -/
def ptExCells : PtCells := ⟨fun t => t / 10, fun b => b / 10⟩

def ptExBox (x : Int) : Box := ⟨⟨x, 0⟩, ⟨x + 100, 100⟩⟩

def ptExFixed : List FixedShape :=
  [⟨.instTerm 50 (some 7) .other, false, 2, ptExBox 0⟩, ⟨.instTerm 51 none .other, false, 2, ptExBox 200⟩, ⟨.instBlockage 52, false, 2, ptExBox 400⟩,
   ⟨.instTerm 60 (some 8) .other, false, 2, ptExBox 600⟩, ⟨.term 3 (some 7) .other, false, 2, ptExBox 800⟩]

def ptExVia (x : Int) : DbFig := .via 2 3 4 [⟨⟨x + 20, 20⟩, ⟨x + 80, 80⟩⟩] [⟨⟨x + 30, 30⟩, ⟨x + 70, 70⟩⟩] [⟨⟨x + 20, 20⟩, ⟨x + 80, 80⟩⟩]

/-- a via at pin 50: the pin and the via are one net, the other pin and the obstruction are compared with it, pin 60 is not -/
example : let db := ptVia ptExCells ptExFixed [⟨.routed 9, false, 2, ptExBox 0⟩] (.cell 50 (some 7)) (ptExVia 0)
    (db (.net 7)).fixedPoly = [(2, ptExBox 0)] ∧ (db (.net 7)).routePoly.length = 2 ∧ (db (.instTerm 51)).fixedPoly = [(2, ptExBox 200)] ∧
    (db (.instBlockage 52)).fixedPoly = [(2, ptExBox 400)] ∧ (db (.net 8)).fixedPoly = [] ∧ (db (.net 9)).routePoly = [] := by decide +kernel

def ptExLayer : GDb := ptLayer ⟨2, 50, 50, some (.fixed 60), none⟩ false (fun _ => 0) (fun _ => false) [] [.vss, .vdd, .net 7, .term 3] 2
  (ptVia ptExCells ptExFixed [] (.block 3 (some 7)) (ptExVia 800))

/-- a via at pin 3 of the block: a short of the via with its own pin -/
example : ptExLayer.RulesOk ∧ (checkLayer ptExLayer id none (clearMarkers ⟨[], []⟩)).map (fun s => s.markers.map (fun m => (m.box, m.rule))) =
    some [(⟨⟨820, 20⟩, ⟨880, 80⟩⟩, .short)] := by
  refine ⟨⟨?_, ?_, ?_, ?_⟩, by decide +kernel⟩
  · intro t h; simp [ptExLayer, ptLayer] at h
  · intro x h
    simp only [ptExLayer, ptLayer, Option.some.injEq, SpcRule.fixed.injEq] at h
    omega
  · intro t x pg h; simp [ptExLayer, ptLayer] at h
  · decide

/-- a wire at that pin is one net with it -/
example : (ptWire ptExCells ptExFixed [] (.block 3 (some 7)) (.seg 2 (ptExBox 850)) (.net 7)) = ⟨[(2, ptExBox 800)], [], [(2, ptExBox 850)], []⟩ := by decide +kernel

end TR
