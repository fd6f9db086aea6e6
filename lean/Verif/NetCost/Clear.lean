import Verif.NetCost.Props
/-! What a net being routed may rely on at a node whose counters are zero. -/
namespace TR

/-- metal of a fixed shape on layer index `z`; `blk`: it is an obstruction -/
inductive FixShape.Metal : FixShape → Box → Int → Bool → Prop where
  | obs (box z) : Metal (.obs box z) box z true
  | wire (box z) : Metal (.wire box z) box z false
  | via (box z) : Metal (.viaMetal box z) box z false

/-- a cut of a fixed shape above layer index `z` -/
inductive FixShape.Cut : FixShape → Box → Int → Bool → Prop where
  | obs (box z) : Cut (.obsCut box z) box z true
  | pin (box z) : Cut (.pinCut box z) box z true
  | via (box z) : Cut (.viaCut box z) box z false

theorem fixMetal_planar {T : CTech} {g : Grid} {f : FixShape} {box : Box} {z : Int} {blk : Bool} (h : f.Metal box z blk) :
    ∀ t ∈ minSpcPlanar T g box z blk, t ∈ fixTargets T g f := by
  intro t ht
  cases h <;> simp only [fixTargets, List.mem_append] <;> simp [ht]

theorem fixMetal_via {T : CTech} {g : Grid} {f : FixShape} {box : Box} {z : Int} {blk : Bool} (h : f.Metal box z blk) (upper : Bool) :
    ∃ grows, ∀ t ∈ minSpcVia T g noSv box z upper grows blk, t ∈ fixTargets T g f := by
  cases h
  · refine ⟨false, ?_⟩; intro t ht; cases upper <;> simp only [fixTargets, bothVia, List.mem_append] <;> simp [ht]
  · refine ⟨true, ?_⟩; intro t ht; cases upper <;> simp only [fixTargets, bothVia, List.mem_append] <;> simp [ht]
  · refine ⟨false, ?_⟩; intro t ht; cases upper <;> simp only [fixTargets, bothVia, List.mem_append] <;> simp [ht]

theorem fixCut {T : CTech} {g : Grid} {f : FixShape} {box : Box} {z : Int} {blk : Bool} (h : f.Cut box z blk) :
    (∀ t ∈ cutSpcCost T g box z blk, t ∈ fixTargets T g f) ∧ ∀ upper, ∀ t ∈ interCutCost T g box z upper, t ∈ fixTargets T g f := by
  cases h <;> refine ⟨?_, ?_⟩ <;> intro t ht
  all_goals first
    | (simp only [fixTargets, List.mem_append]; exact Or.inl ht)
    | (intro hu; cases t <;> simp only [fixTargets, bothInter, List.mem_append] <;> simp [hu])

/-- no fixed shape, and no terminal of another net, charges a counter that is zero while the net is routed -/
theorem free_fixed {E : WEnv} {g : Grid} (hE : E.Fits g) {lim : CTgt → Prop} {pat : Bool} {s : WState} {k : Nat} {n : WNet}
    (h : WRun E g lim pat s (some k)) (hn : E.nets[k]? = some n) (hcell : ∀ n ∈ E.nets, ∀ r ∈ E.termsOf n, r.ofMacro = false)
    (t : CTgt) (ht : g.On t.1) (hb : g.attr t.1 (fixAttr t.2) + E.fixedCharge g t ≤ 255) (hfree : s.grid.attr t.1 (fixAttr t.2) = 0) :
    (∀ f ∈ E.fixed, t ∉ fixTargets E.T g f) ∧
    ∀ (o : Nat) (ss : List TermRect), o ≠ n.owner → E.terms[o]? = some ss → ∀ r ∈ ss, t ∉ termTargets E.T g noSv false r := by
  have h1 := (run_shape hE h t ht hb (fun n hn => by have := own_le E g n (hcell n hn) t; omega)).2 k n rfl hn
  rw [hfree] at h1
  have hmem := List.mem_of_getElem? hn
  have hown : E.ownCharge g n t ≤ ((E.terms[n.owner]?).map (termCharge E.T g noSv false t)).getD 0 := by
    unfold WEnv.ownCharge
    cases he : E.terms[n.owner]? with
    | none => unfold WEnv.termsOf; rw [he]; exact Nat.le_refl _
    | some ss =>
      have hss : E.termsOf n = ss := by unfold WEnv.termsOf; rw [he]; rfl
      have hc := hcell n hmem
      rw [hss] at hc ⊢
      exact sumMap_le _ _ ss (fun s hs => term_le E.T g E.sv s (hc s hs) t)
  unfold WEnv.fixedCharge at h1
  have hle : ((E.terms[n.owner]?).map (termCharge E.T g noSv false t)).getD 0 ≤ (E.terms.map (termCharge E.T g noSv false t)).sum := by
    cases he : E.terms[n.owner]? with
    | none => exact Nat.zero_le _
    | some ss => exact le_sum_of_mem (List.mem_map.2 ⟨ss, List.mem_of_getElem? he, rfl⟩)
  refine ⟨?_, ?_⟩
  · intro f hf hin
    have h2 := le_sum_of_mem (List.mem_map.2 ⟨f, hf, rfl⟩ : (fixTargets E.T g f).count t ∈ E.fixed.map fun f => (fixTargets E.T g f).count t)
    have h3 := List.count_pos_iff.2 hin
    omega
  · intro o ss ho hss r hr hin
    have h2 : (termTargets E.T g noSv false r).count t ≤ termCharge E.T g noSv false t ss :=
      le_sum_of_mem (List.mem_map.2 ⟨r, hr, rfl⟩)
    have h3 := List.count_pos_iff.2 hin
    have h4 : ∀ (l : List (List TermRect)) (i j : Nat) (a b : List TermRect), i ≠ j → l[i]? = some a → l[j]? = some b →
        termCharge E.T g noSv false t a + termCharge E.T g noSv false t b ≤ (l.map (termCharge E.T g noSv false t)).sum := by
      intro l
      induction l with
      | nil => intro i j a b _ h; cases h
      | cons x l ih =>
        intro i j a b hij ha hb
        rw [List.map_cons, List.sum_cons]
        cases i with
        | zero =>
          cases j with
          | zero => exact absurd rfl hij
          | succ j =>
            cases ha
            have := le_sum_of_mem (List.mem_map.2 ⟨b, List.mem_of_getElem? (show l[j]? = some b from hb), rfl⟩ : termCharge E.T g noSv false t b ∈ l.map (termCharge E.T g noSv false t))
            omega
        | succ i =>
          cases j with
          | zero =>
            cases hb
            have := le_sum_of_mem (List.mem_map.2 ⟨a, List.mem_of_getElem? (show l[i]? = some a from ha), rfl⟩ : termCharge E.T g noSv false t a ∈ l.map (termCharge E.T g noSv false t))
            omega
          | succ j => have := ih i j a b (by omega) ha hb; omega
    cases he : E.terms[n.owner]? with
    | none =>
      have := le_sum_of_mem (List.mem_map.2 ⟨ss, List.mem_of_getElem? hss, rfl⟩ : termCharge E.T g noSv false t ss ∈ E.terms.map (termCharge E.T g noSv false t))
      rw [he] at hown
      simp at hown
      omega
    | some os =>
      have := h4 E.terms o n.owner ss os ho hss he
      rw [he] at hown
      simp at hown
      omega

/-- no shape of another net charges a counter of routed shapes that is zero while the net is routed -/
theorem free_routed {E : WEnv} {g : Grid} (hE : E.Fits g) {lim : CTgt → Prop} {s : WState} {k : Nat}
    (h : WRun E g lim false s (some k)) (t : CTgt) (hl : lim t) (ht : g.On t.1) (hfree : s.grid.attr t.1 (ctrAttr t.2) = 0)
    (i : Nat) (n : WNet) (fs : List CFig) (hik : i ≠ k) (hn : E.nets[i]? = some n) (hfs : s.figs[i]? = some fs) :
    ∀ f ∈ n.ext ++ fs, t ∉ pathTargets E.T g E.sv f := by
  have hI := winv_run hE h
  have e := hI.eq rfl t hl ht
  rw [hfree] at e
  have hil : i < E.nets.length := (List.getElem?_eq_some_iff.1 hn).1
  have htr : ∃ tr, s.tries[i]? = some tr := ⟨_, List.getElem?_eq_getElem (by rw [hI.lenT]; exact hil)⟩
  obtain ⟨tr, htr⟩ := htr
  have h2 : E.owedBy g s (some k) t i ≤ E.owed g s (some k) t := le_sum_of_mem (List.mem_map.2 ⟨i, List.mem_range.2 hil, rfl⟩)
  have h3 : chargeOf E.T g E.sv t n.ext + chargeOf E.T g E.sv t fs ≤ E.owedBy g s (some k) t i := by
    unfold WEnv.owedBy
    rw [hn, hfs, htr]
    dsimp only
    rw [if_neg (by intro e; cases e; exact hik rfl)]
    omega
  intro f hf hin
  have h4 := List.count_pos_iff.2 hin
  rcases List.mem_append.1 hf with hf | hf
  · have : (pathTargets E.T g E.sv f).count t ≤ chargeOf E.T g E.sv t n.ext := le_sum_of_mem (List.mem_map.2 ⟨f, hf, rfl⟩)
    omega
  · have : (pathTargets E.T g E.sv f).count t ≤ chargeOf E.T g E.sv t fs := le_sum_of_mem (List.mem_map.2 ⟨f, hf, rfl⟩)
    omega

/-- metal near a net being routed: of a fixed shape, of a terminal of another net, or of another net's shapes -/
inductive WEnv.Near (E : WEnv) (s : WState) (k : Nat) (n : WNet) : Box → Int → Bool → Prop where
  | fixed {f box z blk} : f ∈ E.fixed → f.Metal box z blk → Near E s k n box z blk
  | term {o ss} {r : TermRect} : o ≠ n.owner → E.terms[o]? = some ss → r ∈ ss → Near E s k n r.box r.z false
  | route {i n' fs f box z} : i ≠ k → E.nets[i]? = some n' → s.figs[i]? = some fs → f ∈ n'.ext ++ fs → f.Metal box z → Near E s k n box z false

/-- cuts near a net being routed -/
inductive WEnv.NearCut (E : WEnv) (s : WState) (k : Nat) : Box → Int → Bool → Prop where
  | fixed {f box z blk} : f ∈ E.fixed → f.Cut box z blk → NearCut E s k box z blk
  | route {i n' fs f box z} : i ≠ k → E.nets[i]? = some n' → s.figs[i]? = some fs → f ∈ n'.ext ++ fs → f.Cut box z → NearCut E s k box z false

/-- C137, C138: where both counters for wires are zero, a wire of the net being routed keeps its spacing to all metal that is not its own — fixed,
of other nets' terminals, and of other nets' routes — and at least as wide as itself; to obstructions, the smallest spacing of the layer if the
program is set so. (Nets' terminals of standard cells, no patches of the checker, charges up to 255.) -/
theorem c137_free_wire {E : WEnv} {g : Grid} (hE : E.Fits g) {lim : CTgt → Prop} {s : WState} {k : Nat} {n : WNet}
    (h : WRun E g lim false s (some k)) (hn : E.nets[k]? = some n) (hcell : ∀ n ∈ E.nets, ∀ r ∈ E.termsOf n, r.ofMacro = false)
    (i j : Nat) (p : Point) (hp : NodeAt g i j p) (z : Int) (hz0 : 0 ≤ z) (hz : z < g.zs.length)
    (hl : lim (⟨i, j, z⟩, false)) (hb : g.attr ⟨i, j, z⟩ .shapeP + E.fixedCharge g (⟨i, j, z⟩, false) ≤ 255)
    (hfree : s.grid.attr ⟨i, j, z⟩ .shapeP = 0 ∧ s.grid.attr ⟨i, j, z⟩ .drcP = 0) (box : Box) (blk : Bool) (hnear : E.Near s k n box z blk) (hbox : box.Proper)
    (hw : 2 ≤ E.T.width (g.lay z)) (hwide : 2 * (E.T.width (g.lay z) / 2) ≤ box.width) (hm : SpcMono E.T (g.lay z)) (d : Int) (hd0 : 0 ≤ d)
    (hd : LayerSpacing E.T (g.lay z) (blk = true ∧ E.T.useMinObs = true) box.width (E.T.width (g.lay z)) box.length d)
    (run e : Int) (he0 : 0 ≤ e) (hrun : run ≤ box.length)
    (he : LayerSpacing E.T (g.lay z) (blk = true ∧ E.T.useMinObs = true) box.width (E.T.width (g.lay z)) run e) :
    ¬ Closer (wireSq p (E.T.width (g.lay z) / 2)) box e := by
  have hon := on_node hp hz0 hz
  have h1 := free_fixed hE h hn hcell (⟨i, j, z⟩, false) hon hb hfree.1
  intro hc
  have hed : e ≤ d := by
    obtain ⟨r, h1, h2, h3⟩ := hd
    obtain ⟨r', h1', h2', h3'⟩ := he
    rw [h1] at h1'
    cases h1'
    by_cases hle : blk = true ∧ E.T.useMinObs = true
    · rw [h2 hle, h2' hle]; exact Int.le_refl _
    · exact hm r h1 _ _ _ _ _ _ hrun (h3' hle) (h3 hle)
  have hin := ((c72_planar E.T g hE.sorted box hbox z blk d hd0 hd hw i j p hp).2.2 hwide).2 (closer_mono he0 hed hc)
  cases hnear with
  | fixed hf hmet =>
    exact h1.1 _ hf (fixMetal_planar hmet _ hin)
  | term ho hss hr =>
    refine h1.2 _ _ ho hss _ hr ?_
    unfold termTargets
    simp only [List.mem_append]
    exact Or.inl (Or.inl (Or.inl hin))
  | route hik hn' hfs hf hmet =>
    exact free_routed hE h (⟨i, j, z⟩, false) hl hon hfree.2 _ _ _ hik hn' hfs _ hf (metal_planar hmet hin)

/-- C137, C138: where both counters for vias are zero, the default via is clear of fixed metal and other nets' terminals and routes, at nodes without a
special via: it keeps its spacing and nothing lies in front of its ends. -/
theorem c137_free_via {E : WEnv} {g : Grid} (hE : E.Fits g) {lim : CTgt → Prop} {s : WState} {k : Nat} {n : WNet}
    (h : WRun E g lim false s (some k)) (hn : E.nets[k]? = some n) (hcell : ∀ n ∈ E.nets, ∀ r ∈ E.termsOf n, r.ofMacro = false)
    (i j : Nat) (p : Point) (hp : NodeAt g i j p) (z : Int) (upper : Bool) (hz0 : 0 ≤ viaZ z upper) (hz : viaZ z upper < g.zs.length)
    (hl : lim (⟨i, j, viaZ z upper⟩, true)) (hb : g.attr ⟨i, j, viaZ z upper⟩ .shapeV + E.fixedCharge g (⟨i, j, viaZ z upper⟩, true) ≤ 255)
    (hfree : s.grid.attr ⟨i, j, viaZ z upper⟩ .shapeV = 0 ∧ s.grid.attr ⟨i, j, viaZ z upper⟩ .drcV = 0) (box : Box)
    (hnear : E.Near s k n box z false) (hbox : box.Proper) (hsv : E.sv ⟨i, j, viaZ z upper⟩ = none)
    (v : MzVia) (hv : E.T.ViaOk (g.lay z) upper v) (hvp : (v.metal upper).Proper) (heol : EolRulesOk (E.T.eol (g.lay z))) (hm : SpcMono E.T (g.lay z))
    (hlook : ∀ run, ∃ q, 0 ≤ q ∧ LayerSpacing E.T (g.lay z) False box.width (v.metal upper).width run q ∧ ∀ r ∈ E.T.eol (g.lay z), r.within ≤ q) :
    (∀ e, LayerSpacing E.T (g.lay z) False box.width (v.metal upper).width (runLen box ((v.metal upper).at p)) e → 0 ≤ e → ¬ Closer ((v.metal upper).at p) box e) ∧
    ∀ r ∈ E.T.eol (g.lay z), ∀ s, ¬ EolClose r ((v.metal upper).at p) box s := by
  have hon := on_node hp hz0 hz
  have h1 := free_fixed hE h hn hcell (⟨i, j, viaZ z upper⟩, true) hon hb hfree.1
  have hfit : FitsDefault (E.T.eol (g.lay z)) (v.metal upper) (v.metal upper) := ⟨hvp, Box.inside_self _, fun _ _ _ h => h⟩
  have key : ∀ (sv : MIdx → Option MzVia) (grows : Bool), sv ⟨i, j, viaZ z upper⟩ = none → (⟨i, j, viaZ z upper⟩, true) ∉ minSpcVia E.T g sv box z upper grows false → _ :=
    fun sv grows hs' hno => c73_clear E.T g hE.sorted sv box hbox z upper grows v hv heol hm i j p hp (v.metal upper) (by rw [hs']) hfit hlook hno
  cases hnear with
  | fixed hf hmet =>
    obtain ⟨grows, hg⟩ := fixMetal_via (T := E.T) (g := g) hmet upper
    exact key noSv grows rfl (fun hin => h1.1 _ hf (hg _ hin))
  | term ho hss hr =>
    refine key noSv false rfl (fun hin => h1.2 _ _ ho hss _ hr ?_)
    unfold termTargets bothVia
    simp only [List.mem_append]
    refine Or.inl (Or.inl (Or.inr ?_))
    rw [if_neg (by decide)]
    cases upper
    · exact List.mem_append.2 (Or.inr hin)
    · exact List.mem_append.2 (Or.inl hin)
  | route hik hn' hfs hf hmet =>
    obtain ⟨grows, hg⟩ := metal_via (T := E.T) (g := g) (sv := E.sv) hmet upper
    exact key E.sv grows hsv (fun hin => free_routed hE h _ hl hon hfree.2 _ _ _ hik hn' hfs _ hf (hg _ hin))

/-- C137, C138: where both counters for vias are zero, no cut of the default via is forbidden next to a cut of a fixed shape or another net's route, on
the same cut layer or, by the rules between layers, the ones above and below. -/
theorem c137_free_cut {E : WEnv} {g : Grid} (hE : E.Fits g) {lim : CTgt → Prop} {s : WState} {k : Nat} {n : WNet}
    (h : WRun E g lim false s (some k)) (hn : E.nets[k]? = some n) (hcell : ∀ n ∈ E.nets, ∀ r ∈ E.termsOf n, r.ofMacro = false)
    (i j : Nat) (p : Point) (hp : NodeAt g i j p) (zv : Int) (hz0 : 0 ≤ zv) (hz : zv < g.zs.length)
    (hl : lim (⟨i, j, zv⟩, true)) (hb : g.attr ⟨i, j, zv⟩ .shapeV + E.fixedCharge g (⟨i, j, zv⟩, true) ≤ 255)
    (hfree : s.grid.attr ⟨i, j, zv⟩ .shapeV = 0 ∧ s.grid.attr ⟨i, j, zv⟩ .drcV = 0) (box : Box) (z : Int) (blk : Bool) (hnear : E.NearCut s k box z blk)
    (hbox : box.Proper) (v : MzVia) (hcuts : v.CutsOk) :
    (zv = z → E.T.via (g.lay z + 1) = some v → CutRulesOk (E.T.cut (g.lay z + 1)) →
      ∀ c ∈ v.cuts, ∀ r ∈ E.T.cut (g.lay z + 1), ¬ CutForbids r blk box (c.at p)) ∧
    (∀ upper r, zv = (if upper then z + 1 else z - 1) → E.T.otherVia (g.lay z + 1) upper = some v →
      E.T.interRule (g.lay z + 1) (otherCut (g.lay z + 1) upper) = some r → 0 ≤ r.spacing → ∀ c ∈ v.cuts, ¬ CutNear r.c2c box (c.at p) r.spacing) := by
  have hon := on_node hp hz0 hz
  have h1 := free_fixed hE h hn hcell (⟨i, j, zv⟩, true) hon hb hfree.1
  have hno : (⟨i, j, zv⟩, true) ∉ cutSpcCost E.T g box z blk ∧ ∀ upper, (⟨i, j, zv⟩, true) ∉ interCutCost E.T g box z upper := by
    cases hnear with
    | fixed hf hc =>
      have := fixCut (T := E.T) (g := g) hc
      exact ⟨fun hin => h1.1 _ hf (this.1 _ hin), fun u hin => h1.1 _ hf (this.2 u _ hin)⟩
    | route hik hn' hfs hf hc =>
      have := cut_targets (T := E.T) (g := g) (sv := E.sv) hc
      have h2 := free_routed hE h (⟨i, j, zv⟩, true) hl hon hfree.2 _ _ _ hik hn' hfs _ hf
      exact ⟨fun hin => h2 (this.1 _ hin), fun u hin => h2 (this.2 u _ hin)⟩
  refine ⟨?_, ?_⟩
  · rintro rfl hv hr c hc1 r hr1 hf1
    classical
    have hc := c75_cut E.T g hE.sorted box hbox zv blk v hv hcuts hr i j p hp (fun c => decide (∃ r, r ∈ E.T.cut (g.lay zv + 1) ∧ CutForbids r blk box (c.at p)))
      (fun c => by simp)
    rw [List.count_eq_zero.2 hno.1] at hc
    have := List.countP_eq_zero.1 hc.symm c hc1
    exact this (by simpa using ⟨r, hr1, hf1⟩)
  · intro upper r hzv hv hrule hr c hc hnr
    apply hno.2 upper
    rw [hzv]
    exact (c75_inter E.T g hE.sorted box hbox z upper v r hv hrule hcuts hr i j p hp).2.2 ⟨c, hc, hnr⟩

example : ∃ s, WRun exNEnv exNGrid (fun t => t = (⟨3, 3, 0⟩, false)) false s (some 0) ∧ NodeAt exNGrid 3 3 ⟨3000, 3000⟩ ∧
    s.grid.attr ⟨3, 3, 0⟩ .shapeP = 0 ∧ s.grid.attr ⟨3, 3, 0⟩ .drcP = 0 ∧ (∃ box z, exNEnv.Near s 0 exNA box z true ∧ box.Proper) ∧
    (∃ box, exNEnv.Near s 0 exNA box 0 false ∧ box.Proper) := by
  have hf : exN1.figs[1]? = some exNB.route := by
    have h := exStep_eq (o := exNEnv.begin (exNEnv.start exNGrid) 0) (by decide +kernel)
    obtain ⟨n, fs, tr, ops, -, -, -, -, e⟩ := begin_eq h
    show (exStep (exNEnv.begin (exNEnv.start exNGrid) 0)).figs[1]? = _
    rw [e]; rfl
  refine ⟨exN1, ?_, ⟨rfl, rfl⟩, by decide +kernel, by decide +kernel, ⟨_, _, .fixed (List.mem_cons_self ..) (.obs ⟨⟨900, 900⟩, ⟨1100, 1100⟩⟩ 0), by unfold Box.Proper; decide⟩,
    ⟨_, .route (i := 1) (n' := exNB) (by decide) rfl hf (List.mem_cons_self ..) (.wire ⟨⟨-20, 2980⟩, ⟨2020, 3020⟩⟩ ⟨0, 3, 0⟩ ⟨2, 3, 0⟩), by unfold Box.Proper; decide⟩⟩
  refine .begin (.start ?_) (exStep_eq (by decide +kernel)) ?_
  · rintro t rfl; decide +kernel
  · rintro t n rfl hn; cases hn; decide +kernel

end TR
