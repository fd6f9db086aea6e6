import Verif.NetCost.Drc
/-! Routing nets in any order: the counters of routed shapes. -/
namespace TR

theorem spares_apOps {a : Attr} (ha : a ≠ .blockE ∧ a ≠ .blockN ∧ a ≠ .blockU ∧ a ≠ .svia) (p : NetAp) : Spares a (apOps p) := by
  unfold apOps
  apply Spares.append
  · intro op hop m e
    obtain ⟨d, _, rfl⟩ := List.mem_map.1 hop
    split at e <;> (simp only [GOp.target] at e; cases d <;> simp [edgeHome, byAxis] at e <;> simp_all)
  · intro op hop m e
    split at hop
    · rw [List.mem_singleton] at hop
      subst hop
      simp [GOp.target] at e
      exact ha.2.2.2 e.2.symm
    · cases hop

theorem spares_pinOps {a : Attr} (ha : a ≠ .blockE ∧ a ≠ .blockN ∧ a ≠ .blockU) (g : Grid) (p : Box × Int) : Spares a (pinOps g p) := by
  unfold pinOps
  apply Spares.flatMap
  intro n _ op hop m e
  obtain ⟨d, _, rfl⟩ := List.mem_map.1 hop
  simp only [GOp.target] at e
  cases d <;> simp [edgeHome, byAxis] at e <;> simp_all

theorem ctrAttr_blocks (c : Bool) : ctrAttr c ≠ .blockE ∧ ctrAttr c ≠ .blockN ∧ ctrAttr c ≠ .blockU ∧ ctrAttr c ≠ .svia := by
  cases c <;> decide

theorem fixAttr_blocks (c : Bool) : fixAttr c ≠ .blockE ∧ fixAttr c ≠ .blockN ∧ fixAttr c ≠ .blockU ∧ fixAttr c ≠ .svia := by
  cases c <;> decide

theorem fixOps_eq (E : WEnv) (g : Grid) : E.fixOps g =
    costOps .addShape (E.fixed.flatMap (fixTargets E.T g) ++ E.terms.flatMap fun ss => ss.flatMap (termTargets E.T g noSv false)) := by
  unfold WEnv.fixOps
  rw [flat_costOps]
  have : E.terms.flatMap (termOps E.T g noSv true false) = costOps .addShape (E.terms.flatMap fun ss => ss.flatMap (termTargets E.T g noSv false)) := by
    rw [← flat_costOps]
    congr 1
    funext ss
    exact termOps_eq _ _ _ _ _ _
  rw [this]
  unfold costOps
  rw [List.map_append]

theorem nets_ops_eq (E : WEnv) (g : Grid) (f : WNet → List CFig) : (E.nets.flatMap fun n => figOps E.T g E.sv true (f n)) =
    costOps .addDRC ((E.nets.flatMap f).flatMap (pathTargets E.T g E.sv)) := by
  rw [List.flatMap_assoc, ← flat_costOps]
  congr 1
  funext n
  exact figOps_eq _ _ _ _ _

theorem legal_apOps {E : WEnv} {g : Grid} (hE : E.Fits g) : ∀ op ∈ (E.nets.flatMap (·.aps)).flatMap apOps, op.Legal g := by
  intro op hop
  obtain ⟨a, ha, hop⟩ := List.mem_flatMap.1 hop
  obtain ⟨n, hn, ha⟩ := List.mem_flatMap.1 ha
  have hon := (hE.aps n hn a ha).1
  unfold apOps at hop
  rcases List.mem_append.1 hop with hop | hop
  · obtain ⟨d, _, rfl⟩ := List.mem_map.1 hop
    left; split <;> rfl
  · split at hop
    · rw [List.mem_singleton] at hop
      subst hop
      right
      intro m b e
      simp [GOp.target] at e
      rw [← e.1]; exact (on_iff g _).1 hon
    · cases hop

theorem legal_pinOps (g : Grid) (l : List (Box × Int)) : ∀ op ∈ l.flatMap (pinOps g), op.Legal g := by
  intro op hop
  obtain ⟨p, _, hop⟩ := List.mem_flatMap.1 hop
  unfold pinOps at hop
  obtain ⟨n, _, hop⟩ := List.mem_flatMap.1 hop
  obtain ⟨d, _, rfl⟩ := List.mem_map.1 hop
  exact Or.inl rfl

/-- the parts of the start and the bits they leave alone -/
theorem initOps_eq (E : WEnv) (g : Grid) : E.initOps g =
    costOps .addShape (E.fixed.flatMap (fixTargets E.T g) ++ E.terms.flatMap fun ss => ss.flatMap (termTargets E.T g noSv false)) ++
    (E.nets.flatMap (·.aps)).flatMap apOps ++ costOps .addDRC ((E.nets.flatMap fun n => n.ext ++ n.route).flatMap (pathTargets E.T g E.sv)) ++
    E.pins.flatMap (pinOps g) ++
    costOps .addDRC ((if E.fresh then E.nets.flatMap (·.reserved) else []).flatMap (pathTargets E.T g E.sv)) := by
  unfold WEnv.initOps
  rw [fixOps_eq, nets_ops_eq]
  congr 1
  cases E.fresh
  · rfl
  · simp only [if_true]; exact nets_ops_eq E g (·.reserved)

theorem ext_route_on {E : WEnv} {g : Grid} (hE : E.Fits g) : ∀ f ∈ E.nets.flatMap (fun n => n.ext ++ n.route), f.OnGrid g := by
  intro f hf
  obtain ⟨n, hn, hf⟩ := List.mem_flatMap.1 hf
  rcases List.mem_append.1 hf with h | h
  · exact hE.ext n hn f h
  · exact hE.route n hn f h

theorem all_reserved_on {E : WEnv} {g : Grid} (hE : E.Fits g) : ∀ f ∈ (if E.fresh then E.nets.flatMap (·.reserved) else []), f.OnGrid g := by
  intro f hf
  split at hf
  · obtain ⟨n, hn, hf⟩ := List.mem_flatMap.1 hf
    exact reserved_on hE hn f hf
  · cases hf

theorem legal_initOps {E : WEnv} {g : Grid} (hE : E.Fits g) : ∀ op ∈ E.initOps g, op.Legal g := by
  rw [initOps_eq]
  intro op hop
  simp only [List.mem_append] at hop
  rcases hop with (((hop | hop) | hop) | hop) | hop
  · exact legal_costOps (fun _ _ => by simp) op hop
  · exact legal_apOps hE op hop
  · exact legal_costOps (fun u hu => Or.inl (figs_on hE.sorted hE.vias (ext_route_on hE) u hu)) op hop
  · exact legal_pinOps g _ op hop
  · exact legal_costOps (fun u hu => Or.inl (figs_on hE.sorted hE.vias (all_reserved_on hE) u hu)) op hop

theorem init_drc {E : WEnv} {g : Grid} (hE : E.Fits g) (t : CTgt) (ht : g.On t.1)
    (hb : g.attr t.1 (ctrAttr t.2) + (chargeOf E.T g E.sv t (E.nets.flatMap fun n => n.ext ++ n.route) +
      chargeOf E.T g E.sv t (if E.fresh then E.nets.flatMap (·.reserved) else [])) ≤ 255) :
    (g.run (E.initOps g)).attr t.1 (ctrAttr t.2) = g.attr t.1 (ctrAttr t.2) + (chargeOf E.T g E.sv t (E.nets.flatMap fun n => n.ext ++ n.route) +
      chargeOf E.T g E.sv t (if E.fresh then E.nets.flatMap (·.reserved) else [])) := by
  rw [initOps_eq, grun_append, grun_append, grun_append, grun_append]
  have s0 := sameGrid_refl g
  have l1 := legal_costOps (g := g) (ty := .addShape) (l := E.fixed.flatMap (fixTargets E.T g) ++ E.terms.flatMap fun ss => ss.flatMap (termTargets E.T g noSv false))
    (fun _ _ => by simp)
  have s1 := run_same s0 l1
  have e1 := run_spared' s0 l1 ht (spares_costOps _ _ (fun b => shape_ne_drc true t.2 b))
  have l2 := legal_apOps hE
  have s2 := run_same s1 l2
  have e2 := run_spared' s1 l2 ht (Spares.flatMap (fun p _ => spares_apOps (ctrAttr_blocks t.2) p))
  have on3 := figs_on (sv := E.sv) hE.sorted hE.vias (ext_route_on hE)
  have l3 := legal_costOps (g := g) (ty := .addDRC) (fun u hu => Or.inl (on3 u hu))
  have s3 := run_same s2 l3
  have e3 := drc_add (E := E) s2 on3 t ht (by rw [e2, e1, chargeOf_flat]; omega)
  have l4 := legal_pinOps g E.pins
  have s4 := run_same s3 l4
  have e4 := run_spared' s3 l4 ht (Spares.flatMap (fun p _ => spares_pinOps ⟨(ctrAttr_blocks t.2).1, (ctrAttr_blocks t.2).2.1, (ctrAttr_blocks t.2).2.2.1⟩ g p))
  have on5 := figs_on (sv := E.sv) hE.sorted hE.vias (all_reserved_on hE)
  have e5 := drc_add (E := E) s4 on5 t ht (by rw [e4, e3, e2, e1, chargeOf_flat, chargeOf_flat]; omega)
  rw [e5, e4, e3, e2, e1, chargeOf_flat, chargeOf_flat]
  omega

theorem sum_flat {α : Type} (T : CTech) (g : Grid) (sv : MIdx → Option MzVia) (t : CTgt) (f : α → List CFig) (l : List α) :
    chargeOf T g sv t (l.flatMap f) = (l.map fun n => chargeOf T g sv t (f n)).sum := by
  induction l with
  | nil => rfl
  | cons x l ih => rw [List.flatMap_cons, chargeOf_append, ih, List.map_cons, List.sum_cons]

theorem sum_range_getElem {α : Type} (f : α → Nat) (h : Nat → Nat) : ∀ (l : List α), (∀ (i : Nat) (a : α), l[i]? = some a → h i = f a) →
    ((List.range l.length).map h).sum = (l.map f).sum := by
  intro l
  induction l generalizing h with
  | nil => intro _; rfl
  | cons a l ih =>
    intro hh
    rw [List.length_cons, List.range_succ_eq_map, List.map_cons, List.sum_cons, List.map_cons, List.sum_cons, List.map_map]
    rw [hh 0 a rfl]
    congr 1
    exact ih (h ∘ Nat.succ) (fun i b hb => hh (i + 1) b (by simpa using hb))

theorem sum_add_map {α : Type} (f h : α → Nat) (l : List α) : (l.map fun x => f x + h x).sum = (l.map f).sum + (l.map h).sum := by
  induction l with
  | nil => rfl
  | cons x l ih => simp only [List.map_cons, List.sum_cons, ih]; omega

theorem owed_start (E : WEnv) (g : Grid) (t : CTgt) : E.owed g (E.start g) none t =
    chargeOf E.T g E.sv t (E.nets.flatMap fun n => n.ext ++ n.route) + chargeOf E.T g E.sv t (if E.fresh then E.nets.flatMap (·.reserved) else []) := by
  unfold WEnv.owed
  rw [sum_range_getElem (fun n : WNet => chargeOf E.T g E.sv t (n.ext ++ n.route) + (if E.fresh = true then chargeOf E.T g E.sv t n.reserved else 0))]
  · rw [sum_add_map, ← sum_flat]
    congr 1
    cases E.fresh
    · simp only [Bool.false_eq_true, if_false]
      have : ∀ l : List WNet, (l.map fun _ => 0).sum = 0 := by intro l; induction l <;> simp_all
      rw [this]; rfl
    · simp only [if_true]; rw [← sum_flat]
  · intro i n hi
    unfold WEnv.owedBy WEnv.start
    simp only [List.getElem?_map, hi, Option.map_some]
    rw [chargeOf_append]
    simp

/-- what holds of every state -/
structure WInv (E : WEnv) (g : Grid) (lim : CTgt → Prop) (pat : Bool) (s : WState) (busy : Option Nat) : Prop where
  same : SameGrid g s.grid
  lenF : s.figs.length = E.nets.length
  lenT : s.tries.length = E.nets.length
  onG : ∀ fs ∈ s.figs, ∀ f ∈ fs, f.OnGrid g
  free : ∀ k, busy = some k → s.figs[k]? = some []
  le : ∀ t, lim t → g.On t.1 → s.grid.attr t.1 (ctrAttr t.2) ≤ g.attr t.1 (ctrAttr t.2) + E.owed g s busy t
  eq : pat = false → ∀ t, lim t → g.On t.1 → s.grid.attr t.1 (ctrAttr t.2) = g.attr t.1 (ctrAttr t.2) + E.owed g s busy t

theorem winv_start {E : WEnv} {g : Grid} (hE : E.Fits g) {lim : CTgt → Prop} {pat : Bool}
    (hb : ∀ t, lim t → g.attr t.1 (ctrAttr t.2) + E.owed g (E.start g) none t ≤ 255) : WInv E g lim pat (E.start g) none := by
  have key : ∀ t, lim t → g.On t.1 → (E.start g).grid.attr t.1 (ctrAttr t.2) = g.attr t.1 (ctrAttr t.2) + E.owed g (E.start g) none t := by
    intro t ht hon
    have h := hb t ht
    rw [owed_start] at h ⊢
    exact init_drc hE t hon h
  refine ⟨run_same (sameGrid_refl g) (legal_initOps hE), by simp [WEnv.start], by simp [WEnv.start], ?_, ?_, ?_, ?_⟩
  · intro fs hfs f hf
    obtain ⟨n, hn, rfl⟩ := List.mem_map.1 hfs
    exact hE.route n hn f hf
  · intro k h; cases h
  · intro t ht hon; exact Nat.le_of_eq (key t ht hon)
  · intro _ t ht hon; exact key t ht hon

theorem begin_eq {E : WEnv} {s s' : WState} {k : Nat} (h : E.begin s k = some s') : ∃ n fs tr ops, E.nets[k]? = some n ∧ s.figs[k]? = some fs ∧
    s.tries[k]? = some tr ∧ E.netOps s.grid false n = some ops ∧ s' = { s with
        grid := s.grid.run (figOps E.T s.grid E.sv false fs ++
          (if decide (tr = 0) && E.fresh then figOps E.T s.grid E.sv false n.reserved else []) ++ ops)
        figs := s.figs.set k [] } := by
  unfold WEnv.begin at h
  split at h
  · rename_i n fs tr h1 h2 h3
    split at h
    · cases h
    · rename_i ops hops
      cases h
      exact ⟨n, fs, tr, ops, h1, h2, h3, hops, rfl⟩
  · cases h

theorem finish_eq {E : WEnv} {s s' : WState} {k : Nat} {new : List CFig} {patches : List (Nat × CFig)} (h : E.finish s k new patches = some s') :
    ∃ n tr ops, E.nets[k]? = some n ∧ s.tries[k]? = some tr ∧ E.netOps s.grid true n = some ops ∧ s' = {
        grid := s.grid.run (figOps E.T s.grid E.sv true new ++ ops)
        figs := patches.foldl (fun fs p => fs.modify p.1 (· ++ [p.2])) (s.figs.set k new)
        tries := s.tries.set k (tr + 1) } := by
  unfold WEnv.finish at h
  split at h
  · rename_i n tr h1 h3
    split at h
    · cases h
    · rename_i ops hops
      cases h
      exact ⟨n, tr, ops, h1, h3, hops, rfl⟩
  · cases h

theorem winv_begin {E : WEnv} {g : Grid} (hE : E.Fits g) {lim : CTgt → Prop} {pat : Bool} {s s' : WState} {k : Nat}
    (hI : WInv E g lim pat s none) (h : E.begin s k = some s')
    (hb : ∀ t n, lim t → E.nets[k]? = some n → g.attr t.1 (ctrAttr t.2) + E.owed g s none t + minCutCharge E.T g E.sv t n.ext ≤ 255) :
    WInv E g lim pat s' (some k) := by
  obtain ⟨n, fs, tr, ops, hn, hfs, htr, hops, rfl⟩ := begin_eq h
  have hk : k < E.nets.length := by
    rcases Nat.lt_or_ge k E.nets.length with h | h
    · exact h
    · rw [List.getElem?_eq_none h] at hn; cases hn
  have hnm : n ∈ E.nets := List.mem_of_getElem? hn
  rw [(sameGrid_ops hI.same E false n E.sv []).1] at hops
  have fo := fun fs => (sameGrid_ops hI.same E false n E.sv fs).2
  rw [fo fs, fo n.reserved]
  have fsOn : ∀ f ∈ fs, f.OnGrid g := hI.onG fs (List.mem_of_getElem? hfs)
  have rOn := reserved_on hE hnm
  have l1 := legal_figOps (sv := E.sv) (add := false) hE fsOn
  have l2 : ∀ op ∈ (if decide (tr = 0) && E.fresh then figOps E.T g E.sv false n.reserved else []), op.Legal g := by
    split
    · exact legal_figOps hE rOn
    · intro op h; cases h
  have s1 := run_same hI.same l1
  have s2 := run_same s1 l2
  have l3 := legal_netOps hE hnm hops
  have s3 := run_same s2 l3
  have hnone : ∀ t, E.owedBy g s none t k = chargeOf E.T g E.sv t n.ext + chargeOf E.T g E.sv t fs +
      (if E.fresh = true ∧ tr = 0 then chargeOf E.T g E.sv t n.reserved else 0) := by
    intro t
    unfold WEnv.owedBy
    rw [hn, hfs, htr]
    simp
  have hval : ∀ t, lim t → g.On t.1 →
      ((((s.grid.run (figOps E.T g E.sv false fs)).run (if decide (tr = 0) && E.fresh then figOps E.T g E.sv false n.reserved else [])).run ops)).attr t.1 (ctrAttr t.2) =
      s.grid.attr t.1 (ctrAttr t.2) - chargeOf E.T g E.sv t fs - (if E.fresh = true ∧ tr = 0 then chargeOf E.T g E.sv t n.reserved else 0) +
        minCutCharge E.T g E.sv t n.ext - chargeOf E.T g E.sv t n.ext := by
    intro t hlim ht
    have e1 : (s.grid.run (figOps E.T g E.sv false fs)).attr t.1 (ctrAttr t.2) = s.grid.attr t.1 (ctrAttr t.2) - chargeOf E.T g E.sv t fs := by
      rw [figOps_eq]
      have := drc_sub hI.same (figs_on (sv := E.sv) hE.sorted hE.vias fsOn) t ht
      rw [chargeOf_flat] at this
      exact this
    have e2 : ((s.grid.run (figOps E.T g E.sv false fs)).run (if decide (tr = 0) && E.fresh then figOps E.T g E.sv false n.reserved else [])).attr t.1 (ctrAttr t.2) =
        (s.grid.run (figOps E.T g E.sv false fs)).attr t.1 (ctrAttr t.2) - (if E.fresh = true ∧ tr = 0 then chargeOf E.T g E.sv t n.reserved else 0) := by
      by_cases hc : E.fresh = true ∧ tr = 0
      · have : (decide (tr = 0) && E.fresh) = true := by simp [hc]
        rw [if_pos hc, if_pos this, figOps_eq (fs := n.reserved)]
        have := drc_sub s1 (figs_on (sv := E.sv) hE.sorted hE.vias rOn) t ht
        rw [chargeOf_flat] at this
        exact this
      · have : ¬ (decide (tr = 0) && E.fresh) = true := by simp; intro h; simpa [h] using hc
        rw [if_neg hc, if_neg this]; rfl
    have hb' := hb t n hlim hn
    have hle := hI.le t hlim ht
    rw [netInit_drc hE s2 hnm hops t ht (by rw [e2, e1]; omega), e2, e1]
  have howed : ∀ t, E.owed g ⟨s.grid, s.figs.set k [], s.tries⟩ (some k) t + E.owedBy g s none t k = E.owed g s none t + minCutCharge E.T g E.sv t n.ext := by
    intro t
    have hkk : E.owedBy g ⟨s.grid, s.figs.set k [], s.tries⟩ (some k) t k = minCutCharge E.T g E.sv t n.ext := by
      unfold WEnv.owedBy
      have : (s.figs.set k [])[k]? = some [] := by
        rw [List.getElem?_set_self (by rw [hI.lenF]; exact hk)]
      simp only [hn, this, htr]
      simp [chargeOf]
    rw [← hkk]
    apply sum_range_update _ _ _ _ hk
    intro i hi
    unfold WEnv.owedBy
    simp only [List.getElem?_set_ne (Ne.symm hi)]
    have hki : k ≠ i := Ne.symm hi
    simp [hki]
  have hset : ∀ t, E.owedBy g s none t k ≤ E.owed g s none t := by
    intro t
    have := sum_range_update (E.owedBy g s none t) (fun i => if i = k then 0 else E.owedBy g s none t i) E.nets.length k hk (fun i hi => if_neg hi)
    simp only [if_true] at this
    unfold WEnv.owed
    omega
  refine ⟨?_, ?_, hI.lenT, ?_, ?_, ?_, ?_⟩
  · rw [grun_append, grun_append]; exact s3
  · simp [hI.lenF]
  · intro fs' hfs' f hf
    rcases List.mem_or_eq_of_mem_set hfs' with h | h
    · exact hI.onG fs' h f hf
    · subst h; cases hf
  · intro k' e
    cases e
    exact List.getElem?_set_self (by rw [hI.lenF]; exact hk)
  · intro t hlim ht
    rw [grun_append, grun_append]
    show _ ≤ _ + E.owed g ⟨s.grid, s.figs.set k [], s.tries⟩ (some k) t
    rw [hval t hlim ht]
    have h1 := howed t
    have h2 := hnone t
    have h3 := hI.le t hlim ht
    have h4 := hset t
    omega
  · intro hp t hlim ht
    rw [grun_append, grun_append]
    show _ = _ + E.owed g ⟨s.grid, s.figs.set k [], s.tries⟩ (some k) t
    rw [hval t hlim ht]
    have h1 := howed t
    have h2 := hnone t
    have h3 := hI.eq hp t hlim ht
    have h4 := hset t
    omega

theorem patch_len (patches : List (Nat × CFig)) : ∀ (fs : List (List CFig)),
    (patches.foldl (fun fs p => fs.modify p.1 (· ++ [p.2])) fs).length = fs.length := by
  induction patches with
  | nil => intro fs; rfl
  | cons p ps ih => intro fs; rw [List.foldl_cons, ih, List.length_modify]

theorem patch_at (patches : List (Nat × CFig)) : ∀ (fs : List (List CFig)) (i : Nat) (x : List CFig), fs[i]? = some x →
    ∃ more, (patches.foldl (fun fs p => fs.modify p.1 (· ++ [p.2])) fs)[i]? = some (x ++ more) ∧ ∀ f ∈ more, ∃ p ∈ patches, f = p.2 := by
  induction patches with
  | nil => intro fs i x h; exact ⟨[], by simpa using h, by simp⟩
  | cons p ps ih =>
    intro fs i x h
    rw [List.foldl_cons]
    by_cases hp : p.1 = i
    · have : (fs.modify p.1 (· ++ [p.2]))[i]? = some (x ++ [p.2]) := by
        rw [List.getElem?_modify, h]; simp [hp]
      obtain ⟨more, h1, h2⟩ := ih _ i _ this
      refine ⟨p.2 :: more, by rw [h1]; simp, ?_⟩
      intro f hf
      rcases List.mem_cons.1 hf with rfl | hf
      · exact ⟨p, by simp, rfl⟩
      · obtain ⟨q, hq, e⟩ := h2 f hf; exact ⟨q, by simp [hq], e⟩
    · have : (fs.modify p.1 (· ++ [p.2]))[i]? = some x := by
        rw [List.getElem?_modify, h]; simp [hp]
      obtain ⟨more, h1, h2⟩ := ih _ i _ this
      exact ⟨more, h1, fun f hf => by obtain ⟨q, hq, e⟩ := h2 f hf; exact ⟨q, by simp [hq], e⟩⟩

theorem patch_none (patches : List (Nat × CFig)) (fs : List (List CFig)) (i : Nat) (h : fs[i]? = none) :
    (patches.foldl (fun fs p => fs.modify p.1 (· ++ [p.2])) fs)[i]? = none := by
  rw [List.getElem?_eq_none_iff] at h ⊢
  rw [patch_len]; exact h

theorem winv_finish {E : WEnv} {g : Grid} (hE : E.Fits g) {lim : CTgt → Prop} {pat : Bool} {s s' : WState} {k : Nat}
    {new : List CFig} {patches : List (Nat × CFig)}
    (hI : WInv E g lim pat s (some k)) (h : E.finish s k new patches = some s')
    (hnew : ∀ f ∈ new, f.OnGrid g) (hpat : ∀ p ∈ patches, p.2.OnGrid g) (hp0 : pat = false → patches = [])
    (hb : ∀ t n, lim t → E.nets[k]? = some n → g.attr t.1 (ctrAttr t.2) + E.owed g s (some k) t + chargeOf E.T g E.sv t new +
        chargeOf E.T g E.sv t n.ext ≤ 255) :
    WInv E g lim pat s' none := by
  obtain ⟨n, tr, ops, hn, htr, hops, rfl⟩ := finish_eq h
  have hk : k < E.nets.length := by
    rcases Nat.lt_or_ge k E.nets.length with h | h
    · exact h
    · rw [List.getElem?_eq_none h] at hn; cases hn
  have hnm : n ∈ E.nets := List.mem_of_getElem? hn
  rw [(sameGrid_ops hI.same E true n E.sv []).1] at hops
  rw [(sameGrid_ops hI.same E true n E.sv new).2]
  have l1 := legal_figOps (sv := E.sv) (add := true) hE hnew
  have s1 := run_same hI.same l1
  have l2 := legal_netOps hE hnm hops
  have s2 := run_same s1 l2
  have hval : ∀ t, lim t → g.On t.1 → ((s.grid.run (figOps E.T g E.sv true new)).run ops).attr t.1 (ctrAttr t.2) =
      s.grid.attr t.1 (ctrAttr t.2) + chargeOf E.T g E.sv t new - minCutCharge E.T g E.sv t n.ext + chargeOf E.T g E.sv t n.ext := by
    intro t hlim ht
    have hb' := hb t n hlim hn
    have hle := hI.le t hlim ht
    have e1 : (s.grid.run (figOps E.T g E.sv true new)).attr t.1 (ctrAttr t.2) = s.grid.attr t.1 (ctrAttr t.2) + chargeOf E.T g E.sv t new := by
      rw [figOps_eq]
      have := drc_add (E := E) hI.same (figs_on (sv := E.sv) hE.sorted hE.vias hnew) t ht (by rw [chargeOf_flat]; omega)
      rw [chargeOf_flat] at this
      exact this
    rw [netEnd_drc hE s1 hnm hops t ht (by rw [e1]; omega), e1]
  have hlen : k < s.figs.length := by rw [hI.lenF]; exact hk
  have hlenT : k < s.tries.length := by rw [hI.lenT]; exact hk
  have hbusy : ∀ t, E.owedBy g s (some k) t k = minCutCharge E.T g E.sv t n.ext := by
    intro t
    unfold WEnv.owedBy
    rw [hn, hI.free k rfl, htr]
    simp [chargeOf]
  have howed : ∀ t, E.owed g ⟨s.grid, s.figs.set k new, s.tries.set k (tr + 1)⟩ none t + minCutCharge E.T g E.sv t n.ext =
      E.owed g s (some k) t + (chargeOf E.T g E.sv t n.ext + chargeOf E.T g E.sv t new) := by
    intro t
    have hkk : E.owedBy g ⟨s.grid, s.figs.set k new, s.tries.set k (tr + 1)⟩ none t k = chargeOf E.T g E.sv t n.ext + chargeOf E.T g E.sv t new := by
      unfold WEnv.owedBy
      simp only [hn, List.getElem?_set_self hlen, List.getElem?_set_self hlenT]
      simp
    rw [← hbusy t, ← hkk]
    refine sum_range_update (E.owedBy g s (some k) t) (E.owedBy g ⟨s.grid, s.figs.set k new, s.tries.set k (tr + 1)⟩ none t) _ k hk ?_
    intro i hi
    unfold WEnv.owedBy
    simp only [List.getElem?_set_ne (Ne.symm hi)]
    have hki : k ≠ i := Ne.symm hi
    simp [hki]
  have hmono : ∀ t, E.owed g ⟨s.grid, s.figs.set k new, s.tries.set k (tr + 1)⟩ none t ≤
      E.owed g ⟨s.grid, patches.foldl (fun fs p => fs.modify p.1 (· ++ [p.2])) (s.figs.set k new), s.tries.set k (tr + 1)⟩ none t := by
    intro t
    apply sum_range_le
    intro i
    unfold WEnv.owedBy
    dsimp only
    cases hx : (s.figs.set k new)[i]? with
    | none => rw [patch_none _ _ _ hx]; exact Nat.le_of_eq (by cases E.nets[i]? <;> rfl)
    | some x =>
      obtain ⟨more, h1, _⟩ := patch_at patches _ i x hx
      rw [h1]
      cases E.nets[i]? with
      | none => exact Nat.le_refl _
      | some m =>
        cases (s.tries.set k (tr + 1))[i]? with
        | none => exact Nat.le_refl _
        | some u => simp only [chargeOf_append]; omega
  have hset : ∀ t, E.owedBy g s (some k) t k ≤ E.owed g s (some k) t := by
    intro t
    have := sum_range_update (E.owedBy g s (some k) t) (fun i => if i = k then 0 else E.owedBy g s (some k) t i) E.nets.length k hk (fun i hi => if_neg hi)
    simp only [if_true] at this
    unfold WEnv.owed
    omega
  refine ⟨?_, ?_, ?_, ?_, ?_, ?_, ?_⟩
  · rw [grun_append]; exact s2
  · dsimp only; rw [patch_len, List.length_set, hI.lenF]
  · simp [hI.lenT]
  · intro fs' hfs' f hf
    dsimp only at hfs'
    obtain ⟨i, hi, e⟩ := List.getElem_of_mem hfs'
    have hi' : i < (s.figs.set k new).length := by rw [← patch_len patches]; exact hi
    obtain ⟨more, h1, h2⟩ := patch_at patches _ i _ (List.getElem?_eq_getElem hi')
    rw [List.getElem?_eq_getElem hi, e, Option.some.injEq] at h1
    rw [h1] at hf
    rcases List.mem_append.1 hf with hf | hf
    · rcases List.mem_or_eq_of_mem_set (List.getElem_mem hi') with h | h
      · exact hI.onG _ h f hf
      · rw [h] at hf; exact hnew f hf
    · obtain ⟨p, hp, rfl⟩ := h2 f hf; exact hpat p hp
  · intro k' e; cases e
  · intro t hlim ht
    rw [grun_append]
    refine Nat.le_trans ?_ (Nat.add_le_add_left (hmono t) _)
    rw [hval t hlim ht]
    have h1 := howed t
    have h2 := hbusy t
    have h3 := hI.le t hlim ht
    have h4 := hset t
    omega
  · intro hp t hlim ht
    rw [grun_append, hp0 hp]
    show _ = _ + E.owed g ⟨s.grid, s.figs.set k new, s.tries.set k (tr + 1)⟩ none t
    rw [hval t hlim ht]
    have h1 := howed t
    have h2 := hbusy t
    have h3 := hI.eq hp t hlim ht
    have h4 := hset t
    omega

theorem winv_run {E : WEnv} {g : Grid} (hE : E.Fits g) {lim : CTgt → Prop} {pat : Bool} {s : WState} {busy : Option Nat}
    (h : WRun E g lim pat s busy) : WInv E g lim pat s busy := by
  induction h with
  | start hb => exact winv_start hE hb
  | begin _ h hb ih => exact winv_begin hE ih h hb
  | finish _ h h1 h2 h3 hb ih => exact winv_finish hE ih h h1 h2 h3 hb

end TR
