import Verif.NetCost.Run
/-! Routing nets in any order: the counters of fixed shapes. -/
namespace TR

theorem shape_add {g g' : Grid} (hs : SameGrid g g') (l : List CTgt) (t : CTgt) (ht : g.On t.1) (hb : g'.attr t.1 (fixAttr t.2) + l.count t ≤ 255) :
    (g'.run (costOps .addShape l)).attr t.1 (fixAttr t.2) = g'.attr t.1 (fixAttr t.2) + l.count t :=
  addRun .addShape rfl t l g' (fun _ _ => by simp) ((sameGrid_on hs _).2 ht) hb

theorem shape_sub {g g' : Grid} (hs : SameGrid g g') (l : List CTgt) (t : CTgt) (ht : g.On t.1) :
    (g'.run (costOps .subShape l)).attr t.1 (fixAttr t.2) = g'.attr t.1 (fixAttr t.2) - l.count t :=
  subRun .subShape rfl t l g' (fun _ _ => by simp) ((sameGrid_on hs _).2 ht)

theorem fixedCharge_flat (E : WEnv) (g : Grid) (t : CTgt) :
    (E.fixed.flatMap (fixTargets E.T g) ++ E.terms.flatMap fun ss => ss.flatMap (termTargets E.T g noSv false)).count t = E.fixedCharge g t := by
  rw [List.count_append, count_flat, count_flat]
  unfold WEnv.fixedCharge
  congr 2
  apply List.map_congr_left
  intro ss _
  exact termCharge_flat _ _ _ _ _ _

theorem init_shape {E : WEnv} {g : Grid} (hE : E.Fits g) (t : CTgt) (ht : g.On t.1) (hb : g.attr t.1 (fixAttr t.2) + E.fixedCharge g t ≤ 255) :
    (g.run (E.initOps g)).attr t.1 (fixAttr t.2) = g.attr t.1 (fixAttr t.2) + E.fixedCharge g t := by
  rw [initOps_eq, grun_append, grun_append, grun_append, grun_append]
  have s0 := sameGrid_refl g
  have l1 := legal_costOps (g := g) (ty := .addShape) (l := E.fixed.flatMap (fixTargets E.T g) ++ E.terms.flatMap fun ss => ss.flatMap (termTargets E.T g noSv false))
    (fun _ _ => by simp)
  have s1 := run_same s0 l1
  have e1 := shape_add s0 (E.fixed.flatMap (fixTargets E.T g) ++ E.terms.flatMap fun ss => ss.flatMap (termTargets E.T g noSv false)) t ht
    (by rw [fixedCharge_flat]; exact hb)
  have l2 := legal_apOps hE
  have s2 := run_same s1 l2
  have e2 := run_spared' s1 l2 ht (Spares.flatMap (fun p _ => spares_apOps (fixAttr_blocks t.2) p))
  have on3 := figs_on (sv := E.sv) hE.sorted hE.vias (ext_route_on hE)
  have l3 := legal_costOps (g := g) (ty := .addDRC) (fun u hu => Or.inl (on3 u hu))
  have s3 := run_same s2 l3
  have e3 := run_spared' s2 l3 ht (spares_costOps _ _ (fun b => drc_ne_shape true t.2 b))
  have l4 := legal_pinOps g E.pins
  have s4 := run_same s3 l4
  have e4 := run_spared' s3 l4 ht (Spares.flatMap (fun p _ => spares_pinOps ⟨(fixAttr_blocks t.2).1, (fixAttr_blocks t.2).2.1, (fixAttr_blocks t.2).2.2.1⟩ g p))
  have on5 := figs_on (sv := E.sv) hE.sorted hE.vias (all_reserved_on hE)
  have l5 := legal_costOps (g := g) (ty := .addDRC) (fun u hu => Or.inl (on5 u hu))
  have e5 := run_spared' s4 l5 ht (spares_costOps _ _ (fun b => drc_ne_shape true t.2 b))
  rw [e5, e4, e3, e2, e1, fixedCharge_flat]

/-- the updates of a net besides those of its terminals leave the counters of fixed shapes alone -/
theorem net_shape {E : WEnv} {g g' : Grid} (hE : E.Fits g) (hs : SameGrid g g') {add : Bool} {n : WNet} (hn : n ∈ E.nets) {ops : List GOp}
    (h : E.netOps g add n = some ops) (t : CTgt) (ht : g.On t.1) :
    (g'.run ops).attr t.1 (fixAttr t.2) =
      (g'.run (costOps (if add then .addShape else .subShape) ((E.termsOf n).flatMap (termTargets E.T g E.sv true)))).attr t.1 (fixAttr t.2) := by
  obtain ⟨fl, hfl, rfl⟩ := netOps_eq h
  have l1 := legal_shape (g := g) add ((E.termsOf n).flatMap (termTargets E.T g E.sv true))
  have s1 := run_same hs l1
  have l2 : ∀ op ∈ costOps (if add then .subDRC else .addDRC) (n.ext.flatMap (minCutTargets E.T g E.sv)), op.Legal g :=
    legal_costOps (fun u hu => Or.inl (minCuts_on hE.sorted hE.vias (hE.ext n hn) u hu))
  have s2 := run_same s1 l2
  have e2 := run_spared' (a := fixAttr t.2) s1 l2 ht (spares_costOps _ _ (fun b => by cases add <;> cases b <;> cases t.2 <;> decide))
  have l3 := legal_netFlags hE hn hfl
  have s3 := run_same s2 l3
  have e3 := run_spared' s2 l3 ht (spares_netFlags (fixAttr_flags t.2) hfl)
  have l4 : ∀ op ∈ costOps (if add then .addDRC else .subDRC) (n.ext.flatMap (pathTargets E.T g E.sv)), op.Legal g :=
    legal_costOps (fun u hu => Or.inl (figs_on hE.sorted hE.vias (hE.ext n hn) u hu))
  have e4 := run_spared' s3 l4 ht (spares_costOps _ _ (fun b => drc_ne_shape add t.2 b))
  rw [grun_append, grun_append, grun_append, e4, e3, e2]

theorem fig_shape {E : WEnv} {g g' : Grid} (hE : E.Fits g) (hs : SameGrid g g') {add : Bool} {fs : List CFig} (hf : ∀ f ∈ fs, f.OnGrid g)
    (t : CTgt) (ht : g.On t.1) : (g'.run (figOps E.T g E.sv add fs)).attr t.1 (fixAttr t.2) = g'.attr t.1 (fixAttr t.2) := by
  have l := legal_figOps (sv := E.sv) (add := add) hE hf
  refine run_spared' hs l ht ?_
  rw [figOps_eq]
  exact spares_costOps _ _ (fun b => drc_ne_shape add t.2 b)

/-- beginning to route a net takes its terminals off, as far as possible -/
theorem begin_shape {E : WEnv} {g : Grid} (hE : E.Fits g) {lim : CTgt → Prop} {pat : Bool} {s s' : WState} {k : Nat} {n : WNet}
    (hI : WInv E g lim pat s none) (h : E.begin s k = some s') (hn : E.nets[k]? = some n) (t : CTgt) (ht : g.On t.1) :
    s'.grid.attr t.1 (fixAttr t.2) = s.grid.attr t.1 (fixAttr t.2) - E.ownCharge g n t := by
  obtain ⟨n', fs, tr, ops, hn', hfs, htr, hops, rfl⟩ := begin_eq h
  rw [hn] at hn'; cases hn'
  have hnm : n ∈ E.nets := List.mem_of_getElem? hn
  rw [(sameGrid_ops hI.same E false n E.sv []).1] at hops
  have fo := fun fs => (sameGrid_ops hI.same E false n E.sv fs).2
  dsimp only
  rw [fo fs, fo n.reserved, grun_append, grun_append]
  have fsOn : ∀ f ∈ fs, f.OnGrid g := hI.onG fs (List.mem_of_getElem? hfs)
  have rOn := reserved_on hE hnm
  have s1 := run_same hI.same (legal_figOps (sv := E.sv) (add := false) hE fsOn)
  have e1 := fig_shape hE hI.same (add := false) fsOn t ht
  have l2 : ∀ op ∈ (if decide (tr = 0) && E.fresh then figOps E.T g E.sv false n.reserved else []), op.Legal g := by
    split
    · exact legal_figOps hE rOn
    · intro op h; cases h
  have s2 := run_same s1 l2
  have e2 : ((s.grid.run (figOps E.T g E.sv false fs)).run (if decide (tr = 0) && E.fresh then figOps E.T g E.sv false n.reserved else [])).attr t.1 (fixAttr t.2) =
      (s.grid.run (figOps E.T g E.sv false fs)).attr t.1 (fixAttr t.2) := by
    split
    · exact fig_shape hE s1 rOn t ht
    · rfl
  rw [net_shape hE s2 hnm hops t ht]
  simp only [Bool.false_eq_true, if_false]
  rw [shape_sub s2 _ t ht, e2, e1, termCharge_flat]
  rfl

/-- … and ending it puts them back -/
theorem finish_shape {E : WEnv} {g : Grid} (hE : E.Fits g) {lim : CTgt → Prop} {pat : Bool} {s s' : WState} {k : Nat} {n : WNet}
    {new : List CFig} {patches : List (Nat × CFig)} (hnew : ∀ f ∈ new, f.OnGrid g)
    (hI : WInv E g lim pat s (some k)) (h : E.finish s k new patches = some s') (hn : E.nets[k]? = some n) (t : CTgt) (ht : g.On t.1)
    (hb : s.grid.attr t.1 (fixAttr t.2) + E.ownCharge g n t ≤ 255) :
    s'.grid.attr t.1 (fixAttr t.2) = s.grid.attr t.1 (fixAttr t.2) + E.ownCharge g n t := by
  obtain ⟨n', tr, ops, hn', htr, hops, rfl⟩ := finish_eq h
  rw [hn] at hn'; cases hn'
  have hnm : n ∈ E.nets := List.mem_of_getElem? hn
  rw [(sameGrid_ops hI.same E true n E.sv []).1] at hops
  dsimp only
  rw [(sameGrid_ops hI.same E true n E.sv new).2, grun_append]
  have s1 := run_same hI.same (legal_figOps (sv := E.sv) (add := true) hE hnew)
  have e1 := fig_shape hE hI.same (add := true) hnew t ht
  rw [net_shape hE s1 hnm hops t ht]
  simp only [if_true]
  rw [shape_add s1 _ t ht (by rw [e1, termCharge_flat]; exact hb), e1, termCharge_flat]
  rfl

/-- over a whole run -/
theorem run_shape {E : WEnv} {g : Grid} (hE : E.Fits g) {lim : CTgt → Prop} {pat : Bool} {s : WState} {busy : Option Nat}
    (h : WRun E g lim pat s busy) (t : CTgt) (ht : g.On t.1) (hb : g.attr t.1 (fixAttr t.2) + E.fixedCharge g t ≤ 255)
    (hown : ∀ n ∈ E.nets, E.ownCharge g n t ≤ g.attr t.1 (fixAttr t.2) + E.fixedCharge g t) :
    (busy = none → s.grid.attr t.1 (fixAttr t.2) = g.attr t.1 (fixAttr t.2) + E.fixedCharge g t) ∧
    (∀ k n, busy = some k → E.nets[k]? = some n → s.grid.attr t.1 (fixAttr t.2) + E.ownCharge g n t = g.attr t.1 (fixAttr t.2) + E.fixedCharge g t) := by
  induction h with
  | start _ => exact ⟨fun _ => init_shape hE t ht hb, fun k n e => (by cases e)⟩
  | @begin s s' k hr h hb' ih =>
    refine ⟨fun e => (by cases e), ?_⟩
    intro k' n e hn
    cases e
    have h1 := begin_shape hE (winv_run hE hr) h hn t ht
    have h2 := ih.1 rfl
    have h3 := hown n (List.mem_of_getElem? hn)
    omega
  | @finish s s' k new patches hr h h1 h2 h3 hb' ih =>
    refine ⟨fun _ => ?_, fun k n e => (by cases e)⟩
    obtain ⟨n, tr, ops, hn, _, _, _⟩ := finish_eq h
    have h4 := ih.2 k n rfl hn
    have h5 := finish_shape hE h1 (winv_run hE hr) h hn t ht (by omega)
    omega

/-! ### terminals of standard cells are always taken off in full -/

theorem sumMap_le {α : Type} (f h : α → Nat) (l : List α) (hl : ∀ x ∈ l, f x ≤ h x) : (l.map f).sum ≤ (l.map h).sum := by
  induction l with
  | nil => exact Nat.le_refl _
  | cons x l ih =>
    rw [List.map_cons, List.map_cons, List.sum_cons, List.sum_cons]
    have := hl x (by simp)
    have := ih (fun y hy => hl y (by simp [hy]))
    omega

theorem count_flat_le {α : Type} (t : CTgt) (f h : α → List CTgt) (l : List α) (hl : ∀ x ∈ l, (f x).count t ≤ (h x).count t) :
    (l.flatMap f).count t ≤ (l.flatMap h).count t := by
  rw [count_flat, count_flat]
  exact sumMap_le _ _ l hl

theorem eolVia_le (T : CTech) (g : Grid) (sv : MIdx → Option MzVia) (tb : Box) (z : Int) (upper : Bool) (t : CTgt) :
    (eolViaCost T g sv tb z upper).count t ≤ (eolViaCost T g noSv tb z upper).count t := by
  unfold eolViaCost
  split
  · exact Nat.le_refl _
  · apply count_flat_le
    intro n _
    dsimp only [noSv]
    split
    · split
      · exact Nat.le_refl _
      · simp
    · exact Nat.le_refl _

theorem eol_le (T : CTech) (g : Grid) (sv : MIdx → Option MzVia) (box : Box) (z : Int) (t : CTgt) :
    (eolSpc T g sv box z false).count t ≤ (eolSpc T g noSv box z false).count t := by
  unfold eolSpc
  apply count_flat_le
  intro tb _
  simp only [Bool.false_eq_true, if_false, List.count_append]
  have h1 := eolVia_le T g sv tb z false t
  have h2 := eolVia_le T g sv tb z true t
  omega

theorem term_le (T : CTech) (g : Grid) (sv : MIdx → Option MzVia) (s : TermRect) (hs : s.ofMacro = false) (t : CTgt) :
    (termTargets T g sv true s).count t ≤ (termTargets T g noSv false s).count t := by
  unfold termTargets
  simp only [List.count_append, hs, if_true, Bool.false_eq_true, if_false, List.count_nil]
  have := eol_le T g sv s.box s.z t
  omega

theorem le_sum_of_mem {l : List Nat} {a : Nat} (h : a ∈ l) : a ≤ l.sum := by
  induction l with
  | nil => cases h
  | cons x l ih =>
    rw [List.sum_cons]
    rcases List.mem_cons.1 h with rfl | h
    · omega
    · have := ih h; omega

theorem own_le (E : WEnv) (g : Grid) (n : WNet) (hn : ∀ s ∈ E.termsOf n, s.ofMacro = false) (t : CTgt) : E.ownCharge g n t ≤ E.fixedCharge g t := by
  unfold WEnv.ownCharge WEnv.fixedCharge
  cases he : E.terms[n.owner]? with
  | none => unfold WEnv.termsOf; rw [he]; exact Nat.zero_le _
  | some ss =>
    have hss : E.termsOf n = ss := by unfold WEnv.termsOf; rw [he]; rfl
    rw [hss] at hn ⊢
    have h1 : termCharge E.T g E.sv true t ss ≤ termCharge E.T g noSv false t ss := sumMap_le _ _ ss (fun s hs => term_le E.T g E.sv s (hn s hs) t)
    have h2 := le_sum_of_mem (List.mem_map.2 ⟨ss, List.mem_of_getElem? he, rfl⟩ : termCharge E.T g noSv false t ss ∈ E.terms.map (termCharge E.T g noSv false t))
    omega

end TR
