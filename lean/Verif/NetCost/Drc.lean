import Verif.NetCost.Ledger
/-! The counters of routed shapes while a worker routes its nets. -/
namespace TR

theorem viaZ_on {T : CTech} {g : Grid} (hfit : ViasFit T g) {z : Int} {upper : Bool} {v : MzVia} (h1 : 0 ≤ z) (h2 : z < g.zs.length)
    (hv : T.viaOf (g.lay z) upper = some v) : 0 ≤ viaZ z upper ∧ viaZ z upper < g.zs.length := by
  unfold viaZ
  cases upper
  · have := (hfit z h1 h2).1 v hv; simp; omega
  · simp; omega

theorem minCut_on {T : CTech} {g : Grid} (hs : g.Sorted) (hfit : ViasFit T g) {sv : MIdx → Option MzVia} {box : Box} {z : Int} {upper : Bool}
    (h1 : 0 ≤ z) (h2 : z < g.zs.length) {t : CTgt} (ht : t ∈ minCutCost T g sv box z upper) : g.On t.1 := by
  unfold minCutCost at ht
  dsimp only at ht
  split at ht
  · cases ht
  · rename_i v hv
    obtain ⟨r, _, ht⟩ := List.mem_flatMap.1 ht
    split at ht
    · obtain ⟨n, hn, ht⟩ := List.mem_flatMap.1 ht
      split at ht
      · rw [List.mem_singleton] at ht
        subst ht
        obtain ⟨i, j, e1, e2, hp⟩ := mem_nodesIn g hs _ hn
        have := viaZ_on hfit h1 h2 hv
        show g.On ⟨n.i, n.j, _⟩
        rw [e1, e2]
        exact on_node hp this.1 this.2
      · cases ht
    · cases ht

theorem minCutTargets_on {T : CTech} {g : Grid} (hs : g.Sorted) (hfit : ViasFit T g) {sv : MIdx → Option MzVia} {f : CFig} (hf : f.OnGrid g)
    {t : CTgt} (ht : t ∈ minCutTargets T g sv f) : g.On t.1 := by
  cases f with
  | wire => cases ht
  | patch => cases ht
  | via v o z1 z2 =>
    obtain ⟨h1, h2, h3, h4⟩ := hf
    simp only [minCutTargets, bothMinCut, List.mem_append] at ht
    rcases ht with (ht | ht) | (ht | ht)
    · exact minCut_on hs hfit h1 h2 ht
    · exact minCut_on hs hfit h1 h2 ht
    · exact minCut_on hs hfit h3 h4 ht
    · exact minCut_on hs hfit h3 h4 ht

theorem figs_on {T : CTech} {g : Grid} (hs : g.Sorted) (hfit : ViasFit T g) {sv : MIdx → Option MzVia} {fs : List CFig} (hf : ∀ f ∈ fs, f.OnGrid g) :
    ∀ u ∈ fs.flatMap (pathTargets T g sv), g.On u.1 := by
  intro u hu
  obtain ⟨f, hff, hu⟩ := List.mem_flatMap.1 hu
  exact c78_in_grid T g hs sv hfit f (hf f hff) u hu

theorem minCuts_on {T : CTech} {g : Grid} (hs : g.Sorted) (hfit : ViasFit T g) {sv : MIdx → Option MzVia} {fs : List CFig} (hf : ∀ f ∈ fs, f.OnGrid g) :
    ∀ u ∈ fs.flatMap (minCutTargets T g sv), g.On u.1 := by
  intro u hu
  obtain ⟨f, hff, hu⟩ := List.mem_flatMap.1 hu
  exact minCutTargets_on hs hfit (hf f hff) hu

theorem cheapest_mem : ∀ (l : List NetAp) (best : Option NetAp) (a : NetAp), cheapest l best = some a →
    (a ∈ l ∧ a.via.isSome = true) ∨ best = some a := by
  intro l
  induction l with
  | nil => intro best a h; exact Or.inr h
  | cons x xs ih =>
    intro best a h
    unfold cheapest at h
    dsimp only at h
    by_cases hv : x.via.isSome = true
    · rw [if_pos hv] at h
      by_cases hc : x.cost < (best.getD x).cost
      · rw [if_pos hc] at h
        by_cases h0 : x.cost = 0
        · rw [if_pos h0] at h; cases h; exact Or.inl ⟨by simp, hv⟩
        · rw [if_neg h0] at h
          rcases ih _ _ h with ⟨h1, h2⟩ | h1
          · exact Or.inl ⟨by simp [h1], h2⟩
          · cases h1; exact Or.inl ⟨by simp, hv⟩
      · rw [if_neg hc] at h
        rcases ih _ _ h with ⟨h1, h2⟩ | h1
        · exact Or.inl ⟨by simp [h1], h2⟩
        · cases best with
          | none => cases h1; exact Or.inl ⟨by simp, hv⟩
          | some b => exact Or.inr h1
    · rw [if_neg hv] at h
      rcases ih _ _ h with ⟨h1, h2⟩ | h1
      · exact Or.inl ⟨by simp [h1], h2⟩
      · exact Or.inr h1

theorem reservedVia_mem {p : NetPin} {f : CFig} (h : f ∈ reservedVia p) :
    ∃ a v, a ∈ p.aps ∧ a.via = some v ∧ cheapest p.aps none = some a ∧ f = .via v a.pt a.at'.z (a.at'.z + 1) ∧ (p.kind = .cell ∨ p.kind = .design) := by
  unfold reservedVia at h
  split at h
  · cases h
  · cases h
  · rename_i k1 k2
    split at h
    · cases h
    · rename_i a ha
      split at h
      · cases h
      · rename_i v hv
        rw [List.mem_singleton] at h
        refine ⟨a, v, ?_, hv, ha, h, ?_⟩
        · rcases cheapest_mem _ _ _ ha with h1 | h1
          · exact h1.1
          · cases h1
        · cases hk : p.kind with
          | none => exact absurd hk k1
          | block => exact absurd hk k2
          | cell => exact Or.inl rfl
          | design => exact Or.inr rfl

theorem reserved_on {E : WEnv} {g : Grid} (hE : E.Fits g) {n : WNet} (hn : n ∈ E.nets) : ∀ f ∈ n.reserved, f.OnGrid g := by
  intro f hf
  obtain ⟨p, hp, hf⟩ := List.mem_flatMap.1 hf
  obtain ⟨a, v, ha, hv, _, rfl, _⟩ := reservedVia_mem hf
  obtain ⟨h1, h2⟩ := hE.aps n hn a (List.mem_flatMap.2 ⟨p, hp, ha⟩)
  have h3 := h2 (by rw [hv]; rfl)
  unfold Grid.On at h1
  exact ⟨h1.2.2.2.2.1, h1.2.2.2.2.2, by omega, by omega⟩

/-! ### bits of the other updates -/

theorem spares_gridCost (a : Attr) (ha : a ≠ .gridE ∧ a ≠ .gridN ∧ a ≠ .gridU) {g : Grid} {set : Bool} {m : MIdx} {d : Dir} {b : Int} {ops : List GOp}
    (h : stretchOps g set m d b = some ops) : Spares a ops := by
  unfold stretchOps at h
  dsimp only at h
  rw [Option.map_eq_some_iff] at h
  obtain ⟨l, _, rfl⟩ := h
  apply Spares.flatMap
  intro k _ op hop m' e
  obtain ⟨e', _, rfl⟩ := List.mem_map.1 hop
  cases set
  · simp only [Bool.false_eq_true, if_false, GOp.target] at e
    cases e' <;> simp [edgeHome, byAxis] at e <;> simp_all
  · simp only [if_true, GOp.target] at e
    cases e' <;> simp [edgeHome, byAxis] at e <;> simp_all

theorem mapM_mem {α β : Type} {f : α → Option β} : ∀ {l : List α} {ls : List β}, l.mapM f = some ls → ∀ y ∈ ls, ∃ x ∈ l, f x = some y := by
  intro l
  induction l with
  | nil => intro ls h y hy; simp at h; subst h; cases hy
  | cons x xs ih =>
    intro ls h y hy
    rw [List.mapM_cons] at h
    cases hx : f x with
    | none => rw [hx] at h; cases h
    | some b =>
      rw [hx] at h
      cases hxs : xs.mapM f with
      | none => rw [hxs] at h; cases h
      | some bs =>
        rw [hxs] at h
        cases h
        rcases List.mem_cons.1 hy with rfl | hy
        · exact ⟨x, by simp, hx⟩
        · obtain ⟨z, hz, hzf⟩ := ih hxs y hy
          exact ⟨z, by simp [hz], hzf⟩

theorem netFlags_eq {T : CTech} {g : Grid} {add : Bool} {n : WNet} {ops : List GOp} (h : netFlags T g add n = some ops) :
    ∃ ls, (n.lines T g).mapM (fun x => stretchOps g add x.1 x.2.1 x.2.2) = some ls ∧ ops = ls.flatten ++
      (n.pinAps.filter fun x => x.2.valid .U).map fun x => if add then GOp.resetOverride x.2.at' else .setOverride x.2.at' := by
  unfold netFlags at h
  split at h
  · cases h
  · rename_i ls hls; cases h; exact ⟨ls, hls, rfl⟩

theorem spares_netFlags {a : Attr} (ha : a ≠ .gridE ∧ a ≠ .gridN ∧ a ≠ .gridU ∧ a ≠ .override) {T : CTech} {g : Grid} {add : Bool} {n : WNet}
    {ops : List GOp} (h : netFlags T g add n = some ops) : Spares a ops := by
  obtain ⟨ls, hls, rfl⟩ := netFlags_eq h
  apply Spares.append
  · intro op hop m e
    obtain ⟨y, hy, hop⟩ := List.mem_flatten.1 hop
    obtain ⟨x, _, hx⟩ := mapM_mem hls y hy
    exact spares_gridCost a ⟨ha.1, ha.2.1, ha.2.2.1⟩ hx op hop m e
  · intro op hop m e
    obtain ⟨x, _, rfl⟩ := List.mem_map.1 hop
    cases add
    · simp [GOp.target] at e; exact ha.2.2.2 e.2.symm
    · simp [GOp.target] at e; exact ha.2.2.2 e.2.symm

theorem pinAps_mem {n : WNet} {x : NetPin × NetAp} (h : x ∈ n.pinAps) : x.2 ∈ n.aps ∧ x.1 ∈ n.pins ∧ x.2 ∈ x.1.aps ∧ x.1.kind ≠ .none := by
  unfold WNet.pinAps at h
  obtain ⟨p, hp, h⟩ := List.mem_flatMap.1 h
  split at h
  · cases h
  · rename_i hk
    obtain ⟨a, ha, rfl⟩ := List.mem_map.1 h
    exact ⟨List.mem_flatMap.2 ⟨p, hp, ha⟩, hp, ha, hk⟩

theorem legal_netFlags {E : WEnv} {g : Grid} (hE : E.Fits g) {add : Bool} {n : WNet} (hn : n ∈ E.nets)
    {ops : List GOp} (h : netFlags E.T g add n = some ops) : ∀ op ∈ ops, op.Legal g := by
  obtain ⟨ls, hls, rfl⟩ := netFlags_eq h
  intro op hop
  rcases List.mem_append.1 hop with hop | hop
  · obtain ⟨y, hy, hop⟩ := List.mem_flatten.1 hop
    obtain ⟨x, _, hx⟩ := mapM_mem hls y hy
    unfold stretchOps at hx
    dsimp only at hx
    rw [Option.map_eq_some_iff] at hx
    obtain ⟨l, _, rfl⟩ := hx
    obtain ⟨k, _, hop⟩ := List.mem_flatMap.1 hop
    obtain ⟨e', _, rfl⟩ := List.mem_map.1 hop
    left
    cases add <;> rfl
  · obtain ⟨x, hx, rfl⟩ := List.mem_map.1 hop
    have hon := (hE.aps n hn x.2 (pinAps_mem (List.mem_filter.1 hx).1).1).1
    right
    intro m a e
    cases add
    · simp [GOp.target] at e; rw [← e.1]; exact (on_iff g _).1 hon
    · simp [GOp.target] at e; rw [← e.1]; exact (on_iff g _).1 hon

theorem netOps_eq {E : WEnv} {g : Grid} {add : Bool} {n : WNet} {ops : List GOp} (h : E.netOps g add n = some ops) :
    ∃ fl, netFlags E.T g add n = some fl ∧ ops =
      costOps (if add then .addShape else .subShape) ((E.termsOf n).flatMap (termTargets E.T g E.sv true)) ++
      costOps (if add then .subDRC else .addDRC) (n.ext.flatMap (minCutTargets E.T g E.sv)) ++ fl ++
      costOps (if add then .addDRC else .subDRC) (n.ext.flatMap (pathTargets E.T g E.sv)) := by
  unfold WEnv.netOps at h
  split at h
  · cases h
  · rename_i fl hfl
    cases h
    refine ⟨fl, hfl, ?_⟩
    rw [termOps_eq, figOps_eq, flat_costOps]

theorem legal_shape {g : Grid} (add : Bool) (l : List CTgt) : ∀ op ∈ costOps (if add then .addShape else .subShape) l, op.Legal g :=
  legal_costOps (fun _ _ => by cases add <;> simp)

theorem legal_netOps {E : WEnv} {g : Grid} (hE : E.Fits g) {add : Bool} {n : WNet} (hn : n ∈ E.nets)
    {ops : List GOp} (h : E.netOps g add n = some ops) : ∀ op ∈ ops, op.Legal g := by
  obtain ⟨fl, hfl, rfl⟩ := netOps_eq h
  intro op hop
  simp only [List.mem_append] at hop
  rcases hop with ((hop | hop) | hop) | hop
  · exact legal_shape add _ op hop
  · exact legal_costOps (fun u hu => Or.inl (minCuts_on hE.sorted hE.vias (hE.ext n hn) u hu)) op hop
  · exact legal_netFlags hE hn hfl op hop
  · exact legal_costOps (fun u hu => Or.inl (figs_on hE.sorted hE.vias (hE.ext n hn) u hu)) op hop

theorem legal_figOps {E : WEnv} {g : Grid} (hE : E.Fits g) {sv : MIdx → Option MzVia} {add : Bool} {fs : List CFig} (hf : ∀ f ∈ fs, f.OnGrid g) :
    ∀ op ∈ figOps E.T g sv add fs, op.Legal g := by
  rw [figOps_eq]
  exact legal_costOps (fun u hu => Or.inl (figs_on hE.sorted hE.vias hf u hu))

theorem shape_ne_drc (add : Bool) (c b : Bool) : (if add then CostMod.addShape else CostMod.subShape).ctr b ≠ ctrAttr c := by
  cases add <;> cases b <;> cases c <;> decide

theorem drc_ne_shape (add : Bool) (c b : Bool) : (if add then CostMod.addDRC else CostMod.subDRC).ctr b ≠ fixAttr c := by
  cases add <;> cases b <;> cases c <;> decide

theorem ctrAttr_flags (c : Bool) : ctrAttr c ≠ .gridE ∧ ctrAttr c ≠ .gridN ∧ ctrAttr c ≠ .gridU ∧ ctrAttr c ≠ .override := by
  cases c <;> decide

theorem fixAttr_flags (c : Bool) : fixAttr c ≠ .gridE ∧ fixAttr c ≠ .gridN ∧ fixAttr c ≠ .gridU ∧ fixAttr c ≠ .override := by
  cases c <;> decide

/-- costs of routed shapes on a counter, as the code adds them -/
theorem drc_add {E : WEnv} {g g' : Grid} (hs : SameGrid g g') {l : List CTgt} (hl : ∀ u ∈ l, g.On u.1) (t : CTgt) (ht : g.On t.1)
    (hb : g'.attr t.1 (ctrAttr t.2) + l.count t ≤ 255) :
    (g'.run (costOps .addDRC l)).attr t.1 (ctrAttr t.2) = g'.attr t.1 (ctrAttr t.2) + l.count t :=
  addRun .addDRC rfl t l g' (fun u hu => Or.inl ((sameGrid_on hs _).2 (hl u hu))) ((sameGrid_on hs _).2 ht) hb

theorem drc_sub {g g' : Grid} (hs : SameGrid g g') {l : List CTgt} (hl : ∀ u ∈ l, g.On u.1) (t : CTgt) (ht : g.On t.1) :
    (g'.run (costOps .subDRC l)).attr t.1 (ctrAttr t.2) = g'.attr t.1 (ctrAttr t.2) - l.count t :=
  subRun .subDRC rfl t l g' (fun u hu => Or.inl ((sameGrid_on hs _).2 (hl u hu))) ((sameGrid_on hs _).2 ht)

theorem run_same {g g' : Grid} (hs : SameGrid g g') {ops : List GOp} (hl : ∀ op ∈ ops, op.Legal g) : SameGrid g (g'.run ops) :=
  sameGrid_trans hs (sameGrid_run ops g' (fun op hop => legal_same hs (hl op hop)))

theorem run_spared' {g g' : Grid} (hs : SameGrid g g') {ops : List GOp} (hl : ∀ op ∈ ops, op.Legal g) {m : MIdx} {a : Attr} (hm : g.On m)
    (h : Spares a ops) : (g'.run ops).attr m a = g'.attr m a :=
  run_spared g' ops (fun op hop => legal_same hs (hl op hop)) m a ((sameGrid_on hs _).2 hm) h

/-- `mazeNetInit` on a counter of routed shapes -/
theorem netInit_drc {E : WEnv} {g g' : Grid} (hE : E.Fits g) (hs : SameGrid g g') {n : WNet} (hn : n ∈ E.nets) {ops : List GOp}
    (h : E.netOps g false n = some ops) (t : CTgt) (ht : g.On t.1)
    (hb : g'.attr t.1 (ctrAttr t.2) + minCutCharge E.T g E.sv t n.ext ≤ 255) :
    (g'.run ops).attr t.1 (ctrAttr t.2) = g'.attr t.1 (ctrAttr t.2) + minCutCharge E.T g E.sv t n.ext - chargeOf E.T g E.sv t n.ext := by
  obtain ⟨fl, hfl, rfl⟩ := netOps_eq h
  have hmc := minCuts_on (sv := E.sv) hE.sorted hE.vias (hE.ext n hn)
  have hfg := figs_on (sv := E.sv) hE.sorted hE.vias (hE.ext n hn)
  have l1 := legal_shape (g := g) false ((E.termsOf n).flatMap (termTargets E.T g E.sv true))
  have s1 := run_same hs l1
  have e1 := run_spared' hs l1 ht (spares_costOps _ _ (fun b => shape_ne_drc false t.2 b))
  have l2 := legal_costOps (g := g) (ty := .addDRC) (fun u hu => Or.inl (hmc u hu))
  have s2 := run_same s1 l2
  have e2 := drc_add (E := E) s1 hmc t ht (by rw [e1, count_flat]; exact hb)
  have l3 := legal_netFlags hE hn hfl
  have s3 := run_same s2 l3
  have e3 := run_spared' s2 l3 ht (spares_netFlags (ctrAttr_flags t.2) hfl)
  have e4 := drc_sub s3 hfg t ht
  rw [grun_append, grun_append, grun_append]
  simp only [Bool.false_eq_true, if_false] at e1 e2 e3 e4 ⊢
  rw [e4, e3, e2, e1, count_flat, count_flat]
  rfl

/-- `mazeNetEnd` on a counter of routed shapes -/
theorem netEnd_drc {E : WEnv} {g g' : Grid} (hE : E.Fits g) (hs : SameGrid g g') {n : WNet} (hn : n ∈ E.nets) {ops : List GOp}
    (h : E.netOps g true n = some ops) (t : CTgt) (ht : g.On t.1)
    (hb : g'.attr t.1 (ctrAttr t.2) - minCutCharge E.T g E.sv t n.ext + chargeOf E.T g E.sv t n.ext ≤ 255) :
    (g'.run ops).attr t.1 (ctrAttr t.2) = g'.attr t.1 (ctrAttr t.2) - minCutCharge E.T g E.sv t n.ext + chargeOf E.T g E.sv t n.ext := by
  obtain ⟨fl, hfl, rfl⟩ := netOps_eq h
  have hmc := minCuts_on (sv := E.sv) hE.sorted hE.vias (hE.ext n hn)
  have hfg := figs_on (sv := E.sv) hE.sorted hE.vias (hE.ext n hn)
  have l1 := legal_shape (g := g) true ((E.termsOf n).flatMap (termTargets E.T g E.sv true))
  have s1 := run_same hs l1
  have e1 := run_spared' hs l1 ht (spares_costOps _ _ (fun b => shape_ne_drc true t.2 b))
  have l2 := legal_costOps (g := g) (ty := .subDRC) (fun u hu => Or.inl (hmc u hu))
  have s2 := run_same s1 l2
  have e2 := drc_sub s1 hmc t ht
  have l3 := legal_netFlags hE hn hfl
  have s3 := run_same s2 l3
  have e3 := run_spared' s2 l3 ht (spares_netFlags (ctrAttr_flags t.2) hfl)
  have e4 := drc_add (E := E) s3 hfg t ht (by rw [e3, e2, e1, count_flat, count_flat]; exact hb)
  rw [grun_append, grun_append, grun_append]
  simp only [if_true] at e1 e2 e3 e4 ⊢
  rw [e4, e3, e2, e1, count_flat, count_flat]
  rfl

end TR
