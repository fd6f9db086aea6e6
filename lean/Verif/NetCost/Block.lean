import Verif.NetCost.FlagRun
/-! Which edges are blocked by access points and design pins. -/
namespace TR

theorem spared_blocked {g g' : Grid} (hs : SameGrid g g') {ops : List GOp} (hl : ∀ op ∈ ops, op.Legal g)
    (h1 : Spares .blockE ops) (h2 : Spares .blockN ops) (h3 : Spares .blockU ops) {m : MIdx} {e : Dir} (hm : g.On m) (hme : g.On (m.nbr e)) :
    (g'.run ops).isBlocked m e = g'.isBlocked m e := by
  rw [isBlocked_key, isBlocked_key]
  cases hk : blockKey m e with
  | none => rfl
  | some q =>
    obtain ⟨h, b⟩ := q
    have hon : g.On h := by
      rcases m with ⟨x, y, z⟩
      cases e <;> simp only [blockKey, edgeHome, byAxis, Option.some.injEq, Prod.mk.injEq, reduceCtorEq] at hk
      all_goals (rw [← hk.1]; simp only [MIdx.nbr, Dir.delta, Grid.On] at *; omega)
    have hb' : b = .blockE ∨ b = .blockN ∨ b = .blockU := by
      cases e <;> simp only [blockKey, edgeHome, byAxis, Option.some.injEq, Prod.mk.injEq, reduceCtorEq] at hk
      all_goals (rw [← hk.2]; simp)
    have hat : (g'.run ops).attr h b = g'.attr h b := by
      rcases hb' with rfl | rfl | rfl
      · exact run_spared' hs hl hon h1
      · exact run_spared' hs hl hon h2
      · exact run_spared' hs hl hon h3
    have hv1 := (on_iff g' h).1 ((sameGrid_on hs _).2 hon)
    have hv2 := (on_iff (g'.run ops) h).1 ((sameGrid_on (run_same hs hl) _).2 hon)
    simp only [hat, hv1, hv2]

/-- one direction is all two nodes have in common -/
theorem sameEdge_dir {n m : MIdx} {d d' e : Dir} (hd : d ≠ .UNKNOWN) (hd' : d' ≠ .UNKNOWN) (h : SameEdge n d m e) (h' : SameEdge n d' m e) : d = d' := by
  rcases n with ⟨a, b, c⟩; rcases m with ⟨a', b', c'⟩
  cases d <;> cases d' <;> first | rfl | (exfalso; first | exact hd rfl | exact hd' rfl | (cases e <;> simp [SameEdge, MIdx.nbr, Dir.delta, Dir.opp] at h h' <;> omega))

theorem apOps_blocked {g g' : Grid} (hs : SameGrid g g') {a : NetAp} (ha : g.On a.at') {m : MIdx} {e : Dir} (hm : g.On m) (hme : g.On (m.nbr e)) :
    (∀ d, d ≠ .UNKNOWN → SameEdge a.at' d m e → (g'.run (apOps a)).isBlocked m e = !a.valid d) ∧
    ((∀ d, d ≠ .UNKNOWN → ¬ SameEdge a.at' d m e) → (g'.run (apOps a)).isBlocked m e = g'.isBlocked m e) := by
  have hm' := (sameGrid_on hs _).2 hm
  have hme' := (sameGrid_on hs _).2 hme
  have hd : ∀ d ∈ [Dir.E, .W, .N, .S, .U, .D], d ≠ .UNKNOWN := by decide
  have key : ∀ (ds : List Dir), (∀ d ∈ ds, d ≠ .UNKNOWN) → ∀ g', SameGrid g g' →
      (∀ d ∈ ds, SameEdge a.at' d m e → (g'.run (ds.map fun d => if a.valid d then GOp.resetBlocked a.at' d else .setBlocked a.at' d)).isBlocked m e = !a.valid d) ∧
      ((∀ d ∈ ds, ¬ SameEdge a.at' d m e) →
        (g'.run (ds.map fun d => if a.valid d then GOp.resetBlocked a.at' d else .setBlocked a.at' d)).isBlocked m e = g'.isBlocked m e) := by
    intro ds
    induction ds with
    | nil => intro _ g' _; exact ⟨fun d h => (by cases h), fun _ => rfl⟩
    | cons d ds ih =>
      intro hu g' hs
      have e0 : (if a.valid d then GOp.resetBlocked a.at' d else .setBlocked a.at' d) = blockOp (!a.valid d) (a.at', d) := by
        unfold blockOp; cases a.valid d <;> rfl
      have hsg := sameGrid_trans hs (sameGrid_step g' _ (blockOp_legal g' (!a.valid d) (a.at', d)))
      have h1 : g'.run ((d :: ds).map fun d => if a.valid d then GOp.resetBlocked a.at' d else .setBlocked a.at' d) =
          (g'.step (blockOp (!a.valid d) (a.at', d))).run (ds.map fun d => if a.valid d then GOp.resetBlocked a.at' d else .setBlocked a.at' d) := by
        rw [List.map_cons, e0]; simp [Grid.run]
      have h2 := ih (fun x hx => hu x (by simp [hx])) _ hsg
      have h3 := blockOp_blocked g' (!a.valid d) a.at' d (hu d (by simp)) m e ((sameGrid_on hs _).2 hm) ((sameGrid_on hs _).2 hme)
      rw [h1]
      constructor
      · intro f hf hse
        by_cases hfd : f ∈ ds
        · exact h2.1 f hfd hse
        · have hfe : f = d := (List.mem_cons.1 hf).elim id (fun h => absurd h hfd)
          subst hfe
          rw [h2.2 (fun x hx hse' => hfd (by rw [sameEdge_dir (hu f (by simp)) (hu x (by simp [hx])) hse hse']; exact hx)), h3, if_pos hse]
      · intro hno
        rw [h2.2 (fun x hx => hno x (by simp [hx])), h3, if_neg (hno d (by simp))]
  have l1 : ∀ op ∈ ([Dir.E, .W, .N, .S, .U, .D].map fun d => if a.valid d then GOp.resetBlocked a.at' d else .setBlocked a.at' d), op.Legal g := by
    intro op hop
    obtain ⟨d, _, rfl⟩ := List.mem_map.1 hop
    left; split <;> rfl
  have l2 : ∀ op ∈ (if a.via.isSome then [GOp.setSVia a.at'] else []), op.Legal g := by
    intro op hop
    split at hop
    · rw [List.mem_singleton] at hop; subst hop
      right; intro k b hk; simp [GOp.target] at hk; rw [← hk.1]; exact (on_iff g _).1 ha
    · cases hop
  have sp : ∀ b, b ≠ .svia → Spares b (if a.via.isSome then [GOp.setSVia a.at'] else []) := by
    intro b hb op hop k hk
    split at hop
    · rw [List.mem_singleton] at hop; subst hop
      simp [GOp.target] at hk; exact hb hk.2.symm
    · cases hop
  have e1 := spared_blocked (run_same hs l1) l2 (sp _ (by decide)) (sp _ (by decide)) (sp _ (by decide)) hm hme
  have hk := key _ hd g' hs
  unfold apOps
  rw [grun_append, e1]
  have all : ∀ d, d ≠ .UNKNOWN → d ∈ [Dir.E, .W, .N, .S, .U, .D] := by intro d hd; cases d <;> simp_all
  exact ⟨fun d hd hse => hk.1 d (all d hd) hse, fun hno => hk.2 (fun d hd' => hno d (hd d hd'))⟩

/-- the access point touches the edge -/
def NetAp.Touches (a : NetAp) (m : MIdx) (e : Dir) : Prop := ∃ d, d ≠ .UNKNOWN ∧ SameEdge a.at' d m e

theorem apsOps_blocked {g : Grid} {m : MIdx} {e : Dir} (hm : g.On m) (hme : g.On (m.nbr e)) : ∀ (aps : List NetAp) (g' : Grid), SameGrid g g' →
    (∀ a ∈ aps, g.On a.at') →
    (∀ pre a post d, aps = pre ++ a :: post → (∀ b ∈ post, ¬ b.Touches m e) → d ≠ .UNKNOWN → SameEdge a.at' d m e →
      (g'.run (aps.flatMap apOps)).isBlocked m e = !a.valid d) ∧
    ((∀ a ∈ aps, ¬ a.Touches m e) → (g'.run (aps.flatMap apOps)).isBlocked m e = g'.isBlocked m e) := by
  intro aps
  induction aps with
  | nil =>
    intro g' _ _
    refine ⟨fun pre a post d h => ?_, fun _ => rfl⟩
    cases pre <;> cases h
  | cons x aps ih =>
    intro g' hs hon
    have hx := hon x (by simp)
    have hl : ∀ op ∈ apOps x, op.Legal g := by
      intro op hop
      unfold apOps at hop
      rcases List.mem_append.1 hop with hop | hop
      · obtain ⟨d, _, rfl⟩ := List.mem_map.1 hop
        left; split <;> rfl
      · split at hop
        · rw [List.mem_singleton] at hop; subst hop
          right; intro k b hk; simp [GOp.target] at hk; rw [← hk.1]; exact (on_iff g _).1 hx
        · cases hop
    have h1 := apOps_blocked hs hx hm hme
    have h2 := ih _ (run_same hs hl) (fun a ha => hon a (by simp [ha]))
    rw [List.flatMap_cons, grun_append]
    constructor
    · intro pre a post d hp hpost hd hse
      cases pre with
      | nil =>
        simp only [List.nil_append, List.cons.injEq] at hp
        obtain ⟨rfl, rfl⟩ := hp
        rw [h2.2 hpost]
        exact h1.1 d hd hse
      | cons y pre =>
        simp only [List.cons_append, List.cons.injEq] at hp
        exact h2.1 pre a post d hp.2 hpost hd hse
    · intro hno
      rw [h2.2 (fun a ha => hno a (by simp [ha])), h1.2 (fun d hd hse => hno x (by simp) ⟨d, hd, hse⟩)]

/-- the rectangle of a design pin stops vias at its nodes, and wires across its longer side -/
def PinStops (g : Grid) (p : Box × Int) (m : MIdx) (e : Dir) : Prop :=
  (e = .U ∨ e = .D ∨ if p.1.right - p.1.left > p.1.top - p.1.bottom then e = .N ∨ e = .S else e = .W ∨ e = .E) ∧
    (NodeIn g p.1 p.2 m ∨ NodeIn g p.1 p.2 (m.nbr e))

theorem nodeIn_same {g g' : Grid} (hs : SameGrid g g') (box : Box) (z : Int) (m : MIdx) : NodeIn g' box z m ↔ NodeIn g box z m := by
  unfold NodeIn Grid.point
  rw [hs.1, hs.2.1]

theorem sorted_same {g g' : Grid} (hs : SameGrid g g') (h : g.Sorted) : g'.Sorted := by
  unfold Grid.Sorted at *
  rw [hs.1, hs.2.1, hs.2.2]; exact h

theorem pinOps_same {g g' : Grid} (hs : SameGrid g g') (p : Box × Int) : pinOps g p = pinOps g' p := by
  unfold pinOps nodesIn Grid.idxBox
  rw [hs.1, hs.2.1]

theorem pinOps_blocked {g g' : Grid} (hs : SameGrid g g') (hso : g.Sorted) {p : Box × Int} (hz : 0 ≤ p.2 ∧ p.2 < g.zs.length) {m : MIdx} {e : Dir}
    (hm : g.On m) (hme : g.On (m.nbr e)) :
    (g'.run (pinOps g p)).isBlocked m e = true ↔ g'.isBlocked m e = true ∨ PinStops g p m e := by
  rw [pinOps_same hs]
  have hso' := sorted_same hs hso
  have hz' : p.2 < g'.zs.length := by rw [hs.2.2]; exact hz.2
  have hm' := (sameGrid_on hs _).2 hm
  have hme' := (sameGrid_on hs _).2 hme
  have h := blocked_general g' hso' p.1 p.2 hz.1 hz' true (if p.1.right - p.1.left > p.1.top - p.1.bottom then [Dir.U, .D, .N, .S] else [Dir.U, .D, .W, .E])
    (by split <;> decide) m e hm' hme' (g'.run (pinOps g' p)) (by unfold pinOps; simp only [if_true])
  have hi : (e ∈ (if p.1.right - p.1.left > p.1.top - p.1.bottom then [Dir.U, .D, .N, .S] else [Dir.U, .D, .W, .E]) ∧
      (NodeIn g' p.1 p.2 m ∨ NodeIn g' p.1 p.2 (m.nbr e))) ↔ PinStops g p m e := by
    rw [nodeIn_same hs, nodeIn_same hs]
    unfold PinStops
    refine and_congr ?_ Iff.rfl
    split <;> simp
  rw [hi] at h
  by_cases hP : PinStops g p m e
  · rw [h.1 hP]; simp [hP]
  · rw [h.2 hP]; simp [hP]

theorem pinsOps_blocked {g : Grid} (hso : g.Sorted) {m : MIdx} {e : Dir} (hm : g.On m) (hme : g.On (m.nbr e)) : ∀ (ps : List (Box × Int)) (g' : Grid), SameGrid g g' →
    (∀ p ∈ ps, 0 ≤ p.2 ∧ p.2 < g.zs.length) →
    ((g'.run (ps.flatMap (pinOps g))).isBlocked m e = true ↔ g'.isBlocked m e = true ∨ ∃ p ∈ ps, PinStops g p m e) := by
  intro ps
  induction ps with
  | nil => intro g' _ _; simp [Grid.run]
  | cons p ps ih =>
    intro g' hs hz
    have hl : ∀ op ∈ pinOps g p, op.Legal g := by
      have := legal_pinOps g [p]
      simpa using this
    rw [List.flatMap_cons, grun_append, ih _ (run_same hs hl) (fun q hq => hz q (by simp [hq])), pinOps_blocked hs hso (hz p (by simp)) hm hme]
    simp only [List.mem_cons, exists_eq_or_imp]
    rw [or_assoc]

theorem ctr_blocks (ty : CostMod) (b : Bool) : ty.ctr b ≠ .blockE ∧ ty.ctr b ≠ .blockN ∧ ty.ctr b ≠ .blockU := by
  cases ty <;> cases b <;> decide

/-- edges blocked when a worker starts routing -/
theorem init_blocked {E : WEnv} {g : Grid} (hE : E.Fits g) (hz : ∀ p ∈ E.pins, 0 ≤ p.2 ∧ p.2 < g.zs.length) {m : MIdx} {e : Dir} (hm : g.On m) (hme : g.On (m.nbr e)) :
    ((∃ p ∈ E.pins, PinStops g p m e) → (g.run (E.initOps g)).isBlocked m e = true) ∧
    ((∀ p ∈ E.pins, ¬ PinStops g p m e) →
      (∀ pre a post d, E.nets.flatMap (·.aps) = pre ++ a :: post → (∀ b ∈ post, ¬ b.Touches m e) → d ≠ .UNKNOWN → SameEdge a.at' d m e →
        (g.run (E.initOps g)).isBlocked m e = !a.valid d) ∧
      ((∀ a ∈ E.nets.flatMap (·.aps), ¬ a.Touches m e) → (g.run (E.initOps g)).isBlocked m e = g.isBlocked m e)) := by
  rw [initOps_eq, grun_append, grun_append, grun_append, grun_append]
  have s0 := sameGrid_refl g
  have sp : ∀ a (ty : CostMod) l, (∀ b, ty.ctr b ≠ a) → Spares a (costOps ty l) := fun a ty l h => spares_costOps ty l h
  have l1 := legal_costOps (g := g) (ty := .addShape) (l := E.fixed.flatMap (fixTargets E.T g) ++ E.terms.flatMap fun ss => ss.flatMap (termTargets E.T g noSv false))
    (fun _ _ => by simp)
  have s1 := run_same s0 l1
  have e1 := spared_blocked s0 l1 (sp _ _ _ (fun b => (ctr_blocks _ b).1)) (sp _ _ _ (fun b => (ctr_blocks _ b).2.1)) (sp _ _ _ (fun b => (ctr_blocks _ b).2.2)) hm hme
  have l2 := legal_apOps hE
  have s2 := run_same s1 l2
  have haps : ∀ a ∈ E.nets.flatMap (·.aps), g.On a.at' := by
    intro a ha
    obtain ⟨n, hn, ha⟩ := List.mem_flatMap.1 ha
    exact (hE.aps n hn a ha).1
  have e2 := apsOps_blocked hm hme (E.nets.flatMap (·.aps)) _ s1 haps
  have on3 := figs_on (sv := E.sv) hE.sorted hE.vias (ext_route_on hE)
  have l3 := legal_costOps (g := g) (ty := .addDRC) (fun u hu => Or.inl (on3 u hu))
  have s3 := run_same s2 l3
  have e3 := spared_blocked s2 l3 (sp _ _ _ (fun b => (ctr_blocks _ b).1)) (sp _ _ _ (fun b => (ctr_blocks _ b).2.1)) (sp _ _ _ (fun b => (ctr_blocks _ b).2.2)) hm hme
  have l4 := legal_pinOps g E.pins
  have s4 := run_same s3 l4
  have e4 := pinsOps_blocked hE.sorted hm hme E.pins _ s3 hz
  have on5 := figs_on (sv := E.sv) hE.sorted hE.vias (all_reserved_on hE)
  have l5 := legal_costOps (g := g) (ty := .addDRC) (fun u hu => Or.inl (on5 u hu))
  have e5 := spared_blocked s4 l5 (sp _ _ _ (fun b => (ctr_blocks _ b).1)) (sp _ _ _ (fun b => (ctr_blocks _ b).2.1)) (sp _ _ _ (fun b => (ctr_blocks _ b).2.2)) hm hme
  rw [e5]
  rw [e3] at e4
  constructor
  · intro h; exact e4.2 (Or.inr h)
  · intro h
    have e4' := e4.trans (or_iff_left (fun ⟨p, hp, hh⟩ => h p hp hh))
    rw [← Bool.eq_iff_iff] at e4'
    rw [e4', ← e1]
    exact e2

/-- … and nothing changes that while nets are routed -/
theorem run_blocked {E : WEnv} {g : Grid} (hE : E.Fits g) {lim : CTgt → Prop} {pat : Bool} {s : WState} {busy : Option Nat}
    (h : WRun E g lim pat s busy) (m : MIdx) (e : Dir) (hm : g.On m) (hme : g.On (m.nbr e)) :
    s.grid.isBlocked m e = (g.run (E.initOps g)).isBlocked m e := by
  have nb : ∀ (add : Bool) (n : WNet) ops, n ∈ E.nets → E.netOps g add n = some ops → ∀ g', SameGrid g g' → (g'.run ops).isBlocked m e = g'.isBlocked m e := by
    intro add n ops hn hops g' hs
    have hl := legal_netOps hE hn hops
    obtain ⟨fl, hfl, rfl⟩ := netOps_eq hops
    have sp : ∀ a, (∀ ty b, CostMod.ctr ty b ≠ a) → (a ≠ .gridE ∧ a ≠ .gridN ∧ a ≠ .gridU ∧ a ≠ .override) →
        Spares a (costOps (if add then .addShape else .subShape) ((E.termsOf n).flatMap (termTargets E.T g E.sv true)) ++
          costOps (if add then .subDRC else .addDRC) (n.ext.flatMap (minCutTargets E.T g E.sv)) ++ fl ++
          costOps (if add then .addDRC else .subDRC) (n.ext.flatMap (pathTargets E.T g E.sv))) := by
      intro a ha hb
      exact (((spares_costOps _ _ (fun b => ha _ b)).append (spares_costOps _ _ (fun b => ha _ b))).append (spares_netFlags hb hfl)).append (spares_costOps _ _ (fun b => ha _ b))
    exact spared_blocked hs hl (sp _ (fun ty b => (ctr_blocks ty b).1) (by decide)) (sp _ (fun ty b => (ctr_blocks ty b).2.1) (by decide)) (sp _ (fun ty b => (ctr_blocks ty b).2.2) (by decide)) hm hme
  have fb : ∀ (add : Bool) fs, (∀ f ∈ fs, f.OnGrid g) → ∀ g', SameGrid g g' → (g'.run (figOps E.T g E.sv add fs)).isBlocked m e = g'.isBlocked m e := by
    intro add fs hf g' hs
    exact spared_blocked hs (legal_figOps hE hf) (spares_figOps (fun ty b => (ctr_blocks ty b).1) _ _ _ _ _) (spares_figOps (fun ty b => (ctr_blocks ty b).2.1) _ _ _ _ _)
      (spares_figOps (fun ty b => (ctr_blocks ty b).2.2) _ _ _ _ _) hm hme
  induction h with
  | start _ => rfl
  | @begin s s' k hr h hb' ih =>
    have hI := winv_run hE hr
    obtain ⟨n, fs, tr, ops, hn, hfs, htr, hops, rfl⟩ := begin_eq h
    have hnm : n ∈ E.nets := List.mem_of_getElem? hn
    rw [(sameGrid_ops hI.same E false n E.sv []).1] at hops
    have fo := fun fs => (sameGrid_ops hI.same E false n E.sv fs).2
    dsimp only
    rw [fo fs, fo n.reserved, grun_append, grun_append]
    have fsOn : ∀ f ∈ fs, f.OnGrid g := hI.onG fs (List.mem_of_getElem? hfs)
    have rOn := reserved_on hE hnm
    have s1 := run_same hI.same (legal_figOps (sv := E.sv) (add := false) hE fsOn)
    have l2 : ∀ op ∈ (if decide (tr = 0) && E.fresh then figOps E.T g E.sv false n.reserved else []), op.Legal g := by
      split
      · exact legal_figOps hE rOn
      · intro op h; cases h
    rw [nb false n ops hnm hops _ (run_same s1 l2)]
    refine Eq.trans ?_ ((fb false fs fsOn _ hI.same).trans ih)
    split
    · exact fb false _ rOn _ s1
    · rfl
  | @finish s s' k new patches hr h h1 h2 h3 hb' ih =>
    have hI := winv_run hE hr
    obtain ⟨n, tr, ops, hn, htr, hops, rfl⟩ := finish_eq h
    have hnm : n ∈ E.nets := List.mem_of_getElem? hn
    rw [(sameGrid_ops hI.same E true n E.sv []).1] at hops
    dsimp only
    rw [(sameGrid_ops hI.same E true n E.sv new).2, grun_append]
    have s1 := run_same hI.same (legal_figOps (sv := E.sv) (add := true) hE h1)
    rw [nb true n ops hnm hops _ s1, fb true new h1 _ hI.same, ih]

end TR
