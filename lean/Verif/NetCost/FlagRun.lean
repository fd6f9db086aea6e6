import Verif.NetCost.Flags
import Verif.NetCost.Shape
/-! Flags over a whole run. -/
namespace TR

theorem lines_dir {T : CTech} {g : Grid} {n : WNet} {x : MIdx × Dir × Int} (h : x ∈ n.lines T g) : x.2.1 = .E ∨ x.2.1 = .W ∨ x.2.1 = .N ∨ x.2.1 = .S := by
  unfold WNet.lines at h
  obtain ⟨⟨p, a⟩, _, h⟩ := List.mem_flatMap.1 h
  unfold apLines at h
  dsimp only at h
  rcases List.mem_append.1 h with h | h
  · split at h
    · rcases List.mem_append.1 h with h | h
      · split at h
        · simp at h; rcases h with rfl | rfl <;> simp
        · cases h
      · split at h
        · simp at h; rcases h with rfl | rfl <;> simp
        · cases h
    · cases h
  · split at h
    · cases h
    · obtain ⟨d, hd, hx⟩ := List.mem_filterMap.1 h
      split at hx
      · cases hx; simp at hd; rcases hd with rfl | rfl | rfl | rfl <;> simp
      · cases hx

theorem upperTrack_iff (T : CTech) (g : Grid) (p : NetPin) :
    upperTrack T g p = true ↔ p.kind = .cell ∧ ∃ a' ∈ p.aps, a'.valid .U = true ∧ a'.OnTrackOf T (g.lay a'.at'.z + 2) := by
  have key : ∀ a : NetAp, (a.valid .U && (if T.horz (g.lay a.at'.z + 2) then a.onH else a.onV)) = true ↔
      a.valid .U = true ∧ a.OnTrackOf T (g.lay a.at'.z + 2) := by
    intro a
    unfold NetAp.OnTrackOf
    rw [Bool.and_eq_true]
    by_cases h : T.horz (g.lay a.at'.z + 2) = true
    · rw [if_pos h, if_pos h]
    · rw [if_neg h, if_neg h]
  unfold upperTrack
  rw [Bool.and_eq_true, decide_eq_true_iff, List.any_eq_true]
  simp only [key]

/-- the lines of a net -/
theorem mem_lines (T : CTech) (g : Grid) (n : WNet) (m0 : MIdx) (d : Dir) (b : Int) : (m0, d, b) ∈ n.lines T g ↔ n.HasLine T g m0 d b := by
  have ap : ∀ (p : NetPin) (a : NetAp), (m0, d, b) ∈ apLines T g p a ↔
      (p.kind ≠ .cell ∧ (d = .E ∨ d = .W ∨ d = .N ∨ d = .S) ∧ a.valid d = true ∧ m0 = a.at' ∧ b = 10 * T.width (g.lay a.at'.z)) ∨
      (a.valid .U = true ∧ g.lay a.at'.z + 2 ≤ T.top ∧ ¬ a.OnTrackOf T (g.lay a.at'.z + 2) ∧
        ¬ (p.kind = .cell ∧ ∃ a' ∈ p.aps, a'.valid .U = true ∧ a'.OnTrackOf T (g.lay a'.at'.z + 2)) ∧
        (if T.horz (g.lay a.at'.z + 2) = true then d = .E ∨ d = .W else d = .N ∨ d = .S) ∧
        m0 = ⟨a.at'.x, a.at'.y, a.at'.z + 1⟩ ∧ b = 10 * T.width (g.lay a.at'.z + 2)) := by
    intro p a
    rw [← upperTrack_iff T g p]
    unfold apLines NetAp.OnTrackOf
    dsimp only
    rw [List.mem_append, or_comm]
    apply or_congr
    · by_cases hk : p.kind = .cell
      · simp [hk]
      · rw [if_neg hk]
        simp only [List.mem_filterMap, List.mem_cons, List.not_mem_nil, or_false]
        constructor
        · rintro ⟨d', hd, h⟩
          split at h
          · rename_i hv
            cases h
            exact ⟨hk, by rcases hd with h | h | h | h <;> simp [h], hv, rfl, rfl⟩
          · cases h
        · rintro ⟨_, hd, hv, rfl, rfl⟩
          exact ⟨d, by rcases hd with h | h | h | h <;> simp [h], by rw [if_pos hv]⟩
    · by_cases hv : a.valid .U = true
      · by_cases ht : g.lay a.at'.z + 2 ≤ T.top
        · by_cases hu : upperTrack T g p = true
          · simp [hu]
          · by_cases hh : T.horz (g.lay a.at'.z + 2) = true
            · by_cases ho : a.onH = true
              · simp [hv, ht, hu, hh, ho]
              · simp [hv, ht, hu, hh, ho]
                constructor
                · rintro (⟨rfl, rfl, rfl⟩ | ⟨rfl, rfl, rfl⟩) <;> simp
                · rintro ⟨rfl | rfl, rfl, rfl⟩ <;> simp
            · by_cases ho : a.onV = true
              · simp [hv, ht, hu, hh, ho]
              · simp [hv, ht, hu, hh, ho]
                constructor
                · rintro (⟨rfl, rfl, rfl⟩ | ⟨rfl, rfl, rfl⟩) <;> simp
                · rintro ⟨rfl | rfl, rfl, rfl⟩ <;> simp
        · simp [ht]
      · simp [hv]
  unfold WNet.lines WNet.pinAps WNet.HasLine
  constructor
  · intro h
    obtain ⟨⟨p, a⟩, hx, h⟩ := List.mem_flatMap.1 h
    obtain ⟨p', hp, hx⟩ := List.mem_flatMap.1 hx
    split at hx
    · cases hx
    · rename_i hk
      obtain ⟨a', ha, e⟩ := List.mem_map.1 hx
      cases e
      exact ⟨p, hp, hk, a, ha, (ap p a).1 h⟩
  · rintro ⟨p, hp, hk, a, ha, h⟩
    exact List.mem_flatMap.2 ⟨(p, a), List.mem_flatMap.2 ⟨p, hp, by rw [if_neg hk]; exact List.mem_map.2 ⟨a, ha, rfl⟩⟩, (ap p a).2 h⟩

theorem mapM_get {α β : Type} {f : α → Option β} : ∀ {l : List α} {ls : List β}, l.mapM f = some ls → ∀ x ∈ l, ∃ y ∈ ls, f x = some y := by
  intro l
  induction l with
  | nil => intro ls h y hy; cases hy
  | cons x xs ih =>
    intro ls h y hy
    rw [List.mapM_cons] at h
    cases hx : f x with
    | none => rw [hx] at h; cases h
    | some b =>
      rw [hx] at h
      cases hxs : xs.mapM f with
      | none => rw [hxs] at h; cases h
      | some bs =>
        rw [hxs] at h
        cases h
        rcases List.mem_cons.1 hy with rfl | hy
        · exact ⟨b, by simp, hx⟩
        · obtain ⟨z, hz, hzf⟩ := ih hxs y hy
          exact ⟨z, by simp [hz], hzf⟩

/-- the lists of edges of all lines -/
theorem lines_edges {g : Grid} (hs : g.Sorted) {set : Bool} : ∀ {l : List (MIdx × Dir × Int)} {ls : List (List GOp)},
    (∀ x ∈ l, x.2.1 = .E ∨ x.2.1 = .W ∨ x.2.1 = .N ∨ x.2.1 = .S) → l.mapM (fun x => stretchOps g set x.1 x.2.1 x.2.2) = some ls →
    ∃ xs : List (MIdx × Dir), ls.flatten = xs.map (gridOp set) ∧ (∀ x ∈ xs, x.2 ≠ .UNKNOWN) ∧
      ∀ x, x ∈ xs ↔ ∃ y ∈ l, OnStretch g y.1 y.2.1 y.2.2 x.1 ∧ (x.2 = y.2.1 ∨ x.2 = .D ∨ x.2 = .U) := by
  intro l
  induction l with
  | nil => intro ls _ h; simp at h; subst h; exact ⟨[], rfl, by simp, by simp⟩
  | cons y l ih =>
    intro ls hd h
    rw [List.mapM_cons] at h
    cases hy : stretchOps g set y.1 y.2.1 y.2.2 with
    | none => rw [hy] at h; cases h
    | some b =>
      rw [hy] at h
      cases hxs : l.mapM (fun x => stretchOps g set x.1 x.2.1 x.2.2) with
      | none => rw [hxs] at h; cases h
      | some bs =>
        rw [hxs] at h
        cases h
        obtain ⟨xs, e1, n1, m1⟩ := ih (fun x hx => hd x (by simp [hx])) hxs
        have hdy := hd y (by simp)
        obtain ⟨ys, e2, m2⟩ := stretchOps_eq hs hdy hy
        refine ⟨ys ++ xs, ?_, ?_, ?_⟩
        · rw [List.flatten_cons, e1, e2, List.map_append]
        · intro x hx
          rcases List.mem_append.1 hx with hx | hx
          · rcases ((m2 x).1 hx).2 with h | h | h
            · rw [h]; rcases hdy with h | h | h | h <;> rw [h] <;> decide
            · rw [h]; decide
            · rw [h]; decide
          · exact n1 x hx
        · intro x
          rw [List.mem_append, m1, m2]
          constructor
          · rintro (h | ⟨z, hz, h⟩)
            · exact ⟨y, by simp, h⟩
            · exact ⟨z, by simp [hz], h⟩
          · rintro ⟨z, hz, h⟩
            rcases List.mem_cons.1 hz with rfl | hz
            · exact Or.inl h
            · exact Or.inr ⟨z, hz, h⟩

theorem spared_grid {g g' : Grid} (hs : SameGrid g g') {ops : List GOp} (hl : ∀ op ∈ ops, op.Legal g)
    (h1 : Spares .gridE ops) (h2 : Spares .gridN ops) (h3 : Spares .gridU ops) {m : MIdx} {e : Dir} (he : e ≠ .UNKNOWN) (hm : g.On m) (hme : g.On (m.nbr e)) :
    (g'.run ops).hasGridCost m e = g'.hasGridCost m e := by
  obtain ⟨h, b, hb⟩ := gridKey_some m e he
  rw [hasGridCost_key _ m e h b hb, hasGridCost_key _ m e h b hb]
  have hon : g.On h := by
    rcases m with ⟨x, y, z⟩
    cases e <;> simp only [gridKey, edgeHome, byAxis, Option.some.injEq, Prod.mk.injEq, reduceCtorEq] at hb
    all_goals (rw [← hb.1]; simp only [MIdx.nbr, Dir.delta, Grid.On] at *; omega)
  have hb' : b = .gridE ∨ b = .gridN ∨ b = .gridU := by
    cases e <;> simp only [gridKey, edgeHome, byAxis, Option.some.injEq, Prod.mk.injEq, reduceCtorEq] at hb
    all_goals (rw [← hb.2]; simp)
  congr 1
  rcases hb' with rfl | rfl | rfl
  · exact run_spared' hs hl hon h1
  · exact run_spared' hs hl hon h2
  · exact run_spared' hs hl hon h3

/-- costs off the tracks after the flags of a net -/
theorem netFlags_grid {E : WEnv} {g g' : Grid} (hE : E.Fits g) (hs : SameGrid g g') {add : Bool} {n : WNet} (hn : n ∈ E.nets) {ops : List GOp}
    (h : netFlags E.T g add n = some ops) {m : MIdx} {e : Dir} (he : e ≠ .UNKNOWN) (hm : g.On m) (hme : g.On (m.nbr e)) :
    (n.Lined E.T g m e → (g'.run ops).hasGridCost m e = add) ∧ (¬ n.Lined E.T g m e → (g'.run ops).hasGridCost m e = g'.hasGridCost m e) := by
  have hlg := legal_netFlags hE hn h
  obtain ⟨ls, hls, rfl⟩ := netFlags_eq h
  obtain ⟨xs, e1, hu, hx⟩ := lines_edges hE.sorted (fun x hx => lines_dir hx) hls
  have l1 : ∀ op ∈ ls.flatten, op.Legal g := fun op hop => hlg op (List.mem_append.2 (Or.inl hop))
  have l2 := fun op (hop : op ∈ (n.pinAps.filter fun x => x.2.valid .U).map fun x => if add then GOp.resetOverride x.2.at' else .setOverride x.2.at') =>
    hlg op (List.mem_append.2 (Or.inr hop))
  have sp : ∀ a, a ≠ .override → Spares a ((n.pinAps.filter fun x => x.2.valid .U).map fun x => if add then GOp.resetOverride x.2.at' else .setOverride x.2.at') := by
    intro a ha op hop m e
    obtain ⟨x, _, rfl⟩ := List.mem_map.1 hop
    cases add
    · simp [GOp.target] at e; exact ha e.2.symm
    · simp [GOp.target] at e; exact ha e.2.symm
  have e2 := spared_grid (run_same hs l1) l2 (sp _ (by decide)) (sp _ (by decide)) (sp _ (by decide)) he hm hme
  rw [grun_append, e2, e1, gridOps_cost add xs g' hu m e he ((sameGrid_on hs _).2 hm) ((sameGrid_on hs _).2 hme)]
  have key : xs.any (fun x => decide (SameEdge x.1 x.2 m e)) = true ↔ n.Lined E.T g m e := by
    rw [List.any_eq_true]
    constructor
    · rintro ⟨x, hxm, hse⟩
      obtain ⟨y, hy, h1, h2⟩ := (hx x).1 hxm
      exact ⟨y.1, y.2.1, y.2.2, (mem_lines _ _ _ _ _ _).1 hy, x.1, h1, x.2, h2, of_decide_eq_true hse⟩
    · rintro ⟨m0, d0, b0, hy, m', h1, f, h2, h3⟩
      exact ⟨(m', f), (hx (m', f)).2 ⟨(m0, d0, b0), (mem_lines _ _ _ _ _ _).2 hy, h1, h2⟩, decide_eq_true h3⟩
  constructor
  · intro hL; rw [if_pos (key.2 hL)]
  · intro hL; rw [if_neg (fun hh => hL (key.1 hh))]

theorem ovr_step (g : Grid) (set : Bool) (n m : MIdx) (hn : g.On n) (hm : g.On m) :
    (g.step (if set then .setOverride n else .resetOverride n)).attr m .override = if n = m then (if set then 1 else 0) else g.attr m .override := by
  have hn' := (on_iff g n).1 hn
  have hm' := (on_iff g m).1 hm
  have S1 : g.upd (g.idx n) (setBit · 11) = g.put n .override 1 := by
    apply upd_congr
    exact setBit_eq _ 11 (by omega)
  have S0 : g.upd (g.idx n) (resetBit · 11) = g.put n .override 0 := by
    apply upd_congr
    exact resetBit_eq _ 11 (by omega)
  have hf : Attr.override.field.2 = 1 := rfl
  cases set
  · simp only [Bool.false_eq_true, if_false, Grid.step, Grid.resetOverride]
    rw [S0, put_attr g n m .override .override _ hn' hm']
    by_cases h : n = m
    · rw [if_pos ⟨h.symm, rfl⟩, if_pos h, hf]
    · rw [if_neg (fun hh => h hh.1.symm), if_neg h]
  · simp only [if_true, Grid.step, Grid.setOverride]
    rw [S1, put_attr g n m .override .override _ hn' hm']
    by_cases h : n = m
    · rw [if_pos ⟨h.symm, rfl⟩, if_pos h, hf]
    · rw [if_neg (fun hh => h hh.1.symm), if_neg h]

theorem ovr_run (set : Bool) (m : MIdx) : ∀ (l : List MIdx) (g : Grid), (∀ n ∈ l, g.On n) → g.On m →
    (g.run (l.map fun n => if set then GOp.setOverride n else .resetOverride n)).attr m .override = if m ∈ l then (if set then 1 else 0) else g.attr m .override := by
  intro l
  induction l with
  | nil => intro g _ _; simp [Grid.run]
  | cons n l ih =>
    intro g hl hm
    have hn := hl n (by simp)
    have hlg : (if set then GOp.setOverride n else .resetOverride n).Legal g := by
      right
      intro k a e
      cases set
      · simp [GOp.target] at e; rw [← e.1]; exact (on_iff g _).1 hn
      · simp [GOp.target] at e; rw [← e.1]; exact (on_iff g _).1 hn
    have hsg := sameGrid_step g _ hlg
    have h1 : g.run ((n :: l).map fun n => if set then GOp.setOverride n else .resetOverride n) =
        (g.step (if set then GOp.setOverride n else .resetOverride n)).run (l.map fun n => if set then GOp.setOverride n else .resetOverride n) := by simp [Grid.run]
    rw [h1, ih _ (fun k hk => (sameGrid_on hsg _).2 (hl k (by simp [hk]))) ((sameGrid_on hsg _).2 hm), ovr_step g set n m hn hm]
    by_cases h2 : m ∈ l
    · rw [if_pos h2, if_pos (List.mem_cons.2 (Or.inr h2))]
    · rw [if_neg h2]
      by_cases h3 : n = m
      · rw [if_pos h3, if_pos (List.mem_cons.2 (Or.inl h3.symm))]
      · rw [if_neg h3, if_neg (by simp [h2]; exact fun e => h3 e.symm)]

theorem viaUpAt_iff (n : WNet) (m : MIdx) : m ∈ ((n.pinAps.filter fun x => x.2.valid .U).map fun x => x.2.at') ↔ n.ViaUpAt m := by
  rw [List.mem_map]
  constructor
  · rintro ⟨x, hx, rfl⟩
    obtain ⟨h1, h2⟩ := List.mem_filter.1 hx
    obtain ⟨_, h3, h4, h5⟩ := pinAps_mem h1
    exact ⟨x.1, h3, h5, x.2, h4, h2, rfl⟩
  · rintro ⟨p, hp, hk, a, ha, hv, rfl⟩
    refine ⟨(p, a), List.mem_filter.2 ⟨?_, hv⟩, rfl⟩
    unfold WNet.pinAps
    refine List.mem_flatMap.2 ⟨p, hp, ?_⟩
    rw [if_neg hk]
    exact List.mem_map.2 ⟨a, ha, rfl⟩

theorem netFlags_ovr {E : WEnv} {g g' : Grid} (hE : E.Fits g) (hs : SameGrid g g') {add : Bool} {n : WNet} (hn : n ∈ E.nets) {ops : List GOp}
    (h : netFlags E.T g add n = some ops) {m : MIdx} (hm : g.On m) :
    (n.ViaUpAt m → (g'.run ops).attr m .override = if add then 0 else 1) ∧ (¬ n.ViaUpAt m → (g'.run ops).attr m .override = g'.attr m .override) := by
  have hlg := legal_netFlags hE hn h
  obtain ⟨ls, hls, rfl⟩ := netFlags_eq h
  have l1 : ∀ op ∈ ls.flatten, op.Legal g := fun op hop => hlg op (List.mem_append.2 (Or.inl hop))
  have s1 := run_same hs l1
  have sp : Spares .override ls.flatten := by
    intro op hop m e
    obtain ⟨y, hy, hop⟩ := List.mem_flatten.1 hop
    obtain ⟨x, _, hx⟩ := mapM_mem hls y hy
    exact spares_gridCost .override (by decide) hx op hop m e
  have e1 := run_spared' hs l1 hm sp
  have e2 : ((n.pinAps.filter fun x => x.2.valid .U).map fun x => if add then GOp.resetOverride x.2.at' else .setOverride x.2.at') =
      ((n.pinAps.filter fun x => x.2.valid .U).map fun x => x.2.at').map (fun n => if (!add) then GOp.setOverride n else .resetOverride n) := by
    rw [List.map_map]
    apply List.map_congr_left
    intro x _
    cases add <;> rfl
  have hon : ∀ k ∈ ((n.pinAps.filter fun x => x.2.valid .U).map fun x => x.2.at'), (g'.run ls.flatten).On k := by
    intro k hk
    obtain ⟨x, hx, rfl⟩ := List.mem_map.1 hk
    exact (sameGrid_on s1 _).2 (hE.aps n hn x.2 (pinAps_mem (List.mem_filter.1 hx).1).1).1
  rw [grun_append, e2, ovr_run (!add) m _ _ hon ((sameGrid_on s1 _).2 hm), e1]
  constructor
  · intro hv; rw [if_pos ((viaUpAt_iff n m).2 hv)]; cases add <;> rfl
  · intro hv; rw [if_neg (fun hh => hv ((viaUpAt_iff n m).1 hh))]

/-! ### the other calls leave the flags alone -/

theorem ctr_flags (ty : CostMod) (b : Bool) : ty.ctr b ≠ .gridE ∧ ty.ctr b ≠ .gridN ∧ ty.ctr b ≠ .gridU ∧ ty.ctr b ≠ .override := by
  cases ty <;> cases b <;> decide

theorem netOps_grid {E : WEnv} {g g' : Grid} (hE : E.Fits g) (hs : SameGrid g g') {add : Bool} {n : WNet} (hn : n ∈ E.nets) {ops : List GOp}
    (h : E.netOps g add n = some ops) {m : MIdx} {e : Dir} (he : e ≠ .UNKNOWN) (hm : g.On m) (hme : g.On (m.nbr e)) :
    (n.Lined E.T g m e → (g'.run ops).hasGridCost m e = add) ∧ (¬ n.Lined E.T g m e → (g'.run ops).hasGridCost m e = g'.hasGridCost m e) := by
  obtain ⟨fl, hfl, rfl⟩ := netOps_eq h
  have l1 := legal_shape (g := g) add ((E.termsOf n).flatMap (termTargets E.T g E.sv true))
  have s1 := run_same hs l1
  have e1 := spared_grid hs l1 (spares_costOps _ _ (fun b => (ctr_flags _ b).1)) (spares_costOps _ _ (fun b => (ctr_flags _ b).2.1)) (spares_costOps _ _ (fun b => (ctr_flags _ b).2.2.1)) he hm hme
  have l2 : ∀ op ∈ costOps (if add then .subDRC else .addDRC) (n.ext.flatMap (minCutTargets E.T g E.sv)), op.Legal g :=
    legal_costOps (fun u hu => Or.inl (minCuts_on hE.sorted hE.vias (hE.ext n hn) u hu))
  have s2 := run_same s1 l2
  have e2 := spared_grid s1 l2 (spares_costOps _ _ (fun b => (ctr_flags _ b).1)) (spares_costOps _ _ (fun b => (ctr_flags _ b).2.1)) (spares_costOps _ _ (fun b => (ctr_flags _ b).2.2.1)) he hm hme
  have l3 := legal_netFlags hE hn hfl
  have s3 := run_same s2 l3
  have e3 := netFlags_grid hE s2 hn hfl he hm hme
  have l4 : ∀ op ∈ costOps (if add then .addDRC else .subDRC) (n.ext.flatMap (pathTargets E.T g E.sv)), op.Legal g :=
    legal_costOps (fun u hu => Or.inl (figs_on hE.sorted hE.vias (hE.ext n hn) u hu))
  have e4 := spared_grid s3 l4 (spares_costOps _ _ (fun b => (ctr_flags _ b).1)) (spares_costOps _ _ (fun b => (ctr_flags _ b).2.1)) (spares_costOps _ _ (fun b => (ctr_flags _ b).2.2.1)) he hm hme
  rw [grun_append, grun_append, grun_append, e4]
  refine ⟨e3.1, fun hL => ?_⟩
  rw [e3.2 hL, e2, e1]

theorem netOps_ovr {E : WEnv} {g g' : Grid} (hE : E.Fits g) (hs : SameGrid g g') {add : Bool} {n : WNet} (hn : n ∈ E.nets) {ops : List GOp}
    (h : E.netOps g add n = some ops) {m : MIdx} (hm : g.On m) :
    (n.ViaUpAt m → (g'.run ops).attr m .override = if add then 0 else 1) ∧ (¬ n.ViaUpAt m → (g'.run ops).attr m .override = g'.attr m .override) := by
  obtain ⟨fl, hfl, rfl⟩ := netOps_eq h
  have l1 := legal_shape (g := g) add ((E.termsOf n).flatMap (termTargets E.T g E.sv true))
  have s1 := run_same hs l1
  have e1 := run_spared' hs l1 hm (spares_costOps _ _ (fun b => (ctr_flags _ b).2.2.2))
  have l2 : ∀ op ∈ costOps (if add then .subDRC else .addDRC) (n.ext.flatMap (minCutTargets E.T g E.sv)), op.Legal g :=
    legal_costOps (fun u hu => Or.inl (minCuts_on hE.sorted hE.vias (hE.ext n hn) u hu))
  have s2 := run_same s1 l2
  have e2 := run_spared' s1 l2 hm (spares_costOps _ _ (fun b => (ctr_flags _ b).2.2.2))
  have l3 := legal_netFlags hE hn hfl
  have s3 := run_same s2 l3
  have e3 := netFlags_ovr hE s2 hn hfl hm
  have l4 : ∀ op ∈ costOps (if add then .addDRC else .subDRC) (n.ext.flatMap (pathTargets E.T g E.sv)), op.Legal g :=
    legal_costOps (fun u hu => Or.inl (figs_on hE.sorted hE.vias (hE.ext n hn) u hu))
  have e4 := run_spared' s3 l4 hm (spares_costOps _ _ (fun b => (ctr_flags _ b).2.2.2))
  rw [grun_append, grun_append, grun_append, e4]
  refine ⟨e3.1, fun hL => ?_⟩
  rw [e3.2 hL, e2, e1]

theorem spares_figOps {a : Attr} (ha : ∀ ty b, CostMod.ctr ty b ≠ a) (T : CTech) (g : Grid) (sv : MIdx → Option MzVia) (add : Bool) (fs : List CFig) :
    Spares a (figOps T g sv add fs) := by
  rw [figOps_eq]; exact spares_costOps _ _ (fun b => ha _ b)

theorem spares_initOps {a : Attr} (ha : ∀ ty b, CostMod.ctr ty b ≠ a) (hb : a ≠ .blockE ∧ a ≠ .blockN ∧ a ≠ .blockU ∧ a ≠ .svia) (E : WEnv) (g : Grid) :
    Spares a (E.initOps g) := by
  rw [initOps_eq]
  exact ((((spares_costOps _ _ (fun b => ha _ b)).append (Spares.flatMap (fun p _ => spares_apOps hb p))).append (spares_costOps _ _ (fun b => ha _ b))).append
    (Spares.flatMap (fun p _ => spares_pinOps ⟨hb.1, hb.2.1, hb.2.2.1⟩ g p))).append (spares_costOps _ _ (fun b => ha _ b))

/-- the calls before a net is searched, besides its own -/
theorem begin_grid {E : WEnv} {g : Grid} (hE : E.Fits g) {lim : CTgt → Prop} {pat : Bool} {s s' : WState} {k : Nat} {n : WNet}
    (hI : WInv E g lim pat s none) (h : E.begin s k = some s') (hn : E.nets[k]? = some n) :
    (∀ m e, e ≠ .UNKNOWN → g.On m → g.On (m.nbr e) →
      (n.Lined E.T g m e → s'.grid.hasGridCost m e = false) ∧ (¬ n.Lined E.T g m e → s'.grid.hasGridCost m e = s.grid.hasGridCost m e)) ∧
    (∀ m, g.On m → (n.ViaUpAt m → s'.grid.attr m .override = 1) ∧ (¬ n.ViaUpAt m → s'.grid.attr m .override = s.grid.attr m .override)) := by
  obtain ⟨n', fs, tr, ops, hn', hfs, htr, hops, rfl⟩ := begin_eq h
  rw [hn] at hn'; cases hn'
  have hnm : n ∈ E.nets := List.mem_of_getElem? hn
  rw [(sameGrid_ops hI.same E false n E.sv []).1] at hops
  have fo := fun fs => (sameGrid_ops hI.same E false n E.sv fs).2
  dsimp only
  rw [fo fs, fo n.reserved, grun_append]
  have fsOn : ∀ f ∈ fs, f.OnGrid g := hI.onG fs (List.mem_of_getElem? hfs)
  have rOn := reserved_on hE hnm
  have l1 : ∀ op ∈ figOps E.T g E.sv false fs ++ (if decide (tr = 0) && E.fresh then figOps E.T g E.sv false n.reserved else []), op.Legal g := by
    intro op hop
    rcases List.mem_append.1 hop with hop | hop
    · exact legal_figOps hE fsOn op hop
    · split at hop
      · exact legal_figOps hE rOn op hop
      · cases hop
  have sp : ∀ a, (∀ ty b, CostMod.ctr ty b ≠ a) → Spares a (figOps E.T g E.sv false fs ++ (if decide (tr = 0) && E.fresh then figOps E.T g E.sv false n.reserved else [])) := by
    intro a ha
    refine Spares.append (spares_figOps ha _ _ _ _ _) ?_
    split
    · exact spares_figOps ha _ _ _ _ _
    · exact spares_nil a
  have s1 := run_same hI.same l1
  constructor
  · intro m e he hm hme
    have e1 := spared_grid hI.same l1 (sp _ (fun ty b => (ctr_flags ty b).1)) (sp _ (fun ty b => (ctr_flags ty b).2.1)) (sp _ (fun ty b => (ctr_flags ty b).2.2.1)) he hm hme
    have e2 := netOps_grid hE s1 hnm hops he hm hme
    rw [e1] at e2
    exact e2
  · intro m hm
    have e1 := run_spared' hI.same l1 hm (sp _ (fun ty b => (ctr_flags ty b).2.2.2))
    have e2 := netOps_ovr hE s1 hnm hops hm
    rw [e1] at e2
    exact e2

theorem finish_grid {E : WEnv} {g : Grid} (hE : E.Fits g) {lim : CTgt → Prop} {pat : Bool} {s s' : WState} {k : Nat} {n : WNet}
    {new : List CFig} {patches : List (Nat × CFig)} (hnew : ∀ f ∈ new, f.OnGrid g)
    (hI : WInv E g lim pat s (some k)) (h : E.finish s k new patches = some s') (hn : E.nets[k]? = some n) :
    (∀ m e, e ≠ .UNKNOWN → g.On m → g.On (m.nbr e) →
      (n.Lined E.T g m e → s'.grid.hasGridCost m e = true) ∧ (¬ n.Lined E.T g m e → s'.grid.hasGridCost m e = s.grid.hasGridCost m e)) ∧
    (∀ m, g.On m → (n.ViaUpAt m → s'.grid.attr m .override = 0) ∧ (¬ n.ViaUpAt m → s'.grid.attr m .override = s.grid.attr m .override)) := by
  obtain ⟨n', tr, ops, hn', htr, hops, rfl⟩ := finish_eq h
  rw [hn] at hn'; cases hn'
  have hnm : n ∈ E.nets := List.mem_of_getElem? hn
  rw [(sameGrid_ops hI.same E true n E.sv []).1] at hops
  dsimp only
  rw [(sameGrid_ops hI.same E true n E.sv new).2, grun_append]
  have l1 := legal_figOps (sv := E.sv) (add := true) hE hnew
  have s1 := run_same hI.same l1
  have sp : ∀ a, (∀ ty b, CostMod.ctr ty b ≠ a) → Spares a (figOps E.T g E.sv true new) := fun a ha => spares_figOps ha _ _ _ _ _
  constructor
  · intro m e he hm hme
    have e1 := spared_grid hI.same l1 (sp _ (fun ty b => (ctr_flags ty b).1)) (sp _ (fun ty b => (ctr_flags ty b).2.1)) (sp _ (fun ty b => (ctr_flags ty b).2.2.1)) he hm hme
    have e2 := netOps_grid hE s1 hnm hops he hm hme
    rw [e1] at e2
    exact e2
  · intro m hm
    have e1 := run_spared' hI.same l1 hm (sp _ (fun ty b => (ctr_flags ty b).2.2.2))
    have e2 := netOps_ovr hE s1 hnm hops hm
    rw [e1] at e2
    exact e2

theorem run_ovr {E : WEnv} {g : Grid} (hE : E.Fits g) {lim : CTgt → Prop} {pat : Bool} {s : WState} {busy : Option Nat}
    (h : WRun E g lim pat s busy) (h0 : ∀ m, g.On m → g.attr m .override = 0) (m : MIdx) (hm : g.On m) :
    (busy = none → s.grid.attr m .override = 0) ∧
    (∀ k n, busy = some k → E.nets[k]? = some n → (n.ViaUpAt m → s.grid.attr m .override = 1) ∧ (¬ n.ViaUpAt m → s.grid.attr m .override = 0)) := by
  induction h with
  | start _ =>
    refine ⟨fun _ => ?_, fun k n e => (by cases e)⟩
    exact (run_spared' (sameGrid_refl g) (legal_initOps hE) hm (spares_initOps (fun ty b => (ctr_flags ty b).2.2.2) (by decide) E g)).trans (h0 m hm)
  | @begin s s' k hr h hb' ih =>
    refine ⟨fun e => (by cases e), ?_⟩
    intro k' n e hn
    cases e
    have h1 := (begin_grid hE (winv_run hE hr) h hn).2 m hm
    rw [ih.1 rfl] at h1
    exact h1
  | @finish s s' k new patches hr h h1 h2 h3 hb' ih =>
    refine ⟨fun _ => ?_, fun k n e => (by cases e)⟩
    obtain ⟨n, tr, ops, hn, _, _, _⟩ := finish_eq h
    have h4 := ih.2 k n rfl hn
    have h5 := (finish_grid hE h1 (winv_run hE hr) h hn).2 m hm
    by_cases hv : n.ViaUpAt m
    · exact h5.1 hv
    · rw [h5.2 hv]; exact h4.2 hv

/-- the edge was off the tracks at the start, or lies on a line of a net that was routed -/
def WEnv.Dear (E : WEnv) (g : Grid) (s : WState) (m : MIdx) (e : Dir) : Prop :=
  g.hasGridCost m e = true ∨ ∃ (i : Nat) (n : WNet) (t : Nat), E.nets[i]? = some n ∧ s.tries[i]? = some t ∧ 0 < t ∧ n.Lined E.T g m e

theorem run_grid {E : WEnv} {g : Grid} (hE : E.Fits g) {lim : CTgt → Prop} {pat : Bool} {s : WState} {busy : Option Nat}
    (h : WRun E g lim pat s busy) (m : MIdx) (e : Dir) (he : e ≠ .UNKNOWN) (hm : g.On m) (hme : g.On (m.nbr e)) :
    (busy = none → (s.grid.hasGridCost m e = true ↔ E.Dear g s m e)) ∧
    (∀ k n, busy = some k → E.nets[k]? = some n → (s.grid.hasGridCost m e = true ↔ E.Dear g s m e ∧ ¬ n.Lined E.T g m e)) := by
  induction h with
  | start _ =>
    refine ⟨fun _ => ?_, fun k n e => (by cases e)⟩
    have h1 := spared_grid (sameGrid_refl g) (legal_initOps hE) (spares_initOps (fun ty b => (ctr_flags ty b).1) (by decide) E g)
      (spares_initOps (fun ty b => (ctr_flags ty b).2.1) (by decide) E g) (spares_initOps (fun ty b => (ctr_flags ty b).2.2.1) (by decide) E g) he hm hme
    rw [show (E.start g).grid = g.run (E.initOps g) from rfl, h1]
    constructor
    · exact Or.inl
    · rintro (h | ⟨i, n, t, hn, ht, hp, _⟩)
      · exact h
      · unfold WEnv.start at ht
        rw [List.getElem?_map, hn] at ht
        cases ht; exact absurd hp (by simp)
  | @begin s s' k hr h hb' ih =>
    refine ⟨fun e => (by cases e), ?_⟩
    intro k' n eq hn
    cases eq
    have h1 := (begin_grid hE (winv_run hE hr) h hn).1 m e he hm hme
    have h2 := ih.1 rfl
    obtain ⟨n', fs, tr, ops, hn', hfs, htr, hops, rfl⟩ := begin_eq h
    have h3 : ∀ gr, E.Dear g { s with grid := gr, figs := s.figs.set k [] } m e ↔ E.Dear g s m e := fun _ => Iff.rfl
    rw [h3]
    by_cases hL : n.Lined E.T g m e
    · rw [h1.1 hL]; simp [hL]
    · rw [h1.2 hL, h2]; simp [hL]
  | @finish s s' k new patches hr h h1 h2 h3 hb' ih =>
    refine ⟨fun _ => ?_, fun k n e => (by cases e)⟩
    have hI := winv_run hE hr
    obtain ⟨n, tr, ops, hn, htr, _, hs'⟩ := finish_eq h
    have h4 := ih.2 k n rfl hn
    have h5 := (finish_grid hE h1 hI h hn).1 m e he hm hme
    have ht : s'.tries = s.tries.set k (tr + 1) := by rw [hs']
    have hk : k < s.tries.length := (List.getElem?_eq_some_iff.1 htr).1
    have h6 : E.Dear g s' m e ↔ E.Dear g s m e ∨ n.Lined E.T g m e := by
      unfold WEnv.Dear
      rw [ht]
      constructor
      · rintro (h | ⟨i, n', t, hn', ht, hp, hL⟩)
        · exact Or.inl (Or.inl h)
        · by_cases hik : i = k
          · subst hik; rw [hn] at hn'; cases hn'; exact Or.inr hL
          · rw [List.getElem?_set_ne (fun h => hik h.symm)] at ht
            exact Or.inl (Or.inr ⟨i, n', t, hn', ht, hp, hL⟩)
      · rintro ((h | ⟨i, n', t, hn', ht, hp, hL⟩) | h)
        · exact Or.inl h
        · by_cases hik : i = k
          · subst hik; exact Or.inr ⟨i, n', tr + 1, hn', by simp [hk], by omega, hL⟩
          · exact Or.inr ⟨i, n', t, hn', by rw [List.getElem?_set_ne (fun h => hik h.symm)]; exact ht, hp, hL⟩
        · exact Or.inr ⟨k, n, tr + 1, hn, by simp [hk], by omega, h⟩
    rw [h6]
    by_cases hL : n.Lined E.T g m e
    · rw [h5.1 hL]; simp [hL]
    · rw [h5.2 hL, h4]; simp [hL]

end TR
