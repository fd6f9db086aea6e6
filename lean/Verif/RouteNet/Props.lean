import Verif.RouteNet.Inv
/-! Property theorems C18–C20: routing one net. -/
namespace TR

theorem routeLoop_succ (zH : ZHeights) (real : List MIdx) (pick : Nat → Nat → Nat) (fuel n it : Nat) (s : RState) :
    routeLoop zH real pick fuel (n + 1) it s =
      if s.unconn = [] then .ok s it
      else match nextDst s.grid.resetAllPrev zH s.cc1 s.cc2 s.m2p with
        | none => .crash
        | some _ =>
          match s.grid.resetAllPrev.search (pick it) fuel s.comps with
          | none => .outOfFuel
          | some r => if r.found then routeLoop zH real pick fuel n (it + 1) (afterPath real s r)
              else .fail { s with grid := r.grid, comps := r.comps } (it + 1) := rfl

/-- what each outcome of the loop tells -/
def OutOK (pins : List RPin) (g0 : Grid) (k0 : Nat) : ROut → Prop
  | .ok s k => RInv pins g0 s ∧ s.unconn = [] ∧ k + 1 ≤ k0
  | .fail s k => (∀ f ∈ s.figs, FigOK g0 f) ∧ k + 1 ≤ k0 ∧
      ∃ p ∈ pins, ∃ q ∈ pins, p ≠ q ∧ ∃ a ∈ q.aps, ∀ b ∈ p.aps, ¬ g0.Reach [a.mi] b.mi
  | .crash => True
  | .outOfFuel => True

theorem reach_mono {g : Grid} {l l' : List MIdx} (h : ∀ n ∈ l, n ∈ l') {n} (hr : g.Reach l n) : g.Reach l' n := by
  induction hr with
  | start n hn => exact .start n (h n hn)
  | step n d _ he ih => exact .step n d ih he

theorem reach_base {g0 g : Grid} (hb : Base g0 g) {l n} (hr : g0.Reach l n) : g.Reach l n := by
  induction hr with
  | start n hn => exact .start n hn
  | step n d _ he ih => exact .step n d ih (by rw [hb.edge]; exact he)

theorem fail_info {pins g0 s} (hr : NetReady g0 pins) (h : RInv pins g0 s) (hne : s.unconn ≠ [])
    (pick : Nat → Nat) (fuel : Nat) (r : SearchResult)
    (hs : s.grid.resetAllPrev.search pick fuel s.comps = some r) (hf : ¬ r.found = true) :
    ∃ p ∈ pins, ∃ q ∈ pins, p ≠ q ∧ ∃ a ∈ q.aps, ∀ b ∈ p.aps, ¬ g0.Reach [a.mi] b.mi := by
  obtain ⟨p, hp⟩ : ∃ p, p ∈ s.unconn := List.exists_mem_of_ne_nil _ hne
  obtain ⟨q, hq, hqu⟩ := h.seed
  obtain ⟨a, ha, hac⟩ := h.conn q hq hqu
  refine ⟨p, h.sub p hp, q, hq, fun e => hqu (e ▸ hp), a, ha, ?_⟩
  intro b hb hreach
  apply hf
  refine (c16_finds_iff_reachable _ _ _ _ _ (ready_of_inv h hr.edges) hs).2 ⟨b.mi, ?_, ?_⟩
  · exact reach_base h.map.base.resetAllPrev (reach_mono (fun n hn => by simp at hn; subst hn; exact hac) hreach)
  · show s.grid.isDst b.mi = true
    rw [h.map.dst _ (hr.on p (h.sub p hp) b hb)]
    exact List.ne_nil_of_mem ((h.mem b.mi p).2 ⟨hp, b, hb, rfl⟩)

theorem loop_out (zH : ZHeights) (real : List MIdx) (pick : Nat → Nat → Nat) (fuel : Nat) (pins : List RPin) (g0 : Grid)
    (hr : NetReady g0 pins) : ∀ (n it : Nat) (s : RState), RInv pins g0 s → s.unconn.length + it + 1 ≤ pins.length →
    OutOK pins g0 pins.length (routeLoop zH real pick fuel n it s)
  | 0, it, s, h, hle => by
    simp only [routeLoop]
    split
    · rename_i hu; exact ⟨h, hu, by omega⟩
    · trivial
  | n + 1, it, s, h, hle => by
    rw [routeLoop_succ]
    by_cases hu : s.unconn = []
    · rw [if_pos hu]; exact ⟨h, hu, by omega⟩
    · rw [if_neg hu]
      have hpos : 0 < s.unconn.length := List.length_pos_iff.2 hu
      cases nextDst s.grid.resetAllPrev zH s.cc1 s.cc2 s.m2p with
      | none => trivial
      | some _ =>
        cases hs : s.grid.resetAllPrev.search (pick it) fuel s.comps with
        | none => trivial
        | some r =>
          simp only []
          by_cases hf : r.found = true
          · rw [if_pos hf]
            obtain ⟨h1, h2⟩ := round_inv real (pick it) fuel r hr h hs hf
            exact loop_out zH real pick fuel pins g0 hr n (it + 1) _ h1 (by omega)
          · rw [if_neg hf]
            exact ⟨h.figs, by omega, fail_info hr h hu _ _ r hs hf⟩

theorem loop_done (zH : ZHeights) (real : List MIdx) (pick : Nat → Nat → Nat) (pins : List RPin) (g0 : Grid)
    (hr : NetReady g0 pins) (hz : SmallCoords g0 zH) : ∀ (n it : Nat) (s : RState), RInv pins g0 s → s.unconn.length ≤ n →
    ∃ out F, (out ≠ .crash ∧ out ≠ .outOfFuel) ∧ ∀ fuel ≥ F, routeLoop zH real pick fuel n it s = out
  | 0, it, s, h, hle => by
    refine ⟨.ok s it, 0, by simp, fun fuel _ => ?_⟩
    simp only [routeLoop]
    rw [if_pos (List.length_eq_zero_iff.1 (by omega))]
  | n + 1, it, s, h, hle => by
    by_cases hu : s.unconn = []
    · exact ⟨.ok s it, 0, by simp, fun fuel _ => by rw [routeLoop_succ, if_pos hu]⟩
    · obtain ⟨p, hp⟩ : ∃ p, p ∈ s.unconn := List.exists_mem_of_ne_nil _ hu
      obtain ⟨ap, hap⟩ : ∃ ap, ap ∈ p.aps := List.exists_mem_of_ne_nil _ (hr.ap p (h.sub p hp))
      have hm : s.m2p ≠ [] := by
        intro e
        have := (h.mem ap.mi p).2 ⟨hp, ap, hap, rfl⟩
        rw [e] at this
        simp [PinMap.get, PinMap.find] at this
      have hb := h.map.base.resetAllPrev
      have hz' : SmallCoords s.grid.resetAllPrev zH := by
        unfold SmallCoords; rw [hb.xs, hb.ys]; exact hz
      obtain ⟨d, hd⟩ := nextDst_some s.grid.resetAllPrev zH s.cc1 s.cc2 s.m2p hz' (fun e he => (h.map.ne e he).1) hm
      obtain ⟨r, hres⟩ := c15_search_terminates _ _ (pick it) (ready_of_inv h hr.edges)
      generalize hF0 : s.comps.length * 7 ^ (s.grid.resetAllPrev.xs.length * (s.grid.resetAllPrev.ys.length * s.grid.resetAllPrev.zs.length)) +
        s.grid.resetAllPrev.xs.length * (s.grid.resetAllPrev.ys.length * s.grid.resetAllPrev.zs.length) + 1 = F0 at hres
      by_cases hf : r.found = true
      · obtain ⟨h1, h2⟩ := round_inv real (pick it) F0 r hr h (hres F0 (Nat.le_refl _)) hf
        obtain ⟨out, F, ho, hfu⟩ := loop_done zH real pick pins g0 hr hz n (it + 1) _ h1 (by omega)
        refine ⟨out, max F F0, ho, fun fuel hfuel => ?_⟩
        rw [routeLoop_succ, if_neg hu, hd, hres fuel (by omega)]
        simp only [hf, if_true]
        exact hfu fuel (by omega)
      · refine ⟨.fail { s with grid := r.grid, comps := r.comps } (it + 1), F0, by simp, fun fuel hfuel => ?_⟩
        rw [routeLoop_succ, if_neg hu, hd, hres fuel (by omega)]
        simp only [hf]
        rfl

theorem routeNet_out (zH : ZHeights) (pick : Nat → Nat → Nat) (fuel : Nat) (pins : List RPin) (g : Grid)
    (hr : NetReady g pins) (out : ROut) (h : routeNet zH pick fuel pins g = some out) : OutOK pins g pins.length out := by
  unfold routeNet at h
  split at h
  · simp at h
  · rename_i hlen
    obtain ⟨s, h1, h2, h3⟩ := start_inv zH pins g hr (by rintro rfl; simp at hlen)
    simp only [h1, Option.some.injEq] at h
    rw [← h]
    exact loop_out zH _ pick fuel pins g hr pins.length 0 s h2 (by omega)

/-- C18: when the router reports success for a net, the shapes it wrote connect all pins: every pin
has an access point such that any two of these access points are joined by walking through shapes
that share grid nodes. -/
theorem c18_success_connects_all_pins (zH : ZHeights) (pick : Nat → Nat → Nat) (fuel : Nat) (pins : List RPin) (g : Grid)
    (hr : NetReady g pins) (s : RState) (k : Nat) (h : routeNet zH pick fuel pins g = some (.ok s k)) :
    ∃ at_ : RPin → MIdx, (∀ p ∈ pins, ∃ a ∈ p.aps, a.mi = at_ p) ∧
      ∀ p ∈ pins, ∀ q ∈ pins, Linked s.figs (at_ p) (at_ q) := by
  obtain ⟨hi, hu, _⟩ := routeNet_out zH pick fuel pins g hr _ h
  have hlen : 1 < pins.length := by
    unfold routeNet at h
    split at h
    · simp at h
    · omega
  have hc : ∀ p ∈ pins, ∃ a ∈ p.aps, a.mi ∈ s.comps := fun p hp => hi.conn p hp (by rw [hu]; simp)
  have hfirst : s.first = false := by
    cases hf : s.first with
    | false => rfl
    | true =>
      exfalso
      obtain ⟨_, p0, _, _, ha⟩ := hi.fst hf
      have hall : ∀ p ∈ pins, p = p0 := fun p hp => ha p hp (by rw [hu]; simp)
      have hnd := hr.nodup
      match pins, hlen, hall, hnd with
      | x :: y :: t, _, hall, hnd =>
        have e1 := hall x (by simp)
        have e2 := hall y (by simp)
        simp [e1, e2] at hnd
      | [x], hl, _, _ => simp at hl
      | [], hl, _, _ => simp at hl
  have hx : ∀ p, ∃ n, p ∈ pins → (∃ a ∈ p.aps, a.mi = n) ∧ n ∈ s.comps := by
    intro p
    by_cases hp : p ∈ pins
    · obtain ⟨a, h1, h2⟩ := hc p hp
      exact ⟨a.mi, fun _ => ⟨⟨a, h1, rfl⟩, h2⟩⟩
    · exact ⟨⟨0, 0, 0⟩, fun h => absurd h hp⟩
  refine ⟨fun p => Classical.choose (hx p), fun p hp => (Classical.choose_spec (hx p) hp).1, fun p hp q hq => ?_⟩
  exact hi.link hfirst _ (Classical.choose_spec (hx p) hp).2 _ (Classical.choose_spec (hx q) hq).2

/-- C19: every wire and via written for a net is well formed and uses only existing grid edges,
whether or not the net could be completed. -/
theorem c19_shapes_well_formed (zH : ZHeights) (pick : Nat → Nat → Nat) (fuel : Nat) (pins : List RPin) (g : Grid)
    (hr : NetReady g pins) (s : RState) (k : Nat)
    (h : routeNet zH pick fuel pins g = some (.ok s k) ∨ routeNet zH pick fuel pins g = some (.fail s k)) :
    ∀ f ∈ s.figs, FigOK g f := by
  rcases h with h | h
  · exact (routeNet_out zH pick fuel pins g hr _ h).1.figs
  · exact (routeNet_out zH pick fuel pins g hr _ h).1

/-- C20: routing a net with at least two pins ends, without a crash, after at most one search per pin
less one. -/
theorem c20_net_routing_terminates (zH : ZHeights) (pick : Nat → Nat → Nat) (pins : List RPin) (g : Grid)
    (hr : NetReady g pins) (hz : SmallCoords g zH) (h2 : 2 ≤ pins.length) :
    ∃ F s k, k ≤ pins.length - 1 ∧
      ((∀ fuel ≥ F, routeNet zH pick fuel pins g = some (.ok s k)) ∨
       (∀ fuel ≥ F, routeNet zH pick fuel pins g = some (.fail s k))) := by
  obtain ⟨s, h1, hi, h3⟩ := start_inv zH pins g hr (by rintro rfl; simp at h2)
  have hrun : ∀ fuel, routeNet zH pick fuel pins g = some (routeLoop zH
      ((pins.filter (·.hasTerm)).flatMap (fun p => p.aps.map (·.mi))) pick fuel pins.length 0 s) := by
    intro fuel
    unfold routeNet
    rw [if_neg (by omega)]
    simp only [h1]
  obtain ⟨out, F, ho, hfu⟩ := loop_done zH ((pins.filter (·.hasTerm)).flatMap (fun p => p.aps.map (·.mi))) pick pins g hr hz
    pins.length 0 s hi (by omega)
  have hk := routeNet_out zH pick F pins g hr out (by rw [hrun, hfu F (Nat.le_refl _)])
  cases out with
  | crash => exact absurd rfl ho.1
  | outOfFuel => exact absurd rfl ho.2
  | ok s' k => exact ⟨F, s', k, by have := hk.2.2; omega, Or.inl fun fuel hf => by rw [hrun, hfu fuel hf]⟩
  | fail s' k => exact ⟨F, s', k, by have := hk.2.1; omega, Or.inr fun fuel hf => by rw [hrun, hfu fuel hf]⟩

/-- C20: the router gives up on a net only if some pin cannot be reached at all from an access point
of another pin. -/
theorem c20_failure_means_unreachable (zH : ZHeights) (pick : Nat → Nat → Nat) (fuel : Nat) (pins : List RPin) (g : Grid)
    (hr : NetReady g pins) (s : RState) (k : Nat) (h : routeNet zH pick fuel pins g = some (.fail s k)) :
    ∃ p ∈ pins, ∃ q ∈ pins, p ≠ q ∧ ∃ a ∈ q.aps, ∀ b ∈ p.aps, ¬ g.Reach [a.mi] b.mi :=
  (routeNet_out zH pick fuel pins g hr _ h).2.2

/-- C20: if every access point of every pin reaches every other pin, the net is routed. -/
theorem c20_reachable_pins_get_routed (zH : ZHeights) (pick : Nat → Nat → Nat) (pins : List RPin) (g : Grid)
    (hr : NetReady g pins) (hz : SmallCoords g zH) (h2 : 2 ≤ pins.length)
    (hreach : ∀ p ∈ pins, ∀ q ∈ pins, ∀ a ∈ q.aps, ∃ b ∈ p.aps, g.Reach [a.mi] b.mi) :
    ∃ F s k, k ≤ pins.length - 1 ∧ ∀ fuel ≥ F, routeNet zH pick fuel pins g = some (.ok s k) := by
  obtain ⟨F, s, k, hk, h | h⟩ := c20_net_routing_terminates zH pick pins g hr hz h2
  · exact ⟨F, s, k, hk, h⟩
  · exfalso
    obtain ⟨p, hp, q, hq, _, a, ha, hn⟩ := c20_failure_means_unreachable zH pick F pins g hr s k (h F (Nat.le_refl _))
    obtain ⟨b, hb, hr'⟩ := hreach p hp q hq a ha
    exact hn b hb hr'

/-! ## A concrete net -/

def demoNetGrid : Grid := demoGrid.run demoOps

def demoPins : List RPin :=
  [⟨0, [⟨⟨0, 0, 0⟩, ⟨0, 0⟩⟩], true⟩, ⟨1, [⟨⟨2, 1, 1⟩, ⟨20, 10⟩⟩], true⟩, ⟨2, [⟨⟨1, 1, 0⟩, ⟨10, 10⟩⟩, ⟨⟨3, 2, 0⟩, ⟨30, 20⟩⟩], false⟩]

theorem demoNet_ready : NetReady demoNetGrid demoPins := by
  refine ⟨?_, ?_, ?_, by decide, by decide, by decide, by decide, by decide⟩
  · intro n d h
    unfold demoNetGrid at h ⊢
    rw [on_run _ _ demoOps_legal, on_run _ _ demoOps_legal]
    exact c09_edges_stay_on_grid demoOps demoGrid demoOps_legal
      (fun n d h => by rw [demoGrid_noEdge] at h; simp at h) n d h
  · intro n hn
    have : ∀ n ∈ gnodes demoNetGrid, demoNetGrid.isSrc n = false := by decide
    exact this n ((mem_gnodes _ _).2 hn)
  · intro n hn
    have : ∀ n ∈ gnodes demoNetGrid, demoNetGrid.isDst n = false := by decide
    exact this n ((mem_gnodes _ _).2 hn)

def demoOut (o : Option ROut) : Option (Bool × Nat × List DFig) :=
  match o with
  | some (.ok s k) => some (true, k, s.figs)
  | some (.fail s k) => some (false, k, s.figs)
  | _ => none

set_option maxRecDepth 100000 in
example : (demoOut (routeNet (fun z => 4 * z) (fun _ k => k) 40 demoPins demoNetGrid)).map (fun o => (o.1, o.2.1, o.2.2.length)) =
    some (true, 2, 5) := by decide

set_option maxRecDepth 100000 in
example : (demoOut (routeNet (fun z => 4 * z) (fun _ k => k) 40 demoPins (demoNetGrid.removeEdge ⟨2, 0, 0⟩ .N).1)).map
    (fun o => (o.1, o.2.1, o.2.2.length)) = some (false, 2, 2) := by decide

example : SmallCoords demoNetGrid (fun z => if z = 0 then 0 else 4) := by
  refine ⟨by decide, by decide, ?_⟩
  intro z; dsimp only; split <;> decide

end TR
