import Verif.Astar.Sim
/-! Property theorems C14–C17: the maze search. -/
namespace TR
open Abs (back nbr_back back_push View Ent St)

/-! ## Fuel -/

theorem traceGrid_fuel (g : Grid) : ∀ (f : Nat) (t t' : Trace), g.traceGrid f t = some t' →
    ∀ f' ≥ f, g.traceGrid f' t = some t'
  | 0, t, t', h, _, _ => by simp [Grid.traceGrid] at h
  | f + 1, t, t', h, f', hf => by
    obtain ⟨f', rfl⟩ : ∃ j, f' = j + 1 := ⟨f' - 1, by omega⟩
    simp only [Grid.traceGrid] at h ⊢
    split at h
    · rename_i hs; rw [if_pos hs]; exact h
    · rename_i hs; rw [if_neg hs]
      split at h
      · rename_i hd; rw [if_pos hd]; exact h
      · rename_i hd; rw [if_neg hd]; exact traceGrid_fuel g f _ _ h f' (by omega)

theorem traceBack_fuel (g : Grid) (f f' : Nat) (hf : f ≤ f') (e : GEnt) (t : Trace)
    (h : g.traceBackPath f e = some t) : g.traceBackPath f' e = some t := by
  simp only [Grid.traceBackPath] at h ⊢
  split at h
  · simp at h
  · rename_i t0 h0
    rw [traceGrid_fuel g f _ _ h0 f' hf]
    exact h

theorem searchLoop_fuel (pick : Nat → Nat) : ∀ (f k : Nat) (g : Grid) (q) (r),
    Grid.searchLoop pick f k g q = some r → ∀ f' ≥ f, Grid.searchLoop pick f' k g q = some r
  | 0, k, g, q, r, h, _, _ => by simp [Grid.searchLoop] at h
  | f + 1, k, g, q, r, h, f', hf => by
    obtain ⟨f', rfl⟩ : ∃ j, f' = j + 1 := ⟨f' - 1, by omega⟩
    simp only [Grid.searchLoop] at h ⊢
    split at h
    · exact h
    · split at h
      · rw [if_pos (by assumption)]; exact searchLoop_fuel pick f _ _ _ _ h f' (by omega)
      · split at h
        · rw [if_neg (by assumption), if_pos (by assumption)]; exact h
        · rw [if_neg (by assumption), if_neg (by assumption)]; exact searchLoop_fuel pick f _ _ _ _ h f' (by omega)

/-! ## The initial state -/

def initSt (comps : List MIdx) : St := ⟨comps.map (fun n => ⟨n, .UNKNOWN, .UNKNOWN, [n]⟩), fun _ => .UNKNOWN⟩

theorem sim_init {g : Grid} {comps} (h : g.Ready comps) :
    Sim g g (comps.map (fun n => ⟨n, 0#6⟩)) (initSt comps) := by
  refine ⟨rfl, h.clear, ?_⟩
  simp only [initSt, List.map_map]
  apply List.map_congr_left
  intro n _
  simp [erase, enc, Dir.code]

theorem inv_init {g : Grid} {comps} (h : g.Ready comps) : Abs.Inv (gview g) (gnodes g) (initSt comps) :=
  Abs.init_inv comps
    (fun r hr => by simp [gview, h.on r hr, (h.src r (h.on r hr)).2 hr])
    (fun r hr => (mem_gnodes g r).2 (h.on r hr))

theorem cov_init {g : Grid} {comps} (h : g.Ready comps) : ∃ SB, Abs.Cov (gview g) (initSt comps) SB :=
  ⟨_, Abs.init_cov comps (fun r hr => by
    simp [gview] at hr
    exact (h.src r hr.1).1 hr.2)⟩

theorem chain_consecutive {g : Grid} {p : MIdx → Dir} {w : List MIdx} (h : Abs.Chain (gview g) p w) :
    Consecutive (fun u v => ∃ d, v = u.nbr d ∧ g.hasEdge u d = true) w ∧
    (∃ r, w.getLast? = some r ∧ g.On r ∧ g.isSrc r = true) ∧
    (∀ m ∈ w.dropLast, g.On m → g.isSrc m = false) := by
  induction h with
  | root r hr =>
    simp [gview] at hr
    exact ⟨trivial, ⟨r, rfl, hr⟩, by simp⟩
  | step v d w h1 h2 h3 h4 _ ih =>
    refine ⟨⟨⟨d.opp, rfl, ?_⟩, ih.1⟩, ?_, ?_⟩
    · have := (c09_symmetric g (back v d) d)
      rw [nbr_back] at this
      rw [← this]; exact h2
    · simpa [List.getLast?_cons_cons] using ih.2.1
    · intro m hm hon
      rcases List.mem_cons.1 hm with rfl | hm
      · simp [gview, hon] at h1; exact h1
      · exact ih.2.2 m hm hon

theorem shape_consecutive {g : Grid} {p : MIdx → Dir} {e : Ent} (h : Abs.Shape (gview g) p e) :
    Consecutive (fun u v => ∃ d, v = u.nbr d ∧ g.hasEdge u d = true) e.walk ∧
    (∃ r, e.walk.getLast? = some r ∧ g.On r ∧ g.isSrc r = true) ∧
    (∀ m ∈ e.walk.dropLast, g.On m → g.isSrc m = false) := by
  have sym : ∀ v d, g.hasEdge (back v d) d = true → g.hasEdge v d.opp = true := by
    intro v d h2
    have := (c09_symmetric g (back v d) d)
    rw [nbr_back] at this
    rw [← this]; exact h2
  cases h with
  | root n hr =>
    simp [gview] at hr
    exact ⟨trivial, ⟨n, rfl, hr⟩, by simp⟩
  | one n d hd hn he hs =>
    simp [gview] at hs
    refine ⟨⟨⟨d.opp, rfl, sym _ _ he⟩, trivial⟩, ⟨_, rfl, hs⟩, ?_⟩
    intro m hm hon
    simp at hm; subst hm
    simp [gview, hon] at hn; exact hn
  | two n d1 d2 t a b hn hn1 he1 he2 hc =>
    obtain ⟨c1, c2, c3⟩ := chain_consecutive hc
    refine ⟨⟨⟨d1.opp, rfl, sym _ _ he1⟩, ⟨d2.opp, rfl, sym _ _ he2⟩, c1⟩, ?_, ?_⟩
    · simpa [List.getLast?_cons_cons] using c2
    · intro m hm hon
      rcases List.mem_cons.1 hm with rfl | hm
      · simp [gview, hon] at hn; exact hn
      · rcases List.mem_cons.1 hm with rfl | hm
        · simp [gview, hon] at hn1; exact hn1
        · exact c3 m hm hon

/-- everything the search guarantees about a path it reports, in one place -/
structure GoodPath (g : Grid) (comps path : List MIdx) : Prop where
  head : ∃ a, path.head? = some a ∧ g.isDst a = true
  last : ∃ b, path.getLast? = some b ∧ b ∈ comps
  straight : Consecutive Straight path
  turns : Consecutive (· ≠ ·) (legDirs path)
  on : ∀ m ∈ cells path, g.On m
  edges : Consecutive (fun u v => ∃ d, v = u.nbr d ∧ g.hasEdge u d = true) (cells path)
  nodup : (cells path).Nodup
  nodst : ∀ m ∈ (cells path).tail, g.isDst m = false
  nosrc : ∀ m ∈ (cells path).dropLast, m ∉ comps

theorem getLast_cells (path : List MIdx) : (cells path).getLast? = path.getLast? := by
  simp only [cells]
  cases h : path.getLast? with
  | none =>
    have : path = [] := by simpa using h
    subst this; rfl
  | some a => simp

theorem search_found {g : Grid} {comps : List MIdx} {pick fuel r} (hr : g.Ready comps)
    (h : g.search pick fuel comps = some r) (hf : r.found = true) :
    GoodPath g comps r.path ∧ r.warn = false ∧ r.comps = comps ++ (cells r.path).dropLast ∧
    r.grid = { g with prevs := r.grid.prevs } := by
  unfold Grid.search at h
  split at h
  · rename_i idx hfd
    simp only [Option.some.injEq] at h
    subst h
    have h1 := List.find?_some hfd
    have h2 := List.mem_of_find?_eq_some hfd
    refine ⟨⟨⟨idx, rfl, h1⟩, ⟨idx, rfl, h2⟩, trivial, trivial, ?_, trivial, ?_, ?_, ?_⟩, rfl, ?_, rfl⟩
    · intro m hm; simp [cells, openCells] at hm; exact hm ▸ hr.on _ h2
    · simp [cells, openCells]
    · intro m hm; simp [cells, openCells] at hm
    · intro m hm; simp [cells, openCells] at hm
    · simp [cells, openCells]
  · rename_i hfd
    rcases sim_loop hr.edges pick fuel 0 g _ (initSt comps) (sim_init hr) (inv_init hr) with ⟨_, h2⟩ | ⟨s', re, g', q', h1, h2, h3⟩
    · rw [h2] at h; simp at h
    · rw [h2] at h
      cases re with
      | none => simp at h; subst h; simp at hf
      | some e =>
        simp only [Option.map_some] at h
        obtain ⟨heok, hdst, _⟩ := Abs.loop_found (edgesIn_gview hr.edges) pick fuel 0 _ _ _ (inv_init hr) h1
        simp only [gview, Bool.and_eq_true, decide_eq_true_eq] at hdst
        have hns : g.isSrc e.n = false := by
          cases hs : g.isSrc e.n with
          | false => rfl
          | true =>
            have hm := (hr.src _ hdst.1).1 hs
            have := List.find?_eq_none.1 hfd _ hm
            exact absurd hdst.2 this
        split at h
        · simp at h
        · rename_i t ht
          obtain ⟨t', a1, a2, a3, a4, a5, a6, a7, a8⟩ := trace_walk h3 e heok hns (max fuel e.walk.length) (Nat.le_max_right _ _)
          rw [traceBack_fuel g' fuel _ (Nat.le_max_left _ _) _ _ ht] at a1
          simp only [Option.some.injEq] at a1
          subst a1
          simp only [Option.some.injEq] at h
          subst h
          obtain ⟨b1, ⟨rr, b2, b3, b4⟩, b5⟩ := shape_consecutive heok.shape
          have hall : ∀ m ∈ e.walk, g.On m := fun m hm => (mem_gnodes g m).1 (heok.sub hm)
          refine ⟨⟨⟨e.n, a4, hdst.2⟩, ⟨rr, ?_, ?_⟩, a7, a8, ?_, ?_, ?_, ?_, ?_⟩, a2, ?_, h3.same⟩
          · rw [← getLast_cells, a5]; exact b2
          · exact (hr.src _ b3).1 b4
          · rw [a5]; exact hall
          · rw [a5]; exact b1
          · rw [a5]; exact heok.nodup
          · rw [a5]; intro m hm
            have h1 := heok.nodst m hm
            have h2 := hall m (List.mem_of_mem_tail hm)
            simp only [gview, h2, decide_true, Bool.true_and] at h1; exact h1
          · rw [a5]; intro m hm hc
            have h1 := b5 m hm (hall m (List.dropLast_subset _ hm))
            rw [(hr.src m (hr.on m hc)).2 hc] at h1
            simp at h1
          · show comps ++ t.root = _
            rw [a5, a6]

/-- C14: a path reported by the search starts at a destination, ends at a node of the source
component, runs straight and turns at every corner point, and every unit step along it crosses an
existing edge between grid nodes; no warning is printed, the component list is extended by exactly
the new nodes of the path in order, and nothing but predecessor labels changes in the grid. -/
theorem c14_path_is_routable (g : Grid) (comps : List MIdx) (pick : Nat → Nat) (fuel : Nat) (r : SearchResult)
    (hr : g.Ready comps) (h : g.search pick fuel comps = some r) (hf : r.found = true) :
    (∃ a, r.path.head? = some a ∧ g.isDst a = true) ∧ (∃ b, r.path.getLast? = some b ∧ b ∈ comps) ∧
    Consecutive Straight r.path ∧ Consecutive (· ≠ ·) (legDirs r.path) ∧ (∀ m ∈ cells r.path, g.On m) ∧
    Consecutive (fun u v => ∃ d, v = u.nbr d ∧ g.hasEdge u d = true) (cells r.path) ∧
    r.warn = false ∧ r.comps = comps ++ (cells r.path).dropLast ∧
    r.grid = { g with prevs := r.grid.prevs } := by
  obtain ⟨p, a, b, c⟩ := search_found hr h hf
  exact ⟨p.head, p.last, p.straight, p.turns, p.on, p.edges, a, b, c⟩

/-- A small maze for the examples: 4x3x2 nodes, a route E,E,N,U and a detour, one source, one
destination. -/
def demoOps : List GOp :=
  [.addEdge ⟨0, 0, 0⟩ .E ⟨⟨0, 0⟩, ⟨30, 20⟩⟩ false, .addEdge ⟨1, 0, 0⟩ .E ⟨⟨0, 0⟩, ⟨30, 20⟩⟩ false,
   .addEdge ⟨2, 0, 0⟩ .N ⟨⟨0, 0⟩, ⟨30, 20⟩⟩ false, .addEdge ⟨2, 1, 0⟩ .U ⟨⟨0, 0⟩, ⟨30, 20⟩⟩ false,
   .addEdge ⟨0, 0, 0⟩ .N ⟨⟨0, 0⟩, ⟨30, 20⟩⟩ false, .addEdge ⟨0, 1, 0⟩ .E ⟨⟨0, 0⟩, ⟨30, 20⟩⟩ false]

def demoMaze : Grid := ((demoGrid.run demoOps).setSrc ⟨0, 0, 0⟩).setDst ⟨2, 1, 1⟩

theorem on_run (ops : List GOp) : ∀ (g : Grid), (∀ op ∈ ops, op.Legal g) → ∀ n, (g.run ops).On n ↔ g.On n := by
  induction ops with
  | nil => intro g _ n; exact Iff.rfl
  | cons op ops ih =>
    intro g hl n
    have h1 := hl op (by simp)
    have := ih (g.step op) (fun o ho => legal_step g op o h1 (hl o (by simp [ho]))) n
    rw [on_step g op h1] at this
    exact this

theorem hasEdge_flags (g : Grid) (a b n : MIdx) (d : Dir) :
    ((g.setSrc a).setDst b).hasEdge n d = g.hasEdge n d := rfl

theorem on_flags (g : Grid) (a b n : MIdx) : ((g.setSrc a).setDst b).On n ↔ g.On n := Iff.rfl

theorem demoOps_legal : ∀ op ∈ demoOps, op.Legal demoGrid := by
  intro op h
  simp only [demoOps, List.mem_cons, List.not_mem_nil, or_false] at h
  rcases h with h | h | h | h | h | h <;> subst h <;> exact Or.inl rfl

theorem demoGrid_noEdge (n : MIdx) (d : Dir) : demoGrid.hasEdge n d = false := by
  rw [hasEdge_key]
  cases d <;> simp [edgeKey, edgeHome, byAxis, Grid.attr, demoGrid]

theorem demoMaze_ready : demoMaze.Ready [⟨0, 0, 0⟩] := by
  refine ⟨?_, by decide, ?_, ?_⟩
  · intro n d h
    unfold demoMaze at h ⊢
    rw [hasEdge_flags] at h
    rw [on_flags, on_flags, on_run _ _ demoOps_legal, on_run _ _ demoOps_legal]
    exact c09_edges_stay_on_grid demoOps demoGrid demoOps_legal
      (fun n d h => by rw [demoGrid_noEdge] at h; simp at h) n d h
  · intro n hn
    have : ∀ n ∈ gnodes demoMaze, (demoMaze.isSrc n = true ↔ n ∈ [(⟨0, 0, 0⟩ : MIdx)]) := by decide
    exact this n ((mem_gnodes _ _).2 hn)
  · intro n hn
    have : ∀ n ∈ gnodes demoMaze, demoMaze.getPrevDir n = .UNKNOWN := by decide
    exact this n ((mem_gnodes _ _).2 hn)

example : (demoMaze.search (fun k => k) 20 [⟨0, 0, 0⟩]).map (fun r => (r.found, r.path, r.comps)) =
    some (true, [⟨2, 1, 1⟩, ⟨2, 1, 0⟩, ⟨2, 0, 0⟩, ⟨0, 0, 0⟩],
      [⟨0, 0, 0⟩, ⟨2, 1, 1⟩, ⟨2, 1, 0⟩, ⟨2, 0, 0⟩, ⟨1, 0, 0⟩]) := by decide

example : ((demoMaze.removeEdge ⟨2, 0, 0⟩ .N).1.search (fun k => k) 20 [⟨0, 0, 0⟩]).map (fun r => r.found) =
    some false := by decide

/-- C17: a reported path is simple, meets the destination set only at its start and the source
component only at its end. -/
theorem c17_path_simple (g : Grid) (comps : List MIdx) (pick : Nat → Nat) (fuel : Nat) (r : SearchResult)
    (hr : g.Ready comps) (h : g.search pick fuel comps = some r) (hf : r.found = true) :
    (cells r.path).Nodup ∧ (∀ m ∈ (cells r.path).tail, g.isDst m = false) ∧
    (∀ m ∈ (cells r.path).dropLast, m ∉ comps) := by
  obtain ⟨p, _⟩ := search_found hr h hf
  exact ⟨p.nodup, p.nodst, p.nosrc⟩

/-- C15: the search always terminates: whatever the costs and the tie-breaking (`pick`), a number
of rounds bounded by the number of grid nodes suffices, and the answer does not depend on the
bound. -/
theorem c15_search_terminates (g : Grid) (comps : List MIdx) (pick : Nat → Nat) (hr : g.Ready comps) :
    ∃ r, ∀ fuel, comps.length * 7 ^ (g.xs.length * (g.ys.length * g.zs.length)) +
        g.xs.length * (g.ys.length * g.zs.length) + 1 ≤ fuel →
      g.search pick fuel comps = some r := by
  have hN := gnodes_length g
  generalize hNN : g.xs.length * (g.ys.length * g.zs.length) = N at *
  have hm : Abs.meas N (initSt comps).q = comps.length * 7 ^ N := by
    simp only [Abs.meas, initSt, List.map_map]
    have : (fun e : Ent => 7 ^ (N + 1 - e.walk.length)) ∘ (fun n : MIdx => (⟨n, .UNKNOWN, .UNKNOWN, [n]⟩ : Ent)) = fun _ => 7 ^ N := by
      funext n; simp
    rw [this, sum_map_const]
  cases hfd : comps.find? g.isDst with
  | some idx => exact ⟨_, fun fuel _ => by simp only [Grid.search, hfd]; rfl⟩
  | none =>
    let F := comps.length * 7 ^ N + 1
    have hne := Abs.loop_terminates (edgesIn_gview hr.edges) pick F 0 (initSt comps) (inv_init hr)
      (by rw [hN, hm]; exact Nat.lt_succ_self _)
    rcases sim_loop hr.edges pick F 0 g _ (initSt comps) (sim_init hr) (inv_init hr) with ⟨h1, _⟩ | ⟨s', re, g', q', h1, h2, h3⟩
    · exact absurd h1 hne
    · have hbig := searchLoop_fuel pick _ _ _ _ _ h2
      cases re with
      | none =>
        refine ⟨⟨false, [], comps, false, g'⟩, fun fuel hfuel => ?_⟩
        simp only [Grid.search, hfd, hbig fuel (by omega)]
        rfl
      | some e =>
        obtain ⟨heok, hdst, _⟩ := Abs.loop_found (edgesIn_gview hr.edges) pick F 0 _ _ _ (inv_init hr) h1
        simp only [gview, Bool.and_eq_true, decide_eq_true_eq] at hdst
        have hns : g.isSrc e.n = false := by
          cases hs : g.isSrc e.n with
          | false => rfl
          | true => exact absurd hdst.2 (List.find?_eq_none.1 hfd _ ((hr.src _ hdst.1).1 hs))
        have hlen := Abs.nodup_length_le _ _ heok.nodup heok.sub
        obtain ⟨t', a1, _⟩ := trace_walk h3 e heok hns N (by omega)
        refine ⟨⟨true, t'.path, comps ++ t'.root, t'.warn, g'⟩, fun fuel hfuel => ?_⟩
        simp only [Grid.search, hfd, hbig fuel (by omega), Option.map_some]
        rw [traceBack_fuel g' N fuel (by omega) _ _ a1]

theorem reach_of_walk (g : Grid) (comps : List MIdx) : ∀ (l : List MIdx) (b : MIdx),
    Consecutive (fun u v => ∃ d, v = u.nbr d ∧ g.hasEdge u d = true) l → l.getLast? = some b → b ∈ comps →
    ∀ m ∈ l, g.Reach comps m
  | [], b, _, h, _ => by simp at h
  | [a], b, _, h, hb => by
    intro m hm
    simp at h hm; subst h; subst hm; exact .start _ hb
  | a :: c :: t, b, hc, h, hb => by
    have ih := reach_of_walk g comps (c :: t) b hc.2 (by simpa [List.getLast?_cons_cons] using h) hb
    intro m hm
    rcases List.mem_cons.1 hm with rfl | hm
    · obtain ⟨d, h1, h2⟩ := hc.1
      have := c09_symmetric g m d
      rw [h2, ← h1] at this
      have h3 := Grid.Reach.step c d.opp (ih c (by simp)) this.symm
      rw [h1, Abs.nbr_opp] at h3
      exact h3
    · exact ih m hm

theorem reach_abs {g : Grid} {comps} (hr : g.Ready comps) (n : MIdx) (h : g.Reach comps n) :
    Abs.Reach (gview g) n ∧ g.On n := by
  induction h with
  | start n hn => exact ⟨.src n (by simp [gview, hr.on n hn, (hr.src n (hr.on n hn)).2 hn]), hr.on n hn⟩
  | step n d _ he ih => exact ⟨.step n d ih.1 he, (hr.edges _ _ he).2⟩

/-- C16: the search reports success exactly when some destination node is reachable from the
source component over existing edges. -/
theorem c16_finds_iff_reachable (g : Grid) (comps : List MIdx) (pick : Nat → Nat) (fuel : Nat) (r : SearchResult)
    (hr : g.Ready comps) (h : g.search pick fuel comps = some r) :
    r.found = true ↔ ∃ n, g.Reach comps n ∧ g.isDst n = true := by
  constructor
  · intro hf
    obtain ⟨p, _⟩ := search_found hr h hf
    obtain ⟨a, ha, had⟩ := p.head
    obtain ⟨b, hb, hbc⟩ := p.last
    refine ⟨a, reach_of_walk g comps (cells r.path) b p.edges (by rw [getLast_cells]; exact hb) hbc a ?_, had⟩
    cases hp : r.path with
    | nil => rw [hp] at ha; simp at ha
    | cons x l =>
      rw [hp] at ha; simp at ha; subst ha
      cases l with
      | nil => simp [cells, openCells]
      | cons y l =>
        have hst := p.straight
        rw [hp] at hst
        have : x ∈ cellsTo x y := by
          simp only [cellsTo, List.mem_map, List.mem_range]
          refine ⟨0, ?_, by simp [MIdx.move]⟩
          rcases hst.1 with hh | hh | hh <;> omega
        simp [cells, openCells, this]
  · rintro ⟨n, hn, hd⟩
    cases hf : r.found with
    | true => rfl
    | false =>
      exfalso
      unfold Grid.search at h
      split at h
      · simp only [Option.some.injEq] at h; subst h; simp at hf
      · rcases sim_loop hr.edges pick fuel 0 g _ (initSt comps) (sim_init hr) (inv_init hr) with ⟨_, h2⟩ | ⟨s', re, g', q', h1, h2, h3⟩
        · rw [h2] at h; simp at h
        · rw [h2] at h
          cases re with
          | some e =>
            simp only [Option.map_some] at h
            split at h
            · simp at h
            · simp only [Option.some.injEq] at h; subst h; simp at hf
          | none =>
            obtain ⟨hq, SB, hc⟩ := Abs.loop_fail (edgesIn_gview hr.edges) pick fuel 0 _ _ (inv_init hr)
              (fun _ _ => rfl) (cov_init hr) h1
            obtain ⟨ha, hon⟩ := reach_abs hr n hn
            obtain ⟨d, hsb⟩ := Abs.reach_served hq hc n ha
            have := hc.nodst n d hsb
            simp only [gview, hon, decide_true, Bool.true_and] at this
            rw [hd] at this; simp at this

end TR
