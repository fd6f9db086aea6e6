import Verif.Seek.Props
/-! Concrete instances for C91–C94, and the witness that the search is not always optimal. -/
namespace TR

/-- position of an entry that none beats, by a scan that keeps the best so far -/
def scanTop : Nat → SeekEnt → Nat → List SeekEnt → Nat
  | b, _, _, [] => b
  | b, h, i, k :: ks => if WaveKey.lt h.key k.key then scanTop i k (i + 1) ks else scanTop b h (i + 1) ks

/-- the frontier order of the router, realised by a scan over the open entries -/
def firstTop : List SeekEnt → Nat
  | [] => 0
  | h :: ks => scanTop 0 h 1 ks

theorem scanTop_spec (q : List SeekEnt) : ∀ (ks : List SeekEnt) (b : Nat) (h : SeekEnt) (i : Nat),
    q[b]? = some h → q.drop i = ks → (∀ k ∈ q.take i, ¬ WavePrefer k.key h.key) →
    ∃ a, q[scanTop b h i ks]? = some a ∧ ∀ k ∈ q, ¬ WavePrefer k.key a.key := by
  intro ks
  induction ks with
  | nil =>
    intro b h i h1 h2 h3
    refine ⟨h, h1, fun k hk => h3 k ?_⟩
    rw [List.take_of_length_le (List.drop_eq_nil_iff.1 h2)]; exact hk
  | cons k ks ih =>
    intro b h i h1 h2 h3
    have hi : q[i]? = some k := by
      have := congrArg (fun l => l[0]?) h2
      simpa using this
    have hd : q.drop (i + 1) = ks := by
      rw [← List.tail_drop, h2]; rfl
    have ht : q.take (i + 1) = q.take i ++ [k] := by
      rw [List.take_add_one, hi]; rfl
    simp only [scanTop]
    split
    · rename_i hlt
      rw [wlt_iff] at hlt
      refine ih i k (i + 1) hi hd fun j hj => ?_
      rw [ht, List.mem_append, List.mem_singleton] at hj
      rcases hj with hj | rfl
      · have := h3 j hj
        simp only [WavePrefer] at *; omega
      · simp only [WavePrefer]; omega
    · rename_i hlt
      rw [wlt_iff] at hlt
      refine ih b h (i + 1) h1 hd fun j hj => ?_
      rw [ht, List.mem_append, List.mem_singleton] at hj
      rcases hj with hj | rfl
      · exact h3 j hj
      · exact hlt

theorem firstTop_isTop : IsTop firstTop := by
  intro q hq
  cases q with
  | nil => exact absurd rfl hq
  | cons h ks =>
    refine scanTop_spec (h :: ks) ks 0 h 1 rfl rfl fun k hk => ?_
    simp only [List.take_succ_cons, List.take_zero, List.mem_singleton] at hk
    subst hk
    simp only [WavePrefer]; omega

/-- a grid without edges, with guides everywhere if `gd` -/
def bareGrid (xs ys zs : List Int) (gd : Bool) : Grid :=
  { xs, ys, zs, zDir := fun _ => true, bits := fun _ => 0#64, srcs := fun _ => false, dsts := fun _ => false,
    guides := fun _ => gd, prevs := fun _ => false }

theorem bareGrid_noEdge (xs ys zs : List Int) (gd : Bool) (n : MIdx) (d : Dir) :
    (bareGrid xs ys zs gd).hasEdge n d = false := by
  rw [hasEdge_key]
  cases d <;> simp [edgeKey, edgeHome, byAxis, Grid.attr, bareGrid]

theorem bare_ready (xs ys zs : List Int) (gd : Bool) (ops : List GOp) (a b : MIdx)
    (hl : ∀ op ∈ ops, op.Legal (bareGrid xs ys zs gd)) (g : Grid)
    (hg : g = (((bareGrid xs ys zs gd).run ops).setSrc a).setDst b) (ha : g.On a)
    (hs : ∀ n ∈ gnodes g, (g.isSrc n = true ↔ n ∈ [a])) (hp : ∀ n ∈ gnodes g, g.getPrevDir n = .UNKNOWN) :
    g.Ready [a] := by
  refine ⟨?_, by simpa using ha, fun n hn => hs n ((mem_gnodes _ _).2 hn), fun n hn => hp n ((mem_gnodes _ _).2 hn)⟩
  intro n d h
  subst hg
  rw [hasEdge_flags] at h
  rw [on_flags, on_flags, on_run _ _ hl, on_run _ _ hl]
  exact c09_edges_stay_on_grid ops _ hl (fun n d h => by rw [bareGrid_noEdge] at h; simp at h) n d h

/-! ## The search is not optimal -/

def bendOps : List GOp :=
  let b : Box := ⟨⟨0, 0⟩, ⟨3, 4⟩⟩
  [.addEdge ⟨0, 0, 0⟩ .E b false, .addEdge ⟨0, 0, 0⟩ .N b false, .addEdge ⟨0, 1, 0⟩ .E b false,
   .addEdge ⟨1, 0, 0⟩ .N b false, .addEdge ⟨1, 1, 0⟩ .E b false, .addEdge ⟨1, 1, 0⟩ .N b false,
   .addEdge ⟨1, 2, 0⟩ .E b false, .addEdge ⟨2, 0, 0⟩ .N b false,
   .setGridCost ⟨0, 1, 0⟩ .E, .setGridCost ⟨1, 0, 0⟩ .N]

/-- two equally long ways to the middle of the grid; only the one that arrives going north avoids
a bend afterwards -/
def bendGrid : Grid := (((bareGrid [0, 2, 3] [0, 2, 4] [2] true).run bendOps).setSrc ⟨0, 0, 0⟩).setDst ⟨2, 2, 0⟩

def bendTech : SeekTech := ⟨[0], 8, 32, false, fun _ => 2, [], []⟩

set_option maxRecDepth 10000 in
theorem bend_ready : bendGrid.SeekReady bendTech [⟨0, 0, 0⟩] [⟨2, 2, 0⟩] where
  ready := bare_ready [0, 2, 3] [0, 2, 4] [2] true bendOps _ ⟨2, 2, 0⟩ (by
      intro op h
      simp only [bendOps, List.mem_cons, List.not_mem_nil, or_false] at h
      rcases h with h | h | h | h | h | h | h | h | h | h <;> subst h <;> first | exact Or.inl rfl | decide +kernel)
    bendGrid rfl (by decide +kernel) (by decide +kernel) (by decide +kernel)
  xInc := by decide +kernel
  yInc := by decide +kernel
  hInc := by decide +kernel
  hLen := rfl
  apsOn := by decide +kernel
  dst := by
    intro m hm
    have : ∀ m ∈ gnodes bendGrid, bendGrid.isDst m = true → m ∈ [(⟨2, 2, 0⟩ : MIdx)] := by decide +kernel
    exact this m ((mem_gnodes _ _).2 hm)

/-- C93: the bound is not 0: on this grid, with nothing blocked, no forbidden distances and the
frontier served exactly in the order of the router, the reported path costs 14 although one of
cost 13 exists. -/
theorem c93_not_optimal : ∃ (g : Grid) (T : SeekTech) (comps aps : List MIdx) (r : SearchResult) (cost : Nat)
    (w : Walk) (s n : MIdx), g.SeekReady T comps aps ∧ IsTop firstTop ∧
    g.seek T ⟨3, 4⟩ firstTop 60 comps aps = some (r, cost) ∧ r.found = true ∧ s ∈ comps ∧ g.Walks s w n ∧
    g.isDst n = true ∧ Walk.cost g T w < cost := by
  have h : ∃ x, bendGrid.seek bendTech ⟨3, 4⟩ firstTop 60 [⟨0, 0, 0⟩] [⟨2, 2, 0⟩] = some x ∧ x.1.found = true ∧
      x.2 = 14 := by
    have : ((bendGrid.seek bendTech ⟨3, 4⟩ firstTop 60 [⟨0, 0, 0⟩] [⟨2, 2, 0⟩]).map (fun x => (x.1.found, x.2))) =
        some (true, 14) := by decide +kernel
    rw [Option.map_eq_some_iff] at this
    obtain ⟨x, h1, h2⟩ := this
    simp only [Prod.mk.injEq] at h2
    exact ⟨x, h1, h2.1, h2.2⟩
  obtain ⟨x, h1, h2, h3⟩ := h
  refine ⟨bendGrid, bendTech, _, _, x.1, x.2, [(⟨1, 2, 0⟩, .E), (⟨1, 1, 0⟩, .N), (⟨1, 0, 0⟩, .N), (⟨0, 0, 0⟩, .E)],
    ⟨0, 0, 0⟩, ⟨2, 2, 0⟩, bend_ready, firstTop_isTop, h1, h2, by simp, ?_, by decide +kernel, ?_⟩
  · exact .step _ _ _ (.step _ _ _ (.step _ _ _ (.step _ _ _ .here (by decide +kernel)) (by decide +kernel)) (by decide +kernel)) (by decide +kernel)
  · rw [h3]; decide +kernel

/-! ## A grid with vias and forbidden distances -/

def viaOps : List GOp :=
  let b : Box := ⟨⟨0, 0⟩, ⟨25, 7⟩⟩
  [.addEdge ⟨0, 0, 0⟩ .U b false, .addEdge ⟨0, 0, 1⟩ .E b false, .addEdge ⟨1, 0, 1⟩ .N b false,
   .addEdge ⟨1, 1, 0⟩ .U b false, .addEdge ⟨1, 0, 1⟩ .E b false, .setBlocked ⟨1, 0, 1⟩ .N]

def viaGrid : Grid := (((bareGrid [0, 10, 25] [0, 7] [2, 4] false).run viaOps).setSrc ⟨0, 0, 0⟩).setDst ⟨1, 1, 0⟩

/-- on the upper layer a turn 5 to 12 from the via below, and two vias at a distance of 5 to 12 in
both directions, are forbidden -/
def viaTech : SeekTech :=
  { heights := [0, 20], drc := 8, marker := 32, late := false, width := fun _ => 2,
    v2v := [[], [[(5, 12)], [(5, 12)]]], vturn := [[], [[(5, 12)], [(5, 12)]]] }

theorem via_ready : viaGrid.SeekReady viaTech [⟨0, 0, 0⟩] [⟨1, 1, 0⟩] where
  ready := bare_ready [0, 10, 25] [0, 7] [2, 4] false viaOps _ ⟨1, 1, 0⟩ (by
      intro op h
      simp only [viaOps, List.mem_cons, List.not_mem_nil, or_false] at h
      rcases h with h | h | h | h | h | h <;> subst h <;> first | exact Or.inl rfl | decide +kernel)
    viaGrid rfl (by decide +kernel) (by decide +kernel) (by decide +kernel)
  xInc := by decide +kernel
  yInc := by decide +kernel
  hInc := by decide +kernel
  hLen := rfl
  apsOn := by decide +kernel
  dst := by
    intro m hm
    have : ∀ m ∈ gnodes viaGrid, viaGrid.isDst m = true → m ∈ [(⟨1, 1, 0⟩ : MIdx)] := by decide +kernel
    exact this m ((mem_gnodes _ _).2 hm)

/-- the search finds the way U, E, N, D: weights 40 + 20 + 14 + 1280 + 40, three bends, the turn
penalty 32·7 and the via penalty 8·20 -/
example : ((viaGrid.seek viaTech ⟨10, 7⟩ firstTop 60 [⟨0, 0, 0⟩] [⟨1, 1, 0⟩]).map
    (fun x => (x.1.found, cells x.1.path, x.2))) =
    some (true, [⟨1, 1, 0⟩, ⟨1, 1, 1⟩, ⟨1, 0, 1⟩, ⟨0, 0, 1⟩, ⟨0, 0, 0⟩], 40 + 20 + 14 + 1280 + 40 + 3 + 32 * 7 + 8 * 20) := by
  decide +kernel

example : Walk.cost viaGrid viaTech [(⟨1, 1, 1⟩, .D), (⟨1, 0, 1⟩, .N), (⟨0, 0, 1⟩, .E), (⟨0, 0, 0⟩, .U)] = 1781 := by
  decide +kernel

/-- the later iterations swap the two factors -/
example : Walk.cost viaGrid { viaTech with late := true } [(⟨1, 1, 1⟩, .D), (⟨1, 0, 1⟩, .N), (⟨0, 0, 1⟩, .E), (⟨0, 0, 0⟩, .U)] =
    40 + 20 + 14 + 1280 + 40 + 3 + 8 * 7 + 32 * 20 := by
  decide +kernel

/-- C92 on this grid: at the start of the upper layer, going up, 37 remain to the pin and two bends -/
example : viaGrid.estCost viaTech (viaGrid.pinBox [⟨1, 1, 0⟩]).1 (viaGrid.pinBox [⟨1, 1, 0⟩]).2 ⟨0, 0, 1⟩ .U = 37 + 2 := by
  decide +kernel

/-- C93 on this grid: no edge carries a penalty above 32·20 -/
example : ∀ n ∈ gnodes viaGrid, ∀ d ∈ [Dir.E, .S, .W, .N, .U, .D], viaGrid.hasEdge n d = true →
    max viaTech.drc viaTech.marker * viaGrid.gap viaTech n (n.nbr d) ≤ 640 := by decide +kernel

end TR
