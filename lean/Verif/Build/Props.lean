import Verif.Build.Edges
/-! Property theorems C85–C87: the coordinates, edges and off-track marks of a new maze grid. -/
namespace TR

theorem run_fixed (ops : List GOp) : ∀ (g : Grid), (∀ op ∈ ops, op.Legal g) →
    (g.run ops).xs = g.xs ∧ (g.run ops).ys = g.ys ∧ (g.run ops).zs = g.zs ∧ (g.run ops).zDir = g.zDir ∧
    (g.run ops).srcs = g.srcs ∧ (g.run ops).dsts = g.dsts ∧ (g.run ops).guides = g.guides ∧
    (g.run ops).prevs = g.prevs := by
  induction ops with
  | nil => intro g _; exact ⟨rfl, rfl, rfl, rfl, rfl, rfl, rfl, rfl⟩
  | cons op ops ih =>
    intro g hl
    have h1 := hl op (by simp)
    have ih' := ih (g.step op) (fun o ho => legal_step g op o h1 (hl o (List.mem_cons_of_mem _ ho)))
    have e1 : (g.run (op :: ops)) = (g.step op).run ops := rfl
    rw [e1]
    have e2 : (g.step op).xs = g.xs ∧ (g.step op).ys = g.ys ∧ (g.step op).zs = g.zs ∧
        (g.step op).zDir = g.zDir ∧ (g.step op).srcs = g.srcs ∧ (g.step op).dsts = g.dsts ∧
        (g.step op).guides = g.guides ∧ (g.step op).prevs = g.prevs := by
      rcases step_normal g op h1 with h | ⟨n, a, v, _, _, h⟩ <;> rw [h]
      · exact ⟨rfl, rfl, rfl, rfl, rfl, rfl, rfl, rfl⟩
      · exact ⟨rfl, rfl, rfl, rfl, rfl, rfl, rfl, rfl⟩
    obtain ⟨a1, a2, a3, a4, a5, a6, a7, a8⟩ := ih'
    obtain ⟨b1, b2, b3, b4, b5, b6, b7, b8⟩ := e2
    exact ⟨a1.trans b1, a2.trans b2, a3.trans b3, a4.trans b4, a5.trans b5, a6.trans b6, a7.trans b7,
      a8.trans b8⟩

theorem edgeOps_legal (T : GTech) (m : CoordMaps) (box : Box) (i f : Bool) :
    ∀ op ∈ edgeOps T m box i, op.Legal (emptyGrid T m f) := by
  intro op hop
  obtain ⟨k, j, h, l, y, x, fy, fx, h1, h2, h3, h4⟩ := (mem_edgeOps T m box i op).1 hop
  right
  intro n a hn
  rw [(cell_build T box i _ l fy fx op h4).2 n a hn, ← on_iff]
  have a1 := (List.getElem?_eq_some_iff.1 h1).1
  have a2 := (List.getElem?_eq_some_iff.1 h2).1
  have a3 := (List.getElem?_eq_some_iff.1 h3).1
  simp only [Grid.On, emptyGrid, List.length_map]
  omega

theorem edgeOps_build (T : GTech) (m : CoordMaps) (box : Box) (i : Bool) :
    ∀ op ∈ edgeOps T m box i, BuildOp box i op := by
  intro op hop
  obtain ⟨k, j, h, l, y, x, fy, fx, h1, h2, h3, h4⟩ := (mem_edgeOps T m box i op).1 hop
  exact (cell_build T box i _ l fy fx op h4).1

theorem build_fixed (T : GTech) (r e : Box) (objs : List BObj) (i f : Bool) :
    (buildGrid T r e objs i f).xs = (regionMaps T r e objs).x.map (·.1) ∧
    (buildGrid T r e objs i f).ys = (regionMaps T r e objs).y.map (·.1) ∧
    (buildGrid T r e objs i f).zs = T.layers ∧
    (buildGrid T r e objs i f).zDir = (emptyGrid T (regionMaps T r e objs) f).zDir ∧
    (buildGrid T r e objs i f).srcs = (fun _ => false) ∧ (buildGrid T r e objs i f).dsts = (fun _ => false) ∧
    (buildGrid T r e objs i f).guides = (fun _ => !f) ∧ (buildGrid T r e objs i f).prevs = (fun _ => false) :=
  run_fixed _ _ (edgeOps_legal T _ r i f)

/-! ## C85 -/

/-- C85: the grid of a region has its coordinates in strictly increasing order; they are exactly the
boundaries of the two boxes, the tracks of the routing layers inside the extended box, and the
coordinates of the existing wires, vias and access points. Its layers are the routing layers, each
with its direction. -/
theorem c85_coordinates (T : GTech) (ht : T.Ok) (r e : Box) (objs : List BObj) (ho : ∀ o ∈ objs, o.Ok T)
    (initDR followGuide : Bool) (g : Grid) (hg : g = buildGrid T r e objs initDR followGuide) :
    g.Sorted ∧ g.zs = T.layers ∧
    (∀ (k : Nat) (l : Int), g.zs[k]? = some l → g.zDir k = T.hor l) ∧
    (∀ x, x ∈ g.xs ↔ (x = r.left ∨ x = r.right ∨ x = e.left ∨ x = e.right) ∨
      ∃ l, T.LineX e objs l x) ∧
    (∀ y, y ∈ g.ys ↔ (y = r.bottom ∨ y = r.top ∨ y = e.bottom ∨ y = e.top) ∨
      ∃ l, T.LineY e objs l y) := by
  classical
  subst hg
  obtain ⟨hx, hy, hz, hd, _⟩ := build_fixed T r e objs initDR followGuide
  obtain ⟨w1, w2, lx, ly⟩ := region_look T ht r e objs ho
  refine ⟨?_, hz, ?_, ?_, ?_⟩
  · unfold Grid.Sorted
    rw [hx, hy, hz]
    exact ⟨w1.1, w2.1, ht.inc⟩
  · intro k l hk
    rw [hz] at hk
    rw [hd]
    simp only [emptyGrid, Int.toNat_natCast, hk]
  · intro x
    rw [hx, key_iff w1]
    constructor
    · rintro ⟨l, v, hv⟩
      cases v
      · rcases ((lx l x).2.1 hv).2 with ⟨_, h⟩ | h
        · exact Or.inl h
        · exact Or.inr ⟨l, Or.inr h⟩
      · exact Or.inr ⟨l, Or.inl ((lx l x).1.1 hv)⟩
    · rintro (h | ⟨l, h | h⟩)
      · by_cases h2 : T.TrackX e (-10) x
        · exact ⟨-10, true, (lx _ x).1.2 h2⟩
        · exact ⟨-10, false, (lx _ x).2.2 ⟨h2, Or.inl ⟨rfl, h⟩⟩⟩
      · exact ⟨l, true, (lx _ x).1.2 h⟩
      · by_cases h2 : T.TrackX e l x
        · exact ⟨l, true, (lx _ x).1.2 h2⟩
        · exact ⟨l, false, (lx _ x).2.2 ⟨h2, Or.inr h⟩⟩
  · intro y
    rw [hy, key_iff w2]
    constructor
    · rintro ⟨l, v, hv⟩
      cases v
      · rcases ((ly l y).2.1 hv).2 with ⟨_, h⟩ | h
        · exact Or.inl h
        · exact Or.inr ⟨l, Or.inr h⟩
      · exact Or.inr ⟨l, Or.inl ((ly l y).1.1 hv)⟩
    · rintro (h | ⟨l, h | h⟩)
      · by_cases h2 : T.TrackY e (-10) y
        · exact ⟨-10, true, (ly _ y).1.2 h2⟩
        · exact ⟨-10, false, (ly _ y).2.2 ⟨h2, Or.inl ⟨rfl, h⟩⟩⟩
      · exact ⟨l, true, (ly _ y).1.2 h⟩
      · by_cases h2 : T.TrackY e l y
        · exact ⟨l, true, (ly _ y).1.2 h2⟩
        · exact ⟨l, false, (ly _ y).2.2 ⟨h2, Or.inr h⟩⟩

/-- C85: no node of a new grid is a source, a destination or has a predecessor; every node is inside
a guide unless guides are to be followed, in which case none is yet. -/
theorem c85_labels_clear (T : GTech) (r e : Box) (objs : List BObj) (initDR followGuide : Bool)
    (g : Grid) (hg : g = buildGrid T r e objs initDR followGuide) (n : MIdx) :
    g.isSrc n = false ∧ g.isDst n = false ∧ g.getPrevDir n = .UNKNOWN ∧
    ∀ d, g.hasGuide n d = !followGuide := by
  subst hg
  obtain ⟨_, _, _, _, h1, h2, h3, h4⟩ := build_fixed T r e objs initDR followGuide
  refine ⟨?_, ?_, ?_, fun d => ?_⟩
  · simp only [Grid.isSrc, h1]
  · simp only [Grid.isDst, h2]
  · simp only [Grid.getPrevDir, h4]; rfl
  · simp only [Grid.hasGuide, h3]

/-- C85: the height of a layer is the sum of the pitches of the routing layers up to it, each
weighted with the cost of a via. -/
theorem c85_heights (T : GTech) (ls : List Int) : ∀ (h : Int) (k : Nat), k < ls.length →
    (layerHeights T h ls)[k]? = some (h + 4 * ((ls.take (k + 1)).map T.pitch).sum) := by
  induction ls with
  | nil => intro h k hk; simp at hk
  | cons a ls ih =>
    intro h k hk
    cases k with
    | zero => simp [layerHeights]; omega
    | succ k =>
      simp only [layerHeights, List.getElem?_cons_succ]
      rw [ih _ k (by simpa using hk)]
      simp only [List.take_succ_cons, List.map_cons, List.sum_cons, Option.some.injEq]
      omega

/-! ## C86: edges -/

theorem build_at (T : GTech) (r e : Box) (objs : List BObj) (i f : Bool) (n : MIdx) (p : Point) (l : Int) :
    (buildGrid T r e objs i f).At n p l ↔ ∃ (h j k : Nat) (fx fy : Int → Option Bool), n = ⟨h, j, k⟩ ∧
      (regionMaps T r e objs).x[h]? = some (p.x, fx) ∧ (regionMaps T r e objs).y[j]? = some (p.y, fy) ∧
      T.layers[k]? = some l := by
  obtain ⟨hx, hy, hz, _⟩ := build_fixed T r e objs i f
  unfold Grid.At
  rw [hx, hy, hz]
  obtain ⟨a, b, c⟩ := n
  constructor
  · rintro ⟨h1, h2, h3, h4, h5, h6⟩
    simp only at h1 h2 h3 h4 h5 h6
    rw [List.getElem?_map, Option.map_eq_some_iff] at h4 h5
    obtain ⟨⟨x, fx⟩, h4, h4'⟩ := h4
    obtain ⟨⟨y, fy⟩, h5, h5'⟩ := h5
    simp only at h4' h5'
    subst h4' h5'
    refine ⟨a.toNat, b.toNat, c.toNat, fx, fy, ?_, h4, h5, h6⟩
    simp only [MIdx.mk.injEq]
    omega
  · rintro ⟨h, j, k, fx, fy, hn, h4, h5, h6⟩
    simp only [MIdx.mk.injEq] at hn
    obtain ⟨rfl, rfl, rfl⟩ := hn
    refine ⟨by simp, by simp, by simp, ?_, ?_, ?_⟩
    · simp [List.getElem?_map, h4]
    · simp [List.getElem?_map, h5]
    · simpa using h6

theorem at_empty (T : GTech) (r e : Box) (objs : List BObj) (i f : Bool) (n : MIdx) (p : Point) (l : Int) :
    (emptyGrid T (regionMaps T r e objs) f).At n p l ↔ (buildGrid T r e objs i f).At n p l := by
  obtain ⟨hx, hy, hz, _⟩ := build_fixed T r e objs i f
  unfold Grid.At
  rw [hx, hy, hz]
  exact Iff.rfl

theorem at_on {g : Grid} {n : MIdx} {p : Point} {l : Int} (h : g.At n p l) : g.On n ∧ g.point n = some p := by
  obtain ⟨h1, h2, h3, h4, h5, h6⟩ := h
  have a1 := (List.getElem?_eq_some_iff.1 h4).1
  have a2 := (List.getElem?_eq_some_iff.1 h5).1
  have a3 := (List.getElem?_eq_some_iff.1 h6).1
  refine ⟨by unfold Grid.On; omega, ?_⟩
  simp only [Grid.point, h4, h5]

theorem on_at {g : Grid} {n : MIdx} {p : Point} (h : g.On n) (hp : g.point n = some p) : ∃ l, g.At n p l := by
  obtain ⟨h1, h2, h3, h4, h5, h6⟩ := h
  have a3 : n.z.toNat < g.zs.length := by omega
  have a1 : n.x.toNat < g.xs.length := by omega
  have a2 : n.y.toNat < g.ys.length := by omega
  simp only [Grid.point, List.getElem?_eq_getElem a1, List.getElem?_eq_getElem a2, Option.some.injEq] at hp
  subst hp
  exact ⟨g.zs[n.z.toNat], h1, h3, h5, List.getElem?_eq_getElem a1, List.getElem?_eq_getElem a2,
    List.getElem?_eq_getElem a3⟩

theorem at_unique {g : Grid} {n : MIdx} {p q : Point} {l k : Int} (h : g.At n p l) (h' : g.At n q k) :
    p = q ∧ l = k := by
  obtain ⟨_, _, _, h4, h5, h6⟩ := h
  obtain ⟨_, _, _, g4, g5, g6⟩ := h'
  obtain ⟨a, b⟩ := p
  obtain ⟨c, d⟩ := q
  simp only at h4 h5 g4 g5
  rw [h4] at g4
  rw [h5] at g5
  rw [h6] at g6
  simp only [Option.some.injEq] at g4 g5 g6
  exact ⟨by rw [g4, g5], g6⟩

theorem empty_no_edge (T : GTech) (m : CoordMaps) (f : Bool) (n : MIdx) (d : Dir) :
    (emptyGrid T m f).hasEdge n d = false := by
  have gb : ∀ k, getBit ((emptyGrid T m f).bits k) 0 = false ∧ getBit ((emptyGrid T m f).bits k) 1 = false ∧
      getBit ((emptyGrid T m f).bits k) 2 = false := fun k => ⟨by show getBit 0#64 0 = false; decide, by show getBit 0#64 1 = false; decide,
        by show getBit 0#64 2 = false; decide⟩
  unfold Grid.hasEdge
  cases d
  case UNKNOWN => by_cases hv : (emptyGrid T m f).isValid n = true <;> simp only [correct, hv] <;> rfl
  all_goals simp [correct, gb]

/-- an edge of the new grid is one that `initEdges` asked for and that lies in the box -/
theorem build_edge (T : GTech) (r e : Box) (objs : List BObj) (i f : Bool) (d : Dir)
    (hd : d = .E ∨ d = .N ∨ d = .U) (n : MIdx) (p : Point) (l : Int)
    (hn : (buildGrid T r e objs i f).At n p l) :
    (buildGrid T r e objs i f).hasEdge n d = true ↔
      GOp.addEdge n d r i ∈ edgeOps T (regionMaps T r e objs) r i ∧
      ∃ q l', (buildGrid T r e objs i f).At (n.nbr d) q l' ∧ EdgeInBox r i p q := by
  unfold buildGrid
  rw [run_edges r i _ _ (edgeOps_legal T _ r i f) (edgeOps_build T _ r i), empty_no_edge]
  have hd' : d ≠ .UNKNOWN := by rcases hd with rfl | rfl | rfl <;> decide
  have hn' := (at_empty T r e objs i f n p l).2 hn
  have succ : ((emptyGrid T (regionMaps T r e objs) f).addEdge n d r i).2 = true ↔
      ∃ q l', (buildGrid T r e objs i f).At (n.nbr d) q l' ∧ EdgeInBox r i p q := by
    rw [c09_add_succeeds_iff _ _ _ _ _ hd']
    constructor
    · rintro ⟨h1, h2, p', q, hp, hq, b⟩
      rw [(at_on hn').2] at hp
      simp only [Option.some.injEq] at hp
      subst hp
      obtain ⟨l', hl'⟩ := on_at h2 hq
      exact ⟨q, l', (at_empty T r e objs i f _ _ _).1 hl', b⟩
    · rintro ⟨q, l', hq, b⟩
      have hq' := at_on ((at_empty T r e objs i f _ _ _).2 hq)
      exact ⟨(at_on hn').1, hq'.1, p, q, (at_on hn').2, hq'.2, b⟩
  constructor
  · rintro (h | ⟨n', d', hop, hs, ht⟩)
    · exact absurd h (by simp)
    · have : n' = n ∧ d' = d := by
        have := edgeOps_build T _ r i _ hop
        cases this with
        | edge _ _ hd2 =>
          rcases hs with ⟨h1, h2⟩ | ⟨_, h2⟩
          · exact ⟨h1.symm, h2.symm⟩
          · rcases hd2 with rfl | rfl | rfl <;> rcases hd with rfl | rfl | rfl <;> simp [Dir.opp] at h2
      obtain ⟨rfl, rfl⟩ := this
      exact ⟨hop, succ.1 ht⟩
  · rintro ⟨hop, h⟩
    exact Or.inr ⟨n, d, hop, Or.inl ⟨rfl, rfl⟩, succ.2 h⟩

/-- a call for one node comes from the loop body of that node -/
theorem edgeOps_node (T : GTech) (m : CoordMaps) (box : Box) (i : Bool) (op : GOp) (h j k : Nat)
    (x y l : Int) (fx fy : Int → Option Bool)
    (h1 : m.x[h]? = some (x, fx)) (h2 : m.y[j]? = some (y, fy)) (h3 : T.layers[k]? = some l)
    (hno : ∀ n l fy fx, op ∈ cellOps T box i n l fy fx → n = ⟨h, j, k⟩) :
    op ∈ edgeOps T m box i ↔ op ∈ cellOps T box i ⟨h, j, k⟩ l fy fx := by
  rw [mem_edgeOps]
  constructor
  · rintro ⟨k', j', h', l', y', x', fy', fx', e1, e2, e3, e4⟩
    have := hno _ _ _ _ e4
    simp only [MIdx.mk.injEq, Int.natCast_inj] at this
    obtain ⟨rfl, rfl, rfl⟩ := this
    rw [h1] at e3; rw [h2] at e2; rw [h3] at e1
    simp only [Option.some.injEq, Prod.mk.injEq] at e1 e2 e3
    rw [e1, e2.2, e3.2]
    exact e4
  · intro hop
    exact ⟨k, j, h, l, y, x, fy, fx, h3, h2, h1, hop⟩

/-- the answers of the maps in terms of lines -/
theorem look_lines (T : GTech) (ht : T.Ok) (r e : Box) (objs : List BObj) (ho : ∀ o ∈ objs, o.Ok T)
    (og : Bool) (l : Int) (hl : 0 ≤ l) (c : Int) :
    (UseAns og ((regionMaps T r e objs).x.look c l) ↔
      T.TrackX e l c ∨ (og = false ∧ ∃ o ∈ objs, o.LineX T l c)) ∧
    (UseAns og ((regionMaps T r e objs).y.look c l) ↔
      T.TrackY e l c ∨ (og = false ∧ ∃ o ∈ objs, o.LineY T l c)) ∧
    ((regionMaps T r e objs).x.look c l ≠ none ↔ T.LineX e objs l c) ∧
    ((regionMaps T r e objs).y.look c l ≠ none ↔ T.LineY e objs l c) ∧
    ((regionMaps T r e objs).x.look c l = some false ↔ ¬ T.TrackX e l c ∧ ∃ o ∈ objs, o.LineX T l c) ∧
    ((regionMaps T r e objs).y.look c l = some false ↔ ¬ T.TrackY e l c ∧ ∃ o ∈ objs, o.LineY T l c) := by
  classical
  obtain ⟨w1, w2, lx, ly⟩ := region_look T ht r e objs ho
  have hx := lx l c
  have hy := ly l c
  have hl' : l ≠ -10 := by omega
  simp only [hl', false_and, false_or] at hx hy
  have nn : ∀ o : Option Bool, o ≠ none ↔ o = some true ∨ o = some false := by
    intro o
    cases o with
    | none => simp
    | some b => cases b <;> simp
  refine ⟨?_, ?_, ?_, ?_, hx.2, hy.2⟩
  · unfold UseAns
    rw [hx.1, hx.2]
    by_cases h : T.TrackX e l c <;> simp [h]
  · unfold UseAns
    rw [hy.1, hy.2]
    by_cases h : T.TrackY e l c <;> simp [h]
  · rw [nn, hx.1, hx.2]
    unfold GTech.LineX
    by_cases h : T.TrackX e l c <;> simp [h]
  · rw [nn, hy.1, hy.2]
    unfold GTech.LineY
    by_cases h : T.TrackY e l c <;> simp [h]

theorem pair_nonneg (T : GTech) (l : Int) (h : 2 ≤ l) : 0 ≤ T.pairLayer l := by
  unfold GTech.pairLayer; split <;> omega

/-- C86: the grid has the edge from a node to its eastern neighbour exactly if both lie in the route
box (in the initial iteration not on its top boundary), the layer is open to wires, and the row is a
line wires of the layer may follow: its own on a horizontal layer, one of the neighbouring layer on
a vertical layer, if wires against the preferred direction are allowed. -/
theorem c86_east (T : GTech) (ht : T.Ok) (r e : Box) (objs : List BObj) (ho : ∀ o ∈ objs, o.Ok T)
    (initDR followGuide : Bool) (g : Grid) (hg : g = buildGrid T r e objs initDR followGuide)
    (n : MIdx) (p : Point) (l : Int) (hn : g.At n p l) :
    g.hasEdge n .E = true ↔
      (∃ q, g.At (n.nbr .E) q l ∧ EdgeInBox r initDR p q) ∧ T.botRoute ≤ l ∧ l ≤ T.topRoute ∧
      ((T.hor l = true ∧ T.RunY e objs l p.y) ∨
       (T.hor l = false ∧ T.nonPref = true ∧ T.LineY e objs (T.pairLayer l) p.y)) := by
  subst hg
  rw [build_edge T r e objs initDR followGuide .E (Or.inl rfl) n p l hn]
  obtain ⟨h, j, k, fx, fy, rfl, h1, h2, h3⟩ := (build_at _ _ _ _ _ _ _ _ _).1 hn
  obtain ⟨w1, w2, _, _⟩ := region_look T ht r e objs ho
  have hl := ht.low l (List.mem_of_getElem? h3)
  have hlay : ∀ q l', (buildGrid T r e objs initDR followGuide).At (MIdx.nbr ⟨h, j, k⟩ .E) q l' → l' = l := by
    intro q l' hq
    have a := hq.2.2.2.2.2
    have b := hn.2.2.2.2.2
    simp only [MIdx.nbr, Dir.delta, Int.add_zero] at a b
    rw [b] at a
    exact (Option.some.inj a).symm
  have hq : (∃ q l', (buildGrid T r e objs initDR followGuide).At (MIdx.nbr ⟨h, j, k⟩ .E) q l' ∧
      EdgeInBox r initDR p q) ↔
      ∃ q, (buildGrid T r e objs initDR followGuide).At (MIdx.nbr ⟨h, j, k⟩ .E) q l ∧ EdgeInBox r initDR p q := by
    constructor
    · rintro ⟨q, l', a, b⟩
      have := hlay q l' a
      subst this
      exact ⟨q, a, b⟩
    · rintro ⟨q, a, b⟩
      exact ⟨q, l, a, b⟩
  rw [hq, edgeOps_node T _ r initDR _ h j k p.x p.y l fx fy h1 h2 h3
    (fun n' l fy fx hop => ((cell_addE T r initDR n' _ l fy fx).1 hop).1.symm), cell_addE,
    ← look_at w2 h2, ← look_at w2 h2, nonPref_pair T l hl.1,
    (look_lines T ht r e objs ho (T.onGrid l) l (by omega) p.y).2.1,
    (look_lines T ht r e objs ho true (T.pairLayer l) (pair_nonneg T l hl.1) p.y).2.2.2.1]
  unfold GTech.Open GTech.RunY
  simp only [true_and, and_assoc]
  constructor
  · rintro ⟨a, b, c, d⟩; exact ⟨d, a, b, c⟩
  · rintro ⟨d, a, b, c⟩; exact ⟨a, b, c, d⟩

/-- C86: the same for the northern neighbour. -/
theorem c86_north (T : GTech) (ht : T.Ok) (r e : Box) (objs : List BObj) (ho : ∀ o ∈ objs, o.Ok T)
    (initDR followGuide : Bool) (g : Grid) (hg : g = buildGrid T r e objs initDR followGuide)
    (n : MIdx) (p : Point) (l : Int) (hn : g.At n p l) :
    g.hasEdge n .N = true ↔
      (∃ q, g.At (n.nbr .N) q l ∧ EdgeInBox r initDR p q) ∧ T.botRoute ≤ l ∧ l ≤ T.topRoute ∧
      ((T.hor l = false ∧ T.RunX e objs l p.x) ∨
       (T.hor l = true ∧ T.nonPref = true ∧ T.LineX e objs (T.pairLayer l) p.x)) := by
  subst hg
  rw [build_edge T r e objs initDR followGuide .N (Or.inr (Or.inl rfl)) n p l hn]
  obtain ⟨h, j, k, fx, fy, rfl, h1, h2, h3⟩ := (build_at _ _ _ _ _ _ _ _ _).1 hn
  obtain ⟨w1, w2, _, _⟩ := region_look T ht r e objs ho
  have hl := ht.low l (List.mem_of_getElem? h3)
  have hlay : ∀ q l', (buildGrid T r e objs initDR followGuide).At (MIdx.nbr ⟨h, j, k⟩ .N) q l' → l' = l := by
    intro q l' hq
    have a := hq.2.2.2.2.2
    have b := hn.2.2.2.2.2
    simp only [MIdx.nbr, Dir.delta, Int.add_zero] at a b
    rw [b] at a
    exact (Option.some.inj a).symm
  have hq : (∃ q l', (buildGrid T r e objs initDR followGuide).At (MIdx.nbr ⟨h, j, k⟩ .N) q l' ∧
      EdgeInBox r initDR p q) ↔
      ∃ q, (buildGrid T r e objs initDR followGuide).At (MIdx.nbr ⟨h, j, k⟩ .N) q l ∧ EdgeInBox r initDR p q := by
    constructor
    · rintro ⟨q, l', a, b⟩
      have := hlay q l' a
      subst this
      exact ⟨q, a, b⟩
    · rintro ⟨q, a, b⟩
      exact ⟨q, l, a, b⟩
  rw [hq, edgeOps_node T _ r initDR _ h j k p.x p.y l fx fy h1 h2 h3
    (fun n' l fy fx hop => ((cell_addN T r initDR n' _ l fy fx).1 hop).1.symm), cell_addN,
    ← look_at w1 h1, ← look_at w1 h1, nonPref_pair T l hl.1,
    (look_lines T ht r e objs ho (T.onGrid l) l (by omega) p.x).1,
    (look_lines T ht r e objs ho true (T.pairLayer l) (pair_nonneg T l hl.1) p.x).2.2.1]
  unfold GTech.Open GTech.RunX
  simp only [true_and, and_assoc]
  constructor
  · rintro ⟨a, b, c, d⟩; exact ⟨d, a, b, c⟩
  · rintro ⟨d, a, b, c⟩; exact ⟨a, b, c, d⟩

theorem pair_le (T : GTech) (k : Int) (h : k ≤ T.top) : T.pairLayer k ≤ T.top := by
  unfold GTech.pairLayer; split <;> omega

theorem line_top (T : GTech) (ht : T.Ok) (o : BObj) (ho : o.Ok T) (l c : Int)
    (h : o.LineX T l c ∨ o.LineY T l c) : l ≤ T.top := by
  cases o with
  | wire k a b =>
    have hk := (ht.low k ho.1).2
    have hp := pair_le T k hk
    rcases h with ⟨_, h⟩ | ⟨_, h⟩ <;> rw [h] <;> split <;> assumption
  | via k1 k2 p =>
    have h1 := (ht.low k1 ho.1).2
    have h2 := (ht.low k2 ho.2.1).2
    rcases h with ⟨_, h | h⟩ | ⟨_, h | h⟩ <;> rw [h.1] <;> assumption
  | ap k p =>
    have hk := (ht.low k ho).2
    have hp := pair_le T k hk
    rcases h with ⟨_, h | h⟩ | ⟨_, h | h⟩ <;> rw [h.1] <;> assumption

/-- C86: the grid has the via edge from a node to the node above exactly if it lies in the route box,
there is a layer above, and the lines along both layers meet there: on both layers a line that wires
of the layer may follow. (The lower layer's line runs in its direction, the upper one's across.) -/
theorem c86_up (T : GTech) (ht : T.Ok) (r e : Box) (objs : List BObj) (ho : ∀ o ∈ objs, o.Ok T)
    (initDR followGuide : Bool) (g : Grid) (hg : g = buildGrid T r e objs initDR followGuide)
    (n : MIdx) (p : Point) (l : Int) (hn : g.At n p l) :
    g.hasEdge n .U = true ↔
      (∃ l', g.At (n.nbr .U) p l' ∧ EdgeInBox r initDR p p) ∧
      ((T.hor l = true ∧ T.RunY e objs l p.y ∧ T.RunX e objs (l + 2) p.x) ∨
       (T.hor l = false ∧ T.RunX e objs l p.x ∧ T.RunY e objs (l + 2) p.y)) := by
  subst hg
  rw [build_edge T r e objs initDR followGuide .U (Or.inr (Or.inr rfl)) n p l hn]
  obtain ⟨h, j, k, fx, fy, rfl, h1, h2, h3⟩ := (build_at _ _ _ _ _ _ _ _ _).1 hn
  obtain ⟨w1, w2, _, _⟩ := region_look T ht r e objs ho
  have hl := ht.low l (List.mem_of_getElem? h3)
  have hpt : ∀ q l', (buildGrid T r e objs initDR followGuide).At (MIdx.nbr ⟨h, j, k⟩ .U) q l' → q = p := by
    intro q l' hq
    have a := hq.2.2.2.1
    have b := hn.2.2.2.1
    have a' := hq.2.2.2.2.1
    have b' := hn.2.2.2.2.1
    simp only [MIdx.nbr, Dir.delta, Int.add_zero] at a b a' b'
    rw [b] at a
    rw [b'] at a'
    have e1 := Option.some.inj a
    have e2 := Option.some.inj a'
    obtain ⟨qx, qy⟩ := q
    obtain ⟨px, py⟩ := p
    simp only at e1 e2
    rw [e1, e2]
  have hq : (∃ q l', (buildGrid T r e objs initDR followGuide).At (MIdx.nbr ⟨h, j, k⟩ .U) q l' ∧
      EdgeInBox r initDR p q) ↔
      ∃ l', (buildGrid T r e objs initDR followGuide).At (MIdx.nbr ⟨h, j, k⟩ .U) p l' ∧ EdgeInBox r initDR p p := by
    constructor
    · rintro ⟨q, l', a, b⟩
      have := hpt q l' a
      subst this
      exact ⟨l', a, b⟩
    · rintro ⟨l', a, b⟩
      exact ⟨p, l', a, b⟩
  rw [hq, edgeOps_node T _ r initDR _ h j k p.x p.y l fx fy h1 h2 h3
    (fun n' l fy fx hop => ((cell_addU T r initDR n' _ l fy fx).1 hop).1.symm), cell_addU,
    ← look_at w1 h1, ← look_at w1 h1, ← look_at w2 h2, ← look_at w2 h2, nonPref_pair T l hl.1,
    (look_lines T ht r e objs ho (T.onGrid l) l (by omega) p.x).1,
    (look_lines T ht r e objs ho (T.onGrid l) l (by omega) p.y).2.1,
    (look_lines T ht r e objs ho (T.onGrid (T.pairLayer l)) (l + 2) (by omega) p.x).1,
    (look_lines T ht r e objs ho (T.onGrid (T.pairLayer l)) (l + 2) (by omega) p.y).2.1]
  have pe : l + 2 ≤ T.top → T.pairLayer l = l + 2 := fun h => by unfold GTech.pairLayer; rw [if_neg (by omega)]
  have eX : (T.TrackX e (l + 2) p.x ∨ T.onGrid (T.pairLayer l) = false ∧ ∃ o, o ∈ objs ∧ o.LineX T (l + 2) p.x) ↔
      T.RunX e objs (l + 2) p.x := by
    unfold GTech.RunX
    refine or_congr Iff.rfl ⟨fun ⟨a, o, b, c⟩ => ?_, fun ⟨a, o, b, c⟩ => ?_⟩
    · have := line_top T ht o (ho o b) _ _ (Or.inl c)
      rw [pe this] at a
      exact ⟨a, o, b, c⟩
    · have := line_top T ht o (ho o b) _ _ (Or.inl c)
      rw [pe this]
      exact ⟨a, o, b, c⟩
  have eY : (T.TrackY e (l + 2) p.y ∨ T.onGrid (T.pairLayer l) = false ∧ ∃ o, o ∈ objs ∧ o.LineY T (l + 2) p.y) ↔
      T.RunY e objs (l + 2) p.y := by
    unfold GTech.RunY
    refine or_congr Iff.rfl ⟨fun ⟨a, o, b, c⟩ => ?_, fun ⟨a, o, b, c⟩ => ?_⟩
    · have := line_top T ht o (ho o b) _ _ (Or.inr c)
      rw [pe this] at a
      exact ⟨a, o, b, c⟩
    · have := line_top T ht o (ho o b) _ _ (Or.inr c)
      rw [pe this]
      exact ⟨a, o, b, c⟩
  rw [eX, eY]
  unfold GTech.RunX GTech.RunY
  simp only [true_and]
  exact and_comm

end TR
