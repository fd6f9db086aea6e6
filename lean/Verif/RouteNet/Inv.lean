import Verif.RouteNet.Lemmas
/-! Loop invariant of `routeNet`. -/
namespace TR

/-- what is known when the loop head is reached -/
structure RInv (pins : List RPin) (g0 : Grid) (s : RState) : Prop where
  map : MapInv g0 s.m2p s.grid
  mem : ∀ n q, q ∈ s.m2p.get n ↔ q ∈ s.unconn ∧ ∃ ap ∈ q.aps, ap.mi = n
  compsOn : ∀ n ∈ s.comps, g0.On n
  src : ∀ n, g0.On n → (s.grid.isSrc n = true ↔ n ∈ s.comps)
  sub : ∀ p ∈ s.unconn, p ∈ pins
  seed : ∃ p ∈ pins, p ∉ s.unconn
  conn : ∀ p ∈ pins, p ∉ s.unconn → ∃ ap ∈ p.aps, ap.mi ∈ s.comps
  fst : s.first = true → s.figs = [] ∧ ∃ p0 ∈ pins, s.comps = p0.aps.map (·.mi) ∧ ∀ p ∈ pins, p ∉ s.unconn → p = p0
  link : s.first = false → ∀ a ∈ s.comps, ∀ b ∈ s.comps, Linked s.figs a b
  figs : ∀ f ∈ s.figs, FigOK g0 f

theorem fold_setSrc {g0 : Grid} : ∀ (l : List MIdx) (g : Grid), (∀ n ∈ l, g0.On n) → Base g0 g →
    Base g0 (l.foldl Grid.setSrc g) ∧ (∀ n, g0.On n → ((l.foldl Grid.setSrc g).isSrc n = true ↔ g.isSrc n = true ∨ n ∈ l)) ∧
    (∀ n, (l.foldl Grid.setSrc g).isDst n = g.isDst n)
  | [], g, _, h => ⟨h, by simp, fun _ => rfl⟩
  | a :: l, g, hon, h => by
    obtain ⟨h1, h2, h3⟩ := fold_setSrc l (g.setSrc a) (fun n hn => hon n (by simp [hn])) (h.setSrc a)
    refine ⟨h1, ?_, fun n => by rw [List.foldl_cons, h3]; rfl⟩
    intro n hn
    rw [List.foldl_cons, h2 n hn, isSrc_setSrc _ _ _ ((h.on _).2 (hon a (by simp))) ((h.on _).2 hn), List.mem_cons]
    by_cases e : n = a
    · simp [e]
    · simp [e]

theorem fold_resetSrc {g0 : Grid} : ∀ (l : List MIdx) (g : Grid), (∀ n ∈ l, g0.On n) → Base g0 g →
    Base g0 (l.foldl Grid.resetSrc g) ∧ (∀ n, g0.On n → ((l.foldl Grid.resetSrc g).isSrc n = true ↔ g.isSrc n = true ∧ n ∉ l)) ∧
    (∀ n, (l.foldl Grid.resetSrc g).isDst n = g.isDst n)
  | [], g, _, h => ⟨h, by simp, fun _ => rfl⟩
  | a :: l, g, hon, h => by
    obtain ⟨h1, h2, h3⟩ := fold_resetSrc l (g.resetSrc a) (fun n hn => hon n (by simp [hn])) (h.resetSrc a)
    refine ⟨h1, ?_, fun n => by rw [List.foldl_cons, h3]; rfl⟩
    intro n hn
    rw [List.foldl_cons, h2 n hn, isSrc_resetSrc _ _ _ ((h.on _).2 (hon a (by simp))) ((h.on _).2 hn), List.mem_cons]
    by_cases e : n = a
    · simp [e]
    · simp [e]

theorem mapInv_congr {g0 : Grid} {m g g'} (h : MapInv g0 m g) (hb : Base g0 g') (hd : ∀ n, g'.isDst n = g.isDst n) :
    MapInv g0 m g' := ⟨hb, h.ne, fun n hn => by rw [hd]; exact h.dst n hn⟩

/-! ## The start -/

theorem start_inv (zH : ZHeights) (pins : List RPin) (g0 : Grid) (hr : NetReady g0 pins) (hp : pins ≠ []) :
    ∃ s, routeSetSrc zH pins (routePrep pins g0).1 (routePrep pins g0).2 = some s ∧ RInv pins g0 s ∧
      s.unconn.length < pins.length := by
  have h0 : MapInv g0 ([] : PinMap) g0 := ⟨Base.refl _, by simp, fun n hn => by rw [hr.nodst n hn]; simp [PinMap.get, PinMap.find]⟩
  obtain ⟨a1, a2, a3⟩ := prep_all pins (([] : PinMap), g0) hr.on h0
  have hex : ∃ p ∈ pins, p.aps ≠ [] := by
    cases pins with
    | nil => exact absurd rfl hp
    | cons p t => exact ⟨p, by simp, hr.ap p (by simp)⟩
  have hc : (centerSums zH pins).2.2.2 ≠ 0 := by
    have := centerSums_count zH pins (0, 0, 0, 0) (by decide) (Or.inr hex)
    unfold centerSums; omega
  unfold routeSetSrc
  simp only [hc, if_false]
  generalize hcc : ((centerSums zH pins).1.tdiv (centerSums zH pins).2.2.2,
    (centerSums zH pins).2.1.tdiv (centerSums zH pins).2.2.2,
    (centerSums zH pins).2.2.1.tdiv (centerSums zH pins).2.2.2) = cc
  obtain ⟨f1, f2⟩ := farmost_fold zH cc pins pins (0, none) (fun _ h => h) (fun _ => rfl) (by simp)
  have f2 := f2 (Or.inr hex)
  cases hfm : farmost zH cc pins with
  | none => exact absurd hfm f2
  | some p =>
    have hpm : p ∈ pins := f1 p hfm
    refine ⟨_, rfl, ?_, ?_⟩
    · have hget : ∀ n q, q ∈ (routePrep pins g0).1.get n ↔ q ∈ pins ∧ ∃ ap ∈ q.aps, ap.mi = n := by
        intro n q
        have := a2 n q
        simp only [PinMap.get, PinMap.find, List.find?_nil, Option.map_none, Option.getD_none, List.not_mem_nil, false_or] at this
        exact this
      have hs0 : ∀ n, g0.On n → (routePrep pins g0).2.isSrc n = false := fun n hn => by
        have := a3 n
        rw [hr.nosrc n hn] at this; exact this
      obtain ⟨b1, b2, b3, b4⟩ := src_pin (p := p) p.aps (routePrep pins g0).1 (routePrep pins g0).2 [] (hr.on p hpm) a1
        (fun ap hap => Or.inl ((hget _ _).2 ⟨hpm, ap, hap, rfl⟩))
      have hmemu : ∀ q, q ∈ pins.filter (fun x => decide (x ≠ p)) ↔ q ∈ pins ∧ q ≠ p := by
        intro q; simp [List.mem_filter]
      refine ⟨b1, ?_, ?_, ?_, ?_, ?_, ?_, ?_, ?_, ?_⟩
      · intro n q
        show q ∈ PinMap.get _ n ↔ q ∈ pins.filter (fun x => decide (x ≠ p)) ∧ _
        rw [b2, hget, hmemu]
        constructor
        · rintro ⟨⟨h1, h2⟩, h3⟩
          exact ⟨⟨h1, fun e => h3 ⟨e, e ▸ h2⟩⟩, h2⟩
        · rintro ⟨⟨h1, h2⟩, h3⟩
          exact ⟨⟨h1, h3⟩, fun hh => h2 hh.1⟩
      · intro n hn
        rw [b4] at hn
        simp only [List.nil_append, List.mem_map] at hn
        obtain ⟨ap, hap, rfl⟩ := hn
        exact hr.on p hpm ap hap
      · intro n hn
        show Grid.isSrc _ n = true ↔ _
        rw [b3 n hn, b4, hs0 n hn]
        simp
      · intro q hq; exact ((hmemu q).1 hq).1
      · exact ⟨p, hpm, fun hq => ((hmemu p).1 hq).2 rfl⟩
      · intro q hq hnq
        have : q = p := by
          apply Classical.byContradiction
          intro hne
          exact hnq ((hmemu q).2 ⟨hq, hne⟩)
        subst this
        have hne := hr.ap q hq
        rw [b4]
        cases hqa : q.aps with
        | nil => exact absurd hqa hne
        | cons x t => exact ⟨x, by simp, by simp⟩
      · intro _
        refine ⟨rfl, p, hpm, by rw [b4]; simp, ?_⟩
        intro q hq hnq
        apply Classical.byContradiction
        intro hne
        exact hnq ((hmemu q).2 ⟨hq, hne⟩)
      · intro hf; cases hf
      · intro f hf; cases hf
    · show (pins.filter (fun x => decide (x ≠ p))).length < pins.length
      apply List.length_filter_lt_length_iff_exists.2
      exact ⟨p, hpm, by simp⟩

/-! ## One round -/

theorem ready_of_inv {pins g0 s} (h : RInv pins g0 s) (hE : ∀ n d, g0.hasEdge n d = true → g0.On n ∧ g0.On (n.nbr d)) :
    s.grid.resetAllPrev.Ready s.comps := by
  have hb := h.map.base.resetAllPrev
  refine ⟨?_, ?_, ?_, ?_⟩
  · intro n d he
    rw [hb.edge] at he
    rw [hb.on, hb.on]; exact hE n d he
  · intro n hn; rw [hb.on]; exact h.compsOn n hn
  · intro n hn
    rw [hb.on] at hn
    exact h.src n hn
  · intro n hn; rfl

/-- the state after a successful search -/
def afterPath (real : List MIdx) (s : RState) (r : SearchResult) : RState :=
  let (cc1, cc2) := if r.path.length = 1 then (s.cc1, s.cc2)
    else (r.path.foldl ccMin s.cc1, r.path.foldl ccMax s.cc2)
  let s' := postUpdate r.path { s with grid := r.grid, comps := r.comps, cc1 := cc1, cc2 := cc2 }
  { s' with figs := s'.figs ++ writePath s'.grid real r.path, first := false }

theorem postUpdate_cons (mi : MIdx) (t : List MIdx) (s : RState) :
    postUpdate (mi :: t) s =
      (let r := (s.m2p.get mi).foldl (fun r p => p.aps.foldl (dropAP p) r) (s.m2p, s.grid)
       let gc := if s.first then
          (if (mi :: t).length = 1 then ((s.comps.foldl Grid.resetSrc r.2).setSrc mi, [mi]) else (s.comps.foldl Grid.resetSrc r.2, []))
         else (r.2, s.comps)
       { s with
          grid := (pathNodes (mi :: t)).foldl Grid.setSrc gc.1
          unconn := s.unconn.filter (fun x => decide (x ∉ s.m2p.get mi))
          m2p := r.1
          comps := gc.2 ++ (if s.first then pathNodes (mi :: t) else (pathNodes (mi :: t)).filter (fun n => decide (n ≠ mi))) }) := rfl

theorem cells_ne (path : List MIdx) (h : path ≠ []) : cells path ≠ [] := by
  intro e
  have := getLast_cells path
  rw [e] at this
  simp only [List.getLast?_nil] at this
  exact h (List.getLast?_eq_none_iff.1 this.symm)

theorem mem_cells_split (path : List MIdx) (b : MIdx) (hb : path.getLast? = some b) (n : MIdx) :
    n ∈ cells path ↔ n ∈ (cells path).dropLast ∨ n = b := by
  have hne : path ≠ [] := by rintro rfl; simp at hb
  have h1 := getLast_cells path
  rw [hb] at h1
  have h2 := List.dropLast_concat_getLast (cells_ne path hne)
  have h3 : (cells path).getLast (cells_ne path hne) = b := by
    rw [List.getLast?_eq_some_getLast (cells_ne path hne)] at h1; exact Option.some.inj h1
  rw [h3] at h2
  conv => lhs; rw [← h2]
  simp

theorem round_inv {pins g0 s} (real : List MIdx) (pick : Nat → Nat) (fuel : Nat) (r : SearchResult)
    (hr : NetReady g0 pins) (h : RInv pins g0 s)
    (hs : s.grid.resetAllPrev.search pick fuel s.comps = some r) (hf : r.found = true) :
    RInv pins g0 (afterPath real s r) ∧ (afterPath real s r).unconn.length < s.unconn.length := by
  have hready := ready_of_inv h hr.edges
  obtain ⟨gp, -, hcomps, hgrid⟩ := search_found hready hs hf
  have hb1 := h.map.base.resetAllPrev
  have hbr : Base g0 r.grid := hb1.prevs hgrid
  have hsrcr : ∀ n, r.grid.isSrc n = s.grid.isSrc n := by intro n; rw [hgrid]; rfl
  have hdstr : ∀ n, r.grid.isDst n = s.grid.isDst n := by intro n; rw [hgrid]; rfl
  have hdst1 : ∀ n, s.grid.resetAllPrev.isDst n = s.grid.isDst n := fun _ => rfl
  obtain ⟨b, hb, hbc⟩ := gp.last
  obtain ⟨mi, hmi, hmid⟩ := gp.head
  have hstr := gp.straight
  have hedges : Consecutive (EdgeStep g0) (cells r.path) := by
    have := gp.edges
    have e : (fun u v => ∃ d, v = MIdx.nbr u d ∧ s.grid.resetAllPrev.hasEdge u d = true) = EdgeStep g0 := by
      funext u v; simp only [EdgeStep, hb1.edge]
    rw [e] at this; exact this
  have hcellsOn : ∀ n ∈ cells r.path, g0.On n := fun n hn => (hb1.on n).1 (gp.on n hn)
  have hsplit := mem_cells_split r.path b hb
  obtain ⟨t, hpath⟩ : ∃ t, r.path = mi :: t := by
    cases hp : r.path with
    | nil => rw [hp] at hmi; simp at hmi
    | cons x t => rw [hp] at hmi; simp at hmi; exact ⟨t, by rw [hmi]⟩
  have hmicell : mi ∈ cells r.path := by
    obtain ⟨l, hl⟩ := cells_head mi t (hpath ▸ hstr)
    rw [hpath, hl]; simp
  -- pins found at the end of the path
  have htmp : ∀ q, q ∈ s.m2p.get mi ↔ q ∈ s.unconn ∧ ∃ ap ∈ q.aps, ap.mi = mi := h.mem mi
  have hmion : g0.On mi := hcellsOn mi hmicell
  have htmpne : s.m2p.get mi ≠ [] := (h.map.dst mi hmion).1 hmid
  have hmap : MapInv g0 s.m2p r.grid := mapInv_congr h.map hbr hdstr
  obtain ⟨d1, d2, d3⟩ := drop_all (s.m2p.get mi) (s.m2p, r.grid)
    (fun p hp => hr.on p (h.sub p ((htmp p).1 hp).1)) hmap
  generalize hD : (s.m2p.get mi).foldl (fun r p => p.aps.foldl (dropAP p) r) (s.m2p, r.grid) = D at d1 d2 d3
  have hunc : ∀ q, q ∈ s.unconn.filter (fun x => decide (x ∉ s.m2p.get mi)) ↔ q ∈ s.unconn ∧ q ∉ s.m2p.get mi := by
    intro q; simp [List.mem_filter]
  have hpn : ∀ n, n ∈ pathNodes r.path → n ∈ cells r.path := by
    intro n hn
    by_cases hlen : 2 ≤ r.path.length
    · exact (mem_pathNodes r.path hstr hlen n).1 hn
    · rw [hpath] at hn hlen
      cases t with
      | nil => simp [pathNodes] at hn
      | cons y t => simp at hlen
  have hcomps1 : ∀ n, n ∈ r.comps ↔ n ∈ s.comps ∨ n ∈ (cells r.path).dropLast := by
    intro n; rw [hcomps, List.mem_append]
  have hdl : ∀ n, n ∈ (cells r.path).dropLast → n ∈ cells r.path := fun n hn => (hsplit n).2 (Or.inl hn)
  have hcompsOn : ∀ n ∈ r.comps, g0.On n := by
    intro n hn
    rcases (hcomps1 n).1 hn with hn | hn
    · exact h.compsOn n hn
    · exact hcellsOn n (hdl n hn)
  -- source flags and component list after the update
  let gc := if s.first then
      (if r.path.length = 1 then ((r.comps.foldl Grid.resetSrc D.2).setSrc mi, [mi]) else (r.comps.foldl Grid.resetSrc D.2, []))
     else (D.2, r.comps)
  have hD2src : ∀ n, g0.On n → (D.2.isSrc n = true ↔ n ∈ s.comps) := by
    intro n hn; rw [d3 n, hsrcr]; exact h.src n hn
  obtain ⟨rs1, rs2, rs3⟩ := fold_resetSrc r.comps D.2 hcompsOn d1.base
  have hgcb : Base g0 gc.1 := by
    simp only [gc]; split
    · split
      · exact rs1.setSrc _
      · exact rs1
    · exact d1.base
  have hgcd : ∀ n, gc.1.isDst n = D.2.isDst n := by
    intro n
    simp only [gc]; split
    · split
      · exact rs3 n
      · exact rs3 n
    · rfl
  obtain ⟨ss1, ss2, ss3⟩ := fold_setSrc (pathNodes r.path) gc.1 (fun n hn => hcellsOn n (hpn n hn)) hgcb
  let comps' := gc.2 ++ (if s.first then pathNodes r.path else (pathNodes r.path).filter (fun n => decide (n ≠ mi)))
  let g' := (pathNodes r.path).foldl Grid.setSrc gc.1
  -- membership in the new component list
  have hlen1 : r.path.length = 1 → r.path = [mi] := by
    intro hl; rw [hpath] at hl ⊢
    cases t with
    | nil => rfl
    | cons y t => simp at hl
  have hlen2 : r.path.length ≠ 1 → 2 ≤ r.path.length := by
    intro hl; rw [hpath] at hl ⊢
    cases t with
    | nil => simp at hl
    | cons y t => simp
  have hc' : ∀ n, n ∈ comps' ↔ (s.first = false ∧ n ∈ s.comps) ∨ n ∈ cells r.path := by
    intro n
    simp only [comps', gc]
    cases hfst : s.first with
    | true =>
      simp only [if_true, Bool.true_eq_false, false_and, false_or]
      by_cases hl : r.path.length = 1
      · rw [if_pos hl, hlen1 hl]; simp [pathNodes, cells, openCells]
      · rw [if_neg hl]
        simp only [List.nil_append]
        exact mem_pathNodes r.path hstr (hlen2 hl) n
    | false =>
      simp only [Bool.false_eq_true, if_false, true_and, List.mem_append, List.mem_filter, decide_eq_true_eq, hcomps1]
      by_cases hl : r.path.length = 1
      · have e := hlen1 hl
        rw [e] at hb hsplit
        simp at hb
        rw [e]
        simp only [pathNodes, cells, openCells, List.getLast?_singleton, Option.toList, List.nil_append, List.dropLast_singleton,
          List.not_mem_nil, or_false, false_and, List.mem_singleton]
        constructor
        · exact Or.inl
        · rintro (h | h)
          · exact h
          · rw [h, hb]; exact hbc
      · rw [mem_pathNodes r.path hstr (hlen2 hl) n]
        constructor
        · rintro ((h | h) | h)
          · exact Or.inl h
          · exact Or.inr (hdl n h)
          · exact Or.inr h.1
        · rintro (h | h)
          · exact Or.inl (Or.inl h)
          · rcases (hsplit n).1 h with h' | h'
            · exact Or.inl (Or.inr h')
            · rw [h']; exact Or.inl (Or.inl hbc)
  have hs' : ∀ n, g0.On n → (g'.isSrc n = true ↔ n ∈ comps') := by
    intro n hn
    rw [ss2 n hn, hc' n]
    simp only [gc]
    cases hfst : s.first with
    | true =>
      simp only [if_true, Bool.true_eq_false, false_and, false_or]
      have hnone : (r.comps.foldl Grid.resetSrc D.2).isSrc n = false := by
        cases hx : (r.comps.foldl Grid.resetSrc D.2).isSrc n with
        | false => rfl
        | true =>
          obtain ⟨x1, x2⟩ := (rs2 n hn).1 hx
          exact absurd ((hcomps1 n).2 (Or.inl ((hD2src n hn).1 x1))) x2
      by_cases hl : r.path.length = 1
      · rw [if_pos hl]
        show (Grid.setSrc _ mi).isSrc n = true ∨ _ ↔ _
        rw [isSrc_setSrc _ _ _ ((rs1.on _).2 hmion) ((rs1.on _).2 hn), hnone, hlen1 hl]
        simp [pathNodes, cells, openCells]
      · rw [if_neg hl]
        show Grid.isSrc _ n = true ∨ _ ↔ _
        rw [hnone, mem_pathNodes r.path hstr (hlen2 hl) n]
        simp
    | false =>
      simp only [Bool.false_eq_true, if_false, true_and]
      rw [hD2src n hn]
      by_cases hl : r.path.length = 1
      · have e := hlen1 hl
        rw [e] at hb
        simp at hb
        rw [e]
        simp only [pathNodes, cells, openCells, List.getLast?_singleton, Option.toList, List.nil_append,
          List.not_mem_nil, or_false, List.mem_singleton]
        constructor
        · exact Or.inl
        · rintro (h | h)
          · exact h
          · rw [h, hb]; exact hbc
      · rw [mem_pathNodes r.path hstr (hlen2 hl) n]
  -- the new state
  have hbg' : Base g0 g' := ss1
  have hst : afterPath real s r =
      { grid := g', unconn := s.unconn.filter (fun x => decide (x ∉ s.m2p.get mi)), m2p := D.1, comps := comps'
        cc1 := (afterPath real s r).cc1, cc2 := (afterPath real s r).cc2
        figs := s.figs ++ writePath g' real r.path, first := false } := by
    simp only [afterPath, g', comps', gc]
    rw [hpath, postUpdate_cons]
    simp only [hD]
  rw [hst]
  have hfigsOK : ∀ f ∈ writePath g' real r.path, FigOK g0 f := by
    intro f hfm
    have e : writePath g' real r.path = writePath g0 real r.path := by
      have hl : ∀ a b, legFigs g' real a b = legFigs g0 real a b := by
        intro a b; simp only [legFigs, viaFigs, hbg'.loc, hbg'.layer]
      have : ∀ p, writePath g' real p = writePath g0 real p := by
        intro p
        induction p with
        | nil => rfl
        | cons a p ih =>
          cases p with
          | nil => rfl
          | cons b p => simp only [writePath, hl]; rw [ih]
      exact this _
    rw [e] at hfm
    exact figOK_path g0 real hr.xs hr.ys hr.edges r.path hstr hedges f hfm
  have hlinkNew := path_linked g' real r.path hstr
  refine ⟨⟨?_, ?_, ?_, hs', ?_, ?_, ?_, ?_, ?_, ?_⟩, ?_⟩
  · exact mapInv_congr d1 hbg' (fun n => by rw [ss3, hgcd])
  · intro n q
    show q ∈ D.1.get n ↔ q ∈ s.unconn.filter _ ∧ _
    rw [d2, h.mem, hunc]
    constructor
    · rintro ⟨⟨x1, x2⟩, x3⟩
      exact ⟨⟨x1, fun hh => x3 ⟨hh, x2⟩⟩, x2⟩
    · rintro ⟨⟨x1, x2⟩, x3⟩
      exact ⟨⟨x1, x3⟩, fun hh => x2 hh.1⟩
  · intro n hn
    rcases (hc' n).1 hn with hn | hn
    · exact h.compsOn n hn.2
    · exact hcellsOn n hn
  · intro p hp; exact h.sub p ((hunc p).1 hp).1
  · obtain ⟨p, hp, hpu⟩ := h.seed
    exact ⟨p, hp, fun hh => hpu ((hunc p).1 hh).1⟩
  · -- every connected pin touches the component
    intro p hp hpu
    by_cases hptmp : p ∈ s.m2p.get mi
    · obtain ⟨_, ap, h1, h2⟩ := (htmp p).1 hptmp
      exact ⟨ap, h1, (hc' _).2 (Or.inr (h2 ▸ hmicell))⟩
    · have hpu' : p ∉ s.unconn := fun hh => hpu ((hunc p).2 ⟨hh, hptmp⟩)
      cases hfst : s.first with
      | false =>
        obtain ⟨ap, h1, h2⟩ := h.conn p hp hpu'
        exact ⟨ap, h1, (hc' _).2 (Or.inl ⟨hfst, h2⟩)⟩
      | true =>
        obtain ⟨_, p0, hp0, hc0, hu0⟩ := h.fst hfst
        have := hu0 p hp hpu'
        subst this
        rw [hc0] at hbc
        obtain ⟨ap, h1, h2⟩ := List.mem_map.1 hbc
        exact ⟨ap, h1, (hc' _).2 (Or.inr ((hsplit _).2 (Or.inr h2)))⟩
  · intro hh; cases hh
  · intro _ x hx y hy
    have hbcell : b ∈ cells r.path := (hsplit b).2 (Or.inr rfl)
    have key : ∀ x ∈ comps', Linked (s.figs ++ writePath g' real r.path) x b := by
      intro x hx
      rcases (hc' x).1 hx with hx | hx
      · exact Linked.mono (fun f hf => List.mem_append_left _ hf) (h.link hx.1 x hx.2 b hbc)
      · exact Linked.mono (fun f hf => List.mem_append_right _ hf) (hlinkNew x hx b hbcell)
    exact (key x hx).trans (key y hy).symm
  · intro f hfm
    rcases List.mem_append.1 hfm with hfm | hfm
    · exact h.figs f hfm
    · exact hfigsOK f hfm
  · show (s.unconn.filter (fun x => decide (x ∉ s.m2p.get mi))).length < s.unconn.length
    apply List.length_filter_lt_length_iff_exists.2
    cases htm : s.m2p.get mi with
    | nil => exact absurd htm htmpne
    | cons q l =>
      have : q ∈ s.m2p.get mi := by rw [htm]; simp
      exact ⟨q, ((htmp q).1 this).1, by simp⟩

end TR
