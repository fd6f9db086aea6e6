import Verif.First.Props
/-! C181: track assignment leaves wires between the GCells of the ends of the guides. -/
namespace TR

variable {E : TaEnv} {G : GGrid} {gs : List TGuide} {h : Bool} {tr tr' : Nat → Int}

/-- in one cell across direction `h` -/
def SameRow (G : GGrid) (h : Bool) (x c : Int) : Prop :=
  ∀ k, 0 ≤ k → k < (G.axis h).1.count → ((gcellSpan (G.axis h).1 (G.axis h).2.1 (G.axis h).2.2 k).1 ≤ x ↔ (gcellSpan (G.axis h).1 (G.axis h).2.1 (G.axis h).2.2 k).1 ≤ c)

theorem sameCell_iff (hf : G.Fits) (h : Bool) (p q : Point) : SameCell G p q ↔ SameRow G h (p.c h) (q.c h) ∧ SameRow G (!h) (p.a h) (q.a h) := by
  have e1 : SameCell G p q ↔ SameRow G false p.x q.x ∧ SameRow G true p.y q.y := by
    unfold SameCell SameRow
    constructor
    · rintro ⟨a, b⟩
      exact ⟨fun k h0 h1 => by have := a k h0 h1; rwa [box_left hf h0 h1] at this, fun k h0 h1 => by have := b k h0 h1; rwa [box_bottom hf h0 h1] at this⟩
    · rintro ⟨a, b⟩
      exact ⟨fun k h0 h1 => by rw [box_left hf h0 h1]; exact a k h0 h1, fun k h0 h1 => by rw [box_bottom hf h0 h1]; exact b k h0 h1⟩
  rw [e1]
  cases h
  · exact Iff.rfl
  · exact And.comm

theorem centre_die (hf : G.Fits) (hw : G.Wide) {h : Bool} {c : Int} (hc : G.Centre h c) : (G.axis h).2.1 ≤ c ∧ c ≤ (G.axis h).2.2 := by
  obtain ⟨i, h0, h1, rfl⟩ := hc
  have := mid_strict h0 h1 (hw h i h0 h1)
  have := span_in_die (axis_fits hf h) h0 h1
  omega

/-- a track in the cell of a centre is in one cell with it -/
theorem row_same (hf : G.Fits) (hw : G.Wide) {h : Bool} {c x : Int} (hc : G.Centre h c) (h1 : (G.row h c).1 ≤ x) (h2 : x < (G.row h c).2) : SameRow G h x c := by
  obtain ⟨d1, d2⟩ := centre_die hf hw hc
  have hfx := axis_fits hf h
  obtain ⟨i, ei, i0, i1, is⟩ := gcellIdx1_iff hfx d1 d2
  unfold GGrid.row at h1 h2
  rw [ei] at h1 h2
  simp only [Option.getD_some] at h1 h2
  intro k k0 k1
  rw [← is k k0 k1]
  constructor
  · intro hk
    apply Classical.byContradiction
    intro hlt
    have := (span_sep hfx i0 (j := k) (by omega) k1).2.2
    omega
  · intro hk
    have := span_lo_mono hfx k0 hk i1
    omega

theorem sameRow_trans {h : Bool} {a b c : Int} (h1 : SameRow G h a b) (h2 : SameRow G h b c) : SameRow G h a c :=
  fun k k0 k1 => (h1 k k0 k1).trans (h2 k k0 k1)

/-- C181: a pass of track assignment over one direction, with the wires of the other direction laid and all tracks in their GCells, leaves each guide of
the direction that goes from one GCell to another a wire that begins in the first and ends in the second. -/
theorem c181_wired (hf : G.Fits) (hw : G.Wide) (hp : GuidePlan E G.Centre gs) {ps : List (Int × Box × Box)} {Bs : List (List (Int × Box × Box))}
    (hh : PanelsHold E h ps gs) (hB : ∀ p, p ∈ ps ↔ ∃ B ∈ Bs, p ∈ B) (hl : Laid E (!h) tr gs) (hin : InCells E G (!h) tr gs) (hin' : InCells E G h tr' gs)
    {i : Nat} {d : TGuide} (hd : gs[i]? = some d) (hdir : E.dir d.layer = h) (hne : ¬ SameCell G d.b d.e) :
    ∃ p q, (runDir E h tr' Bs gs)[i]? = some { d with routes := [(d.layer, p, q)] } ∧ SameCell G p d.b ∧ SameCell G q d.e := by
  have hm := List.mem_of_getElem? hd
  have hstr := hp.straight d hm
  rw [hdir] at hstr
  have hcen := hp.centres d hm
  have hat : ¬ AtPin E d := by
    rintro ⟨e, _⟩
    exact hne (e ▸ ⟨fun _ _ _ => Iff.rfl, fun _ _ _ => Iff.rfl⟩)
  have hrows : InRows E (!h) (G.row (!h)) tr gs := fun j n hn hdn => ⟨(hin j n hn hdn).1, by have := (hin j n hn hdn).2; omega⟩
  obtain ⟨p, q, k1, k2, k3, _, _, k5, k6⟩ := c127_reaches (tr' := tr') hp (grid_rows hf hw (!h)) hh hB hl hrows hd hdir hat
  have hnb : ∀ {j : Nat} {n : TGuide} {pt : Point}, gs[j]? = some n → TaNeighbour E d n pt → G.Centre (!h) (pt.a h) → SameRow G (!h) (tr j) (pt.a h) := by
    intro j n pt hj hn hce
    have hnm := List.mem_of_getElem? hj
    have hlay : E.dir n.layer = !h := by
      have := hp.turns d hm
      rcases hn.2.2 with ⟨e, _⟩ | ⟨e, _⟩
      · have t := this.1; rw [← e, hdir] at t; cases h <;> cases hx : E.dir n.layer <;> simp_all
      · have t := this.2; rw [← e, hdir] at t; cases h <;> cases hx : E.dir n.layer <;> simp_all
    have hns := (hp.straight n hnm).1
    rw [hlay] at hns
    have hcc := passes_c hn.2.1 hns
    rw [point_c_not pt] at hcc
    obtain ⟨a, b⟩ := hin j n hj hlay
    rw [hcc] at a b
    exact row_same hf hw hce a b
  have hcb := (hcen (!h)).1
  have hce := (hcen (!h)).2
  rw [point_c_not] at hcb hce
  have hpa : SameRow G (!h) (p.a h) (d.b.a h) := by
    rcases k5 with ⟨j, n, hj, hn, e⟩ | ⟨_, e⟩
    · rw [e]; exact hnb hj hn hcb
    · rw [e]; exact fun _ _ _ => Iff.rfl
  have hacr : SameRow G h (tr' i) (d.b.c h) := by
    obtain ⟨a, b⟩ := hin' i d hd hdir
    exact row_same hf hw (hcen h).1 a b
  have hsep : ∀ x, SameRow G (!h) x (d.e.a h) → max x (p.a h + 1) = x := by
    intro x hx
    have : ¬ SameRow G (!h) (d.b.a h) (d.e.a h) := by
      intro hs
      exact hne ((sameCell_iff hf h _ _).2 ⟨by rw [hstr.1]; exact fun _ _ _ => Iff.rfl, hs⟩)
    unfold SameRow at this
    simp only [Classical.not_forall] at this
    obtain ⟨k, k0, k1, hk⟩ := this
    have a1 := hpa k k0 k1
    have a2 := hx k k0 k1
    omega
  have hqa : SameRow G (!h) (q.a h) (d.e.a h) := by
    rcases k6 with ⟨j, n, hj, hn, e⟩ | ⟨_, e⟩
    · have := hnb hj hn hce
      rw [e, hsep _ this]; exact this
    · rw [e, hsep _ (fun _ _ _ => Iff.rfl)]; exact fun _ _ _ => Iff.rfl
  refine ⟨p, q, k1, (sameCell_iff hf h _ _).2 ⟨by rw [k2]; exact hacr, hpa⟩, (sameCell_iff hf h _ _).2 ⟨by rw [k3, ← hstr.1]; exact hacr, hqa⟩⟩

theorem inCells_same {o : List TGuide} (hs : SamePlaces gs o) (hi : InCells E G h tr gs) : InCells E G h tr o := by
  intro i d hd hdir
  have hlt : i < gs.length := by rw [← hs.1]; exact (List.getElem?_eq_some_iff.1 hd).1
  obtain ⟨_, s2, s3, _⟩ := hs.2 i gs[i] d (List.getElem?_eq_getElem hlt) hd
  rw [s3]
  exact hi i _ (List.getElem?_eq_getElem hlt) (by rw [← s2]; exact hdir)

theorem guideOk_of_plan (hf : G.Fits) (hw : G.Wide) (hp : GuidePlan E G.Centre gs) {d : TGuide} (hd : d ∈ gs) : GuideOk G d := by
  have hc := hp.centres d hd
  have hs := hp.straight d hd
  have c1 := centre_die hf hw (hc true).1
  have c2 := centre_die hf hw (hc true).2
  have c3 := centre_die hf hw (hc false).1
  have c4 := centre_die hf hw (hc false).2
  simp only [GGrid.axis, Point.c, if_true, Bool.false_eq_true, if_false] at c1 c2 c3 c4
  refine ⟨die_mem.2 ⟨c3.1, c3.2, c1.1, c1.2⟩, die_mem.2 ⟨c4.1, c4.2, c2.1, c2.2⟩, ?_⟩
  cases hx : E.dir d.layer
  · rw [hx] at hs; exact .inr hs
  · rw [hx] at hs; exact .inl hs

/-- C181: after a round of track assignment, a pass over each direction, from a state where the wires of one direction are laid (any round but the first),
every guide between two GCells has a wire from the one to the other. -/
theorem c181_track_assignment (hf : G.Fits) (hw : G.Wide) (hp : GuidePlan E G.Centre gs) {ps ps' : List (Int × Box × Box)}
    {Bs Bs' : List (List (Int × Box × Box))} (hh : PanelsHold E h ps gs) (hB : ∀ p, p ∈ ps ↔ ∃ B ∈ Bs, p ∈ B)
    (hh' : PanelsHold E (!h) ps' gs) (hB' : ∀ p, p ∈ ps' ↔ ∃ B ∈ Bs', p ∈ B) {tr1 tr2 : Nat → Int} (hl : Laid E (!h) tr gs)
    (h0 : InCells E G (!h) tr gs) (h1 : InCells E G h tr1 gs) (h2 : InCells E G (!h) tr2 gs) :
    let o := runDir E (!h) tr2 Bs' (runDir E h tr1 Bs gs)
    SamePlaces gs o ∧ ∀ d ∈ o, GuideOk G d ∧ (SameCell G d.b d.e ∨ WiredFrom G (guideWires o) d) := by
  intro o
  obtain ⟨l1, l2, l3⟩ := c127_both (tr := tr1) (tr' := tr2) hp hh hh' hB hB'
  obtain ⟨a1, a2, _⟩ := c127_one_wire (tr := tr1) hp hh hB
  have hp1 := plan_same hp a2
  obtain ⟨_, b2, b3⟩ := c127_one_wire (tr := tr2) hp1 (holds_same hh' a2) hB'
  refine ⟨l3, fun d hd => ⟨guideOk_of_plan hf hw (plan_same hp l3) hd, ?_⟩⟩
  apply Classical.or_iff_not_imp_left.2
  intro hne
  obtain ⟨i, hi⟩ := List.mem_iff_getElem?.1 hd
  have hwire : ∀ {p q : Point}, d.routes = [(d.layer, p, q)] → SameCell G p d.b → SameCell G q d.e → WiredFrom G (guideWires o) d := by
    intro p q hr s1 s2
    refine ⟨⟨d.net, d.layer.toNat, p, q⟩, ?_, rfl, s1, s2⟩
    unfold guideWires
    rw [List.mem_flatMap]
    exact ⟨d, hd, by rw [hr]; simp⟩
  have hlt1 : i < (runDir E h tr1 Bs gs).length := by rw [← b2.1]; exact (List.getElem?_eq_some_iff.1 hi).1
  have hlt : i < gs.length := by rw [← a2.1]; exact hlt1
  have hi1 := List.getElem?_eq_getElem hlt1
  have hi0 := List.getElem?_eq_getElem hlt
  obtain ⟨s1, s2, s3, s4⟩ := b2.2 i _ d hi1 hi
  obtain ⟨t1, t2, t3, t4⟩ := a2.2 i _ _ hi0 hi1
  by_cases hdir : E.dir d.layer = h
  · have e := b3 i _ hi1 (by rw [← s2, hdir]; cases h <;> simp)
    rw [hi] at e
    obtain ⟨p, q, k1, k2, k3⟩ := c181_wired hf hw hp hh hB hl h0 h1 hi0 (by rw [← t2, ← s2]; exact hdir) (by rw [← t3, ← t4, ← s3, ← s4]; exact hne)
    rw [hi1, ← e] at k1
    rw [← t3, ← s3] at k2
    rw [← t4, ← s4] at k3
    refine hwire (p := p) (q := q) ?_ k2 k3
    have := congrArg (Option.map TGuide.routes) k1
    simp only [Option.map_some, Option.some.injEq] at this
    rw [this, ← t2, ← s2]
  · have hdir' : E.dir d.layer = !h := by cases h <;> cases hx : E.dir d.layer <;> simp_all
    obtain ⟨p, q, k1, k2, k3⟩ := c181_wired (h := !h) (tr := tr1) (tr' := tr2) hf hw hp1 (holds_same hh' a2) hB' (by rw [Bool.not_not]; exact a1)
      (by rw [Bool.not_not]; exact inCells_same a2 h1) (inCells_same a2 h2) hi1 (by rw [← s2]; exact hdir') (by rw [← s3, ← s4]; exact hne)
    rw [← s3] at k2
    rw [← s4] at k3
    refine hwire (p := p) (q := q) ?_ k2 k3
    have := congrArg (Option.map TGuide.routes) (hi.symm.trans k1)
    simp only [Option.map_some, Option.some.injEq] at this
    rw [this, ← s2]

theorem hang_same {net : Nat} {o : List TGuide} {ts : List GrTerm} (hs : SamePlaces gs o) {p q : Point} (hh : Hang net gs ts p q) : Hang net o ts p q := by
  induction hh with
  | refl => exact .refl _
  | term _ a b ih => exact .term ih a b
  | @guide q r d _ hd hn pq pr ih =>
    obtain ⟨i, hi⟩ := List.mem_iff_getElem?.1 hd
    have hlt : i < o.length := by rw [hs.1]; exact (List.getElem?_eq_some_iff.1 hi).1
    obtain ⟨s1, _, s3, s4⟩ := hs.2 i d _ hi (List.getElem?_eq_getElem hlt)
    refine .guide ih (List.getElem_mem hlt) (by rw [s1, hn]) ?_ ?_ <;> unfold TGuide.Passes <;> rw [s3, s4] <;> assumption

/-- C181, together: after a round of track assignment that is not the first, if every region of the first iteration of detailed routing connects the pins it
is given of a net, any two terminals of the net that hang together through its guides are connected. -/
theorem c181_terminals {clip : Int} (hf : G.Fits) (hw : G.Wide) (hc : 0 < clip) (hp : GuidePlan E G.Centre gs) {ps ps' : List (Int × Box × Box)}
    {Bs Bs' : List (List (Int × Box × Box))} (hh : PanelsHold E h ps gs) (hB : ∀ p, p ∈ ps ↔ ∃ B ∈ Bs, p ∈ B)
    (hh' : PanelsHold E (!h) ps' gs) (hB' : ∀ p, p ∈ ps' ↔ ∃ B ∈ Bs', p ∈ B) {tr1 tr2 : Nat → Int} (hl : Laid E (!h) tr gs)
    (h0 : InCells E G (!h) tr gs) (h1 : InCells E G h tr1 gs) (h2 : InCells E G (!h) tr2 gs) {ws : List TWire}
    (hw' : ws = guideWires (runDir E (!h) tr2 Bs' (runDir E h tr1 Bs gs))) (hok : ∀ w ∈ ws, w.Ok G)
    (hlen : ∀ w ∈ ws, w.dummy = true → SameCell G w.b w.e) {pins : List CellPin} (hpin : cellPins G ws = some pins)
    {ts : List GrTerm} (hts : ∀ t ∈ ts, G.die.Mem t.at_) {net : Nat} {R : RegPin → RegPin → Prop} (symm : ∀ a b, R a b → R b a)
    (trans : ∀ a b c, R a b → R b c → R a c)
    (hR : ∀ W ∈ genWorkers G clip 0, ∀ a ∈ netPins G pins clip ts W net, ∀ b ∈ netPins G pins clip ts W net, R a b)
    {t1 t2 : Nat} {p q : Point} (m1 : ⟨t1, net, p⟩ ∈ ts) (m2 : ⟨t2, net, q⟩ ∈ ts) (hang : Hang net gs ts p q) : R (.term t1) (.term t2) := by
  obtain ⟨hs, hall⟩ := c181_track_assignment hf hw hp hh hB hh' hB' hl h0 h1 h2
  subst hw'
  exact c181_connected hf hc hok hpin symm trans hR (fun d hd _ => hall d hd) hlen hts m1 m2 (hang_same hs hang)

/-! ### example: the net of two guides over two by two GCells, with a terminal at either end, after two rounds -/

def exFirstTerms : List GrTerm := [⟨7, 0, ⟨50, 50⟩⟩, ⟨8, 0, ⟨150, 150⟩⟩, ⟨9, 1, ⟨50, 150⟩⟩]
/-- the guides after the first round -/
def exFirstGuides : List TGuide := runDir (exTaEnv []) false exTaTr (exTaBatches false) (runDir (exTaEnv []) true exTaTr (exTaBatches true) exTaGuides)
def exFirstOut : List TGuide := runDir (exTaEnv []) false exTaTr (exTaBatches false) (runDir (exTaEnv []) true exTaTr (exTaBatches true) exFirstGuides)
theorem exFirstOut_eq : guideWires exFirstOut = [⟨0, 2, ⟨50, 30⟩, ⟨170, 30⟩⟩, ⟨0, 4, ⟨170, 30⟩, ⟨170, 150⟩⟩, ⟨1, 2, ⟨50, 130⟩, ⟨150, 130⟩⟩] := by
  unfold exFirstOut exFirstGuides
  rw [exTaRun2]
  decide +kernel

theorem exFirst_cells (h : Bool) : InCells (exTaEnv []) exTaGrid h exTaTr exFirstGuides := by
  unfold exFirstGuides
  rw [exTaRun2]
  intro i d hd hdir
  match i with
  | 0 => cases hd; cases h <;> first | exact absurd hdir (by decide) | exact ⟨by decide, by decide⟩
  | 1 => cases hd; cases h <;> first | exact absurd hdir (by decide) | exact ⟨by decide, by decide⟩
  | 2 => cases hd; cases h <;> first | exact absurd hdir (by decide) | exact ⟨by decide, by decide⟩
  | n + 3 => simp at hd

/-- every hypothesis of `c181_terminals` holds, with regions of one GCell, and each region has pins of the net: the terminal and the places where the
wires cross the borders -/
example : Laid (exTaEnv []) (!true) exTaTr exFirstGuides ∧ GuidePlan (exTaEnv []) exTaGrid.Centre exFirstGuides ∧
    (∀ w ∈ guideWires exFirstOut, w.Ok exTaGrid) ∧ (∀ w ∈ guideWires exFirstOut, w.dummy = true → SameCell exTaGrid w.b w.e) ∧
    (∀ t ∈ exFirstTerms, exTaGrid.die.Mem t.at_) ∧ Hang 0 exFirstGuides exFirstTerms ⟨50, 50⟩ ⟨150, 150⟩ ∧
    (cellPins exTaGrid (guideWires exFirstOut)).map (fun pins => (genWorkers exTaGrid 1 0).map (fun W => netPins exTaGrid pins 1 exFirstTerms W 0)) =
      some [[.term 7, .border ⟨100, 30⟩ 2], [], [.border ⟨100, 30⟩ 2, .border ⟨170, 100⟩ 4], [.term 8, .border ⟨170, 100⟩ 4]] := by
  have hb := c127_both (tr := exTaTr) (tr' := exTaTr) (exTaPlan []) (c127_grid exTaGrid_fits exTaGrid_wide (exTaPlan []) true (size := 1) (by decide)).1
    (c127_grid exTaGrid_fits exTaGrid_wide (exTaPlan []) false (size := 1) (by decide)).1 (exTaBatches_all true) (exTaBatches_all false)
  refine ⟨hb.2.1, plan_same (exTaPlan []) hb.2.2, ?_, ?_, ?_, ?_, ?_⟩
  · rw [exFirstOut_eq]
    intro w hw
    simp only [List.mem_cons, List.not_mem_nil, or_false] at hw
    rcases hw with rfl | rfl | rfl <;> simp [TWire.Ok, TWire.InDie, exTaGrid, Box.Mem, InRect, Box.left, Box.right, Box.bottom, Box.top]
  · rw [exFirstOut_eq]
    intro w hw
    simp only [List.mem_cons, List.not_mem_nil, or_false] at hw
    rcases hw with rfl | rfl | rfl <;> intro h <;> exact absurd h (by decide)
  · intro t ht
    simp only [exFirstTerms, List.mem_cons, List.not_mem_nil, or_false] at ht
    rcases ht with rfl | rfl | rfl <;> simp [exTaGrid, Box.Mem, InRect, Box.left, Box.right, Box.bottom, Box.top]
  · refine hang_same hb.2.2 ?_
    have g1 : Hang 0 exTaGuides exFirstTerms ⟨50, 50⟩ ⟨150, 50⟩ :=
      .guide (d := ⟨0, 2, ⟨50, 50⟩, ⟨150, 50⟩, []⟩) (.refl _) (by simp [exTaGuides]) rfl (by unfold TGuide.Passes; decide) (by unfold TGuide.Passes; decide)
    exact .guide (d := ⟨0, 4, ⟨150, 50⟩, ⟨150, 150⟩, []⟩) g1 (by simp [exTaGuides]) rfl (by unfold TGuide.Passes; decide) (by unfold TGuide.Passes; decide)
  · rw [exFirstOut_eq]; decide +kernel

/-- C181, what does not hold without the condition on short wires: a wire of one unit from one GCell to the next, here from 99 to 100, gives no region
a pin. The two terminals at its ends are each alone in their region, so regions that connect all they are given leave the net open. -/
theorem c181_short_wire : ∃ (g : GGrid) (ws : List TWire) (pins : List CellPin) (d : TGuide) (ts : List GrTerm) (R : RegPin → RegPin → Prop),
    g.Fits ∧ (∀ w ∈ ws, w.Ok g) ∧ cellPins g ws = some pins ∧ GuideOk g d ∧ WiredFrom g ws d ∧ (∀ t ∈ ts, g.die.Mem t.at_) ∧
    (∀ a b, R a b → R b a) ∧ (∀ a b c, R a b → R b c → R a c) ∧
    (∀ W ∈ genWorkers g 1 0, ∀ a ∈ netPins g pins 1 ts W 0, ∀ b ∈ netPins g pins 1 ts W 0, R a b) ∧
    ⟨7, 0, d.b⟩ ∈ ts ∧ ⟨8, 0, d.e⟩ ∈ ts ∧ Hang 0 [d] ts d.b d.e ∧ ¬ R (.term 7) (.term 8) := by
  refine ⟨exTaGrid, [⟨0, 2, ⟨99, 30⟩, ⟨100, 30⟩⟩], [], ⟨0, 2, ⟨50, 50⟩, ⟨150, 50⟩, []⟩, [⟨7, 0, ⟨50, 50⟩⟩, ⟨8, 0, ⟨150, 50⟩⟩], (· = ·), exTaGrid_fits,
    ?_, by decide +kernel, ?_, ?_, ?_, fun _ _ => Eq.symm, fun _ _ _ => Eq.trans, by decide +kernel, by simp, by simp, ?_, by simp⟩
  · intro w hw
    simp only [List.mem_cons, List.not_mem_nil, or_false] at hw
    subst hw
    simp [TWire.Ok, TWire.InDie, exTaGrid, Box.Mem, InRect, Box.left, Box.right, Box.bottom, Box.top]
  · refine ⟨?_, ?_, .inl ⟨rfl, by decide⟩⟩ <;> simp [exTaGrid, Box.Mem, InRect, Box.left, Box.right, Box.bottom, Box.top]
  · refine ⟨_, List.mem_cons_self, rfl, ⟨?_, ?_⟩, ⟨?_, ?_⟩⟩ <;> intro k h0 h1 <;> have hk : k = 0 ∨ k = 1 := (by simp only [exTaGrid] at h1; omega) <;>
      rcases hk with rfl | rfl <;> decide
  · intro t ht
    simp only [List.mem_cons, List.not_mem_nil, or_false] at ht
    rcases ht with rfl | rfl <;> simp [exTaGrid, Box.Mem, InRect, Box.left, Box.right, Box.bottom, Box.top]
  · exact .guide (.refl _) List.mem_cons_self rfl (by unfold TGuide.Passes; decide) (by unfold TGuide.Passes; decide)

example : regionNets ⟨⟨0, 0⟩, ⟨100, 100⟩⟩ [4, 0] [(2, ⟨⟨90, 0⟩, ⟨110, 10⟩⟩), (3, ⟨⟨101, 0⟩, ⟨110, 10⟩⟩)] exFirstTerms = [4, 0, 2] := by decide +kernel

end TR
