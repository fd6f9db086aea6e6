import Verif.First.Wires
import Verif.GFinal.Props
/-! C182: from the guides of a net to its connection in the first iteration of detailed routing. -/
namespace TR

/-- the pins of global routing of net `k`: each pin of the net at the centre of the GCell chosen for it — src/io/io_guide.cpp:741-753 -/
def GFinal.terms (G : GGrid) (k : Nat) (F : GFinal) : List GrTerm := F.pins.map fun x => ⟨x.1, k, G.center x.2.pt⟩

/-- a round of track assignment: a pass over each direction, with the batches of panels and the tracks that are chosen — src/ta/FlexTA.cpp:245-341 -/
structure TaRound where
  tr1 : Nat → Int
  Bs1 : List (List (Int × Box × Box))
  tr2 : Nat → Int
  Bs2 : List (List (Int × Box × Box))

/-- `initTA`, `searchRepair`: direction `h`, that of the lowest routing layer, first — src/ta/FlexTA.cpp:245-285, 287-341 -/
def TaRound.run (E : TaEnv) (h : Bool) (r : TaRound) (gs : List TGuide) : List TGuide := runDir E (!h) r.tr2 r.Bs2 (runDir E h r.tr1 r.Bs1 gs)

/-- `FlexTA::main`: the initial assignment and one round of repair — src/ta/FlexTA.cpp:343-361 -/
def taMain (E : TaEnv) (h : Bool) (first repair : TaRound) (gs : List TGuide) : List TGuide := repair.run E h (first.run E h gs)

/-- the batches of a round cover the panels of both directions, and the tracks lie in their GCells -/
structure TaRound.Ok (E : TaEnv) (G : GGrid) (h : Bool) (size : Int) (gs : List TGuide) (r : TaRound) : Prop where
  cover1 : ∀ p, p ∈ taPanels G h size ↔ ∃ B ∈ r.Bs1, p ∈ B
  cover2 : ∀ p, p ∈ taPanels G (!h) size ↔ ∃ B ∈ r.Bs2, p ∈ B
  cells1 : InCells E G h r.tr1 gs
  cells2 : InCells E G (!h) r.tr2 gs

variable {E : TaEnv} {G : GGrid} {gs : List TGuide} {h : Bool} {T : GuideTech}

/-- C182: track assignment (its two rounds) leaves every guide where it was and gives every guide between two GCells a wire from the one to the other. -/
theorem c182_all_wired (hf : G.Fits) (hw : G.Wide) (hp : GuidePlan E G.Centre gs) {size : Int} (hs : 0 < size) {first repair : TaRound}
    (h1 : first.Ok E G h size gs) (h2 : repair.Ok E G h size gs) :
    SamePlaces gs (taMain E h first repair gs) ∧
    ∀ d ∈ taMain E h first repair gs, GuideOk G d ∧ (SameCell G d.b d.e ∨ WiredFrom G (guideWires (taMain E h first repair gs)) d) := by
  have p1 := (c127_grid hf hw hp h hs).1
  have p2 := (c127_grid hf hw hp (!h) hs).1
  obtain ⟨_, l2, l3⟩ := c127_both (tr := first.tr1) (tr' := first.tr2) hp p1 p2 h1.cover1 h1.cover2
  have := c181_track_assignment (tr := first.tr2) (tr1 := repair.tr1) (tr2 := repair.tr2) hf hw (plan_same hp l3) (holds_same p1 l3) h2.cover1
    (holds_same p2 l3) h2.cover2 l2 (inCells_same l3 h1.cells2) (inCells_same l3 h2.cells1) (inCells_same l3 h2.cells2)
  refine ⟨⟨this.1.1.trans l3.1, ?_⟩, this.2⟩
  intro i g g' hg hg'
  have hlt : i < gs.length := (List.getElem?_eq_some_iff.1 hg).1
  have hi := List.getElem?_eq_getElem (l := runDir E (!h) first.tr2 first.Bs2 (runDir E h first.tr1 first.Bs1 gs)) (by rw [l3.1]; exact hlt)
  obtain ⟨s1, s2, s3, s4⟩ := this.1.2 i _ g' hi hg'
  obtain ⟨t1, t2, t3, t4⟩ := l3.2 i g _ hg hi
  exact ⟨by rw [s1, t1], by rw [s2, t2], by rw [s3, t3], by rw [s4, t4]⟩

section
variable (ha : T.Alternates) (hG : G.Fits) {rects : List GuideRect} {iv : Intvs}
  (hm : mergeGuides T (fun p => (G.idx p).getD ⟨0, 0⟩) rects = some iv)
  {pinCells : List (List Node)} (hp : 2 ≤ pinCells.length) {allowFt : Bool} {pen : Nat} {pick : Nat → Nat → Nat} {fuel : Nat}
  (hf : EnoughFuel T iv pinCells fuel) {F : GFinal}
  (hng : netGuides T (fun p => (G.idx p).getD ⟨0, 0⟩) rects pinCells allowFt pen pick fuel = some F)
include ha hG hm hp hf hng

theorem guide_range {i : Nat} {s : GSeg} (hs : (i, s) ∈ F.guides) {n : Node} (hn : s.Has T n) : G.InRange n.pt := by
  have hidx : ∀ p, G.InRange ((G.idx p).getD ⟨0, 0⟩) := by
    intro p
    obtain ⟨c, h1, h2, _⟩ := c21_index_in_range_and_contains G hG p
    rw [h1]; exact h2
  have hin : ∀ m : Node, (∃ r ∈ rects, r.Covers (fun p => (G.idx p).getD ⟨0, 0⟩) m) → G.InRange m.pt := by
    rintro m ⟨r, hr, e, h1, h2, h3, h4⟩
    obtain ⟨a1, a2, a3, a4⟩ := hidx r.box.ll
    obtain ⟨b1, b2, b3, b4⟩ := hidx ⟨r.box.right - 1, r.box.top - 1⟩
    dsimp only at h1 h2 h3 h4
    exact ⟨by omega, by omega, by omega, by omega⟩
  obtain ⟨_, _, hc⟩ := (c132_within hm hp hf hng hs).2 n hn
  rcases (c42_merge_coverage ha hm n).2 hc with h | h | h
  · have := hin _ h; exact this
  · have := hin _ h; exact this
  · have := hin _ h; exact this

theorem guide_passes (k : Nat) {i : Nat} {s : GSeg} (hs : (i, s) ∈ F.guides) {n : Node} (hn : s.Has T n) :
    (⟨k, s.l, G.center (T.cell s.l s.t s.b).pt, G.center (T.cell s.l s.t s.e).pt, []⟩ : TGuide).Passes (G.center n.pt) := by
  have hle := (c132_within hm hp hf hng hs).1
  have rb := guide_range ha hG hm hp hf hng hs (ends_has hle (show T.cell s.l s.t s.b ∈ s.ends T by simp [GSeg.ends]))
  have re := guide_range ha hG hm hp hf hng hs (ends_has hle (show T.cell s.l s.t s.e ∈ s.ends T by simp [GSeg.ends]))
  have rn := guide_range ha hG hm hp hf hng hs hn
  obtain ⟨e1, e2, e3, e4⟩ := hn
  unfold TGuide.Passes
  dsimp only
  unfold GuideTech.cell GuideTech.track GuideTech.pos GGrid.center at *
  rw [← e1] at e2 e3 e4
  cases hh : T.horz s.l with
  | true =>
    simp only [hh, if_true] at *
    rw [e2]
    have m1 := mid_mono hG.1 rb.1 e3 rn.2.1
    have m2 := mid_mono hG.1 rn.1 e4 re.2.1
    dsimp only at m1 m2
    omega
  | false =>
    simp only [hh, Bool.false_eq_true, if_false] at *
    rw [e2]
    have m1 := mid_mono hG.2 rb.2.2.1 e3 rn.2.2.2
    have m2 := mid_mono hG.2 rn.2.2.1 e4 re.2.2.2
    dsimp only at m1 m2
    omega

/-- C182: the guides kept for a net make all its pins hang together: any place of any pin with any place of any other. -/
theorem c182_hang (k : Nat) : (∀ j, j < pinCells.length → ∃ p, ⟨j, k, p⟩ ∈ F.terms G k) ∧
    ∀ i j p q, ⟨i, k, p⟩ ∈ F.terms G k → ⟨j, k, q⟩ ∈ F.terms G k → Hang k (F.objects T G k) (F.terms G k) p q := by
  obtain ⟨hall, hplace⟩ := c131_pins_placed hm hp hf hng
  refine ⟨fun j hj => ?_, fun i j p q hi hj => ?_⟩
  · obtain ⟨n, hn⟩ := hall j hj
    exact ⟨G.center n.pt, List.mem_map.2 ⟨_, hn, rfl⟩⟩
  · obtain ⟨⟨i', a⟩, ha', e⟩ := List.mem_map.1 hi
    obtain ⟨⟨j', b⟩, hb', e'⟩ := List.mem_map.1 hj
    clear hj
    simp only [GrTerm.mk.injEq, true_and] at e e'
    obtain ⟨rfl, rfl⟩ := e
    obtain ⟨rfl, rfl⟩ := e'
    obtain ⟨ft, _, hch⟩ := c131_connected hm hp hf hng
    have hon : ∀ {j : Nat} {n : Node}, (j, n) ∈ F.pins → F.On T n := by
      intro j n hn
      obtain ⟨i, s, h1, h2⟩ := (hplace j n hn).2
      exact ⟨i, s, h1, ends_has (c132_within hm hp hf hng h1).1 h2⟩
    have hc := hch a b (hon ha') (hon hb')
    clear hb'
    induction hc with
    | refl => exact .refl _
    | step _ hl hk ih =>
      rcases hl with ⟨i, s, hs, h1, h2⟩ | ⟨e, _⟩ | ⟨t, _, h1, h2⟩
      · exact .guide ih (List.mem_map.2 ⟨_, hs, rfl⟩) rfl (guide_passes ha hG hm hp hf hng k hs h1) (guide_passes ha hG hm hp hf hng k hs h2)
      · rw [← e]; exact ih
      · exact .term ih (List.mem_map.2 ⟨(t, _), h1, rfl⟩) (List.mem_map.2 ⟨(t, _), h2, rfl⟩)
end

theorem hang_mono {net : Nat} {gs gs' : List TGuide} {ts ts' : List GrTerm} (h1 : ∀ d ∈ gs, d ∈ gs') (h2 : ∀ t ∈ ts, t ∈ ts') {p q : Point}
    (hh : Hang net gs ts p q) : Hang net gs' ts' p q := by
  induction hh with
  | refl => exact .refl _
  | term _ a b ih => exact .term ih (h2 _ a) (h2 _ b)
  | guide _ hd hn pq pr ih => exact .guide ih (h1 _ hd) hn pq pr

theorem center_die (hf : G.Fits) (hw : G.Wide) {c : Point} (hc : G.InRange c) : G.die.Mem (G.center c) := by
  have a := centre_die (h := false) hf hw ⟨c.x, hc.1, hc.2.1, rfl⟩
  have b := centre_die (h := true) hf hw ⟨c.y, hc.2.2.1, hc.2.2.2, rfl⟩
  exact die_mem.2 ⟨a.1, a.2, b.1, b.2⟩

/-- the guides of a design: each net with the guides that `genGuides` kept for it -/
def designGuides (T : GuideTech) (G : GGrid) (nets : List (Nat × GFinal)) : List TGuide := nets.flatMap fun x => x.2.objects T G x.1
/-- the pins of global routing of a design, with the pins of other nets -/
def designTerms (G : GGrid) (nets : List (Nat × GFinal)) : List GrTerm := nets.flatMap fun x => x.2.terms G x.1

/-- a net whose guides were made: by `genGuides` from the rectangles of the guide file and the GCells of its pins -/
structure GuidedNet (T : GuideTech) (G : GGrid) (E : TaEnv) (F : GFinal) (pinCount : Nat) : Prop where
  made : ∃ rects iv pinCells allowFt pen pick fuel, mergeGuides T (fun p => (G.idx p).getD ⟨0, 0⟩) rects = some iv ∧
    (∀ r ∈ rects, ∀ l, l = r.layer ∨ l = r.layer - 2 ∨ l = r.layer + 2 → 0 ≤ l → l < T.nLayers → E.routing l = true) ∧
    pinCells.length = pinCount ∧ 2 ≤ pinCells.length ∧ EnoughFuel T iv pinCells fuel ∧
    netGuides T (fun p => (G.idx p).getD ⟨0, 0⟩) rects pinCells allowFt pen pick fuel = some F

/-- C182: take a design whose nets have the guides that the program makes of the guide file. After track assignment, with tracks inside their GCells, if
every region of the first iteration of detailed routing joins the pins it is given of a net, all pins of the net are joined with each other. -/
theorem c182_net_connected {clip size : Int} (ha : T.Alternates) (hf : G.Fits) (hw : G.Wide) (hc : 0 < clip) (hs : 0 < size) (hE : E.dir = T.horz)
    {nets : List (Nat × GFinal)} {count : Nat → Nat} (hn : ∀ x ∈ nets, GuidedNet T G E x.2 (count x.1))
    {first repair : TaRound} (h1 : first.Ok E G h size (designGuides T G nets)) (h2 : repair.Ok E G h size (designGuides T G nets))
    {ws : List TWire} (hws : ws = guideWires (taMain E h first repair (designGuides T G nets))) (hok : ∀ w ∈ ws, w.Ok G)
    (hlen : ∀ w ∈ ws, w.dummy = true → SameCell G w.b w.e) {pins : List CellPin} (hpin : cellPins G ws = some pins)
    {k : Nat} {F : GFinal} (hk : (k, F) ∈ nets) {R : RegPin → RegPin → Prop} (symm : ∀ a b, R a b → R b a) (trans : ∀ a b c, R a b → R b c → R a c)
    (hR : ∀ W ∈ genWorkers G clip 0, ∀ a ∈ netPins G pins clip (designTerms G nets) W k, ∀ b ∈ netPins G pins clip (designTerms G nets) W k, R a b)
    {i j : Nat} (hi : i < count k) (hj : j < count k) : R (.term i) (.term j) := by
  have hplan : GuidePlan E G.Centre (designGuides T G nets) := by
    have key : ∀ g ∈ designGuides T G nets, ∃ o, GuidePlan E G.Centre o ∧ g ∈ o := by
      intro g hg
      obtain ⟨x, hx, hgx⟩ := List.mem_flatMap.1 hg
      obtain ⟨rects, iv, pinCells, allowFt, pen, pick, fuel, m1, m2, m3, m4, m5, m6⟩ := (hn x hx).made
      exact ⟨_, (c132_plan ha hf hE m1 m2 m4 m5 m6 x.1).1, hgx⟩
    refine ⟨?_, ?_, ?_, ?_⟩ <;> intro g hg <;> obtain ⟨o, ho, hgo⟩ := key g hg
    · exact ho.routing g hgo
    · exact ho.turns g hgo
    · exact ho.straight g hgo
    · exact ho.centres g hgo
  have hts : ∀ t ∈ designTerms G nets, G.die.Mem t.at_ := by
    intro t ht
    obtain ⟨x, hx, htx⟩ := List.mem_flatMap.1 ht
    obtain ⟨rects, iv, pinCells, allowFt, pen, pick, fuel, m1, m2, m3, m4, m5, m6⟩ := (hn x hx).made
    obtain ⟨⟨j, n⟩, hjn, rfl⟩ := List.mem_map.1 htx
    obtain ⟨i, s, g1, g2⟩ := ((c131_pins_placed m1 m4 m5 m6).2 j n hjn).2
    exact center_die hf hw (guide_range ha hf m1 m4 m5 m6 g1 (ends_has (c132_within m1 m4 m5 m6 g1).1 g2))
  obtain ⟨rects, iv, pinCells, allowFt, pen, pick, fuel, m1, m2, m3, m4, m5, m6⟩ := (hn _ hk).made
  obtain ⟨t1, t2⟩ := c182_hang ha hf m1 m4 m5 m6 k
  obtain ⟨p, hp⟩ := t1 i (by rw [m3]; exact hi)
  obtain ⟨q, hq⟩ := t1 j (by rw [m3]; exact hj)
  have hsub : ∀ t ∈ F.terms G k, t ∈ designTerms G nets := fun t ht => List.mem_flatMap.2 ⟨_, hk, ht⟩
  have hang := hang_mono (gs' := designGuides T G nets) (fun d hd => List.mem_flatMap.2 ⟨_, hk, hd⟩) hsub (t2 i j p q hp hq)
  obtain ⟨sp, hall⟩ := c182_all_wired hf hw hplan hs h1 h2
  subst hws
  exact c181_connected hf hc hok hpin symm trans hR (fun d hd _ => hall d hd) hlen hts (hsub _ hp) (hsub _ hq) (hang_same sp hang)

/-! ### example: a net from (50, 50) up on layer 4, right on layer 6, and down to (350, 350), on four by four GCells -/

def exRouteGrid : GGrid := ⟨⟨⟨0, 0⟩, ⟨400, 400⟩⟩, ⟨0, 100, 4⟩, ⟨0, 100, 4⟩⟩
def exRouteRects : List GuideRect := guideDemoRects.map fun r => ⟨r.layer, ⟨⟨r.box.ll.x * 100, r.box.ll.y * 100⟩, ⟨r.box.ur.x * 100, r.box.ur.y * 100⟩⟩⟩
def exRouteEnv : TaEnv := ⟨2, 7, guideDemoT.horz, fun l => decide (l % 2 = 0), [], fun _ => ⟨.extend, 20, .extend, 20, 40⟩, fun _ => exVia⟩
def exRouteNet : GFinal := ⟨[(0, ⟨2, 0, 0, 0⟩), (1, ⟨2, 3, 3, 3⟩), (2, ⟨4, 0, 0, 3⟩), (3, ⟨4, 3, 3, 3⟩), (4, ⟨6, 3, 0, 3⟩)],
  [(0, ⟨⟨0, 0⟩, 2⟩), (1, ⟨⟨3, 3⟩, 2⟩)]⟩
def exRouteIdx : Point → Point := fun p => (exRouteGrid.idx p).getD ⟨0, 0⟩
/-- tracks of the five guides -/
def exRouteTr : Nat → Int := fun i => [20, 340, 60, 360, 380].getD i 0
def exRound : TaRound := ⟨exRouteTr, (taPanels exRouteGrid true 50).map fun p => [p], exRouteTr, (taPanels exRouteGrid false 50).map fun p => [p]⟩

theorem exRouteGrid_fits : exRouteGrid.Fits := by unfold GGrid.Fits AxisFits; decide
theorem exRouteGrid_wide : exRouteGrid.Wide := by
  intro h i h0 h1
  have hi : i = 0 ∨ i = 1 ∨ i = 2 ∨ i = 3 := by cases h <;> simp only [exRouteGrid, GGrid.axis, if_true, Bool.false_eq_true, if_false] at h1 <;> omega
  rcases hi with rfl | rfl | rfl | rfl <;> cases h <;> decide

set_option maxRecDepth 100000 in
theorem exRoute_run : netGuides guideDemoT exRouteIdx exRouteRects guideDemoPins false 3 (fun _ _ => 0) 2000 = some exRouteNet := by decide +kernel

set_option maxRecDepth 100000 in
theorem exRoute_split (retry : Bool) : (mergeGuides guideDemoT exRouteIdx exRouteRects).bind (fun iv => splitGuides guideDemoT iv guideDemoPins retry) =
    some (exRouteNet.guides.map (·.2)) := by cases retry <;> decide +kernel

theorem exRoute_guided : GuidedNet guideDemoT exRouteGrid exRouteEnv exRouteNet 2 := by
  obtain ⟨iv, h⟩ : ∃ iv, mergeGuides guideDemoT exRouteIdx exRouteRects = some iv := ⟨_, rfl⟩
  refine ⟨exRouteRects, iv, guideDemoPins, false, 3, fun _ _ => 0, 2000, h, ?_, rfl, by decide, ?_, exRoute_run⟩
  · intro r hr l hl _ _
    simp only [exRouteRects, guideDemoRects, List.map_cons, List.map_nil, List.mem_cons, List.not_mem_nil, or_false] at hr
    simp only [exRouteEnv, decide_eq_true_eq]
    rcases hr with rfl | rfl | rfl | rfl | rfl | rfl <;> dsimp only at hl <;> omega
  · have hpins : (mergeGuides guideDemoT exRouteIdx exRouteRects).map (fun iv => guidePins guideDemoT iv guideDemoPins) = some guideDemoPins := by decide +kernel
    rw [h] at hpins
    simp only [Option.map_some, Option.some.injEq] at hpins
    intro retry segs hs
    have := exRoute_split retry
    rw [h] at this
    simp only [Option.bind_some] at this
    rw [hs] at this
    cases this
    rw [hpins]
    decide +kernel

theorem singles {α : Type} (l : List α) (p : α) : p ∈ l ↔ ∃ B ∈ l.map (fun p => [p]), p ∈ B := by
  simp only [List.mem_map]
  constructor
  · intro hp; exact ⟨_, ⟨p, hp, rfl⟩, List.mem_singleton_self p⟩
  · rintro ⟨B, ⟨q, hq, rfl⟩, hb⟩; rw [List.mem_singleton] at hb; rw [hb]; exact hq

theorem exRound_ok : exRound.Ok exRouteEnv exRouteGrid true 50 (designGuides guideDemoT exRouteGrid [(5, exRouteNet)]) := by
  refine ⟨singles _, singles _, ?_, ?_⟩ <;> intro i d hd hdir <;>
    (match i with
    | 0 | 1 | 2 | 3 | 4 => cases hd; first | exact absurd hdir (by decide) | exact ⟨by decide, by decide⟩
    | n + 5 => simp [designGuides, GFinal.objects, exRouteNet] at hd)

theorem exRoute_wires : guideWires (taMain exRouteEnv true exRound exRound (designGuides guideDemoT exRouteGrid [(5, exRouteNet)])) =
    [⟨5, 2, ⟨60, 20⟩, ⟨61, 20⟩⟩, ⟨5, 2, ⟨360, 340⟩, ⟨361, 340⟩⟩, ⟨5, 4, ⟨60, 20⟩, ⟨60, 380⟩⟩, ⟨5, 4, ⟨360, 340⟩, ⟨360, 380⟩⟩, ⟨5, 6, ⟨60, 380⟩, ⟨360, 380⟩⟩] := by
  decide +kernel

/-- with this net every hypothesis of `c182_net_connected` is met, for regions of two by two GCells -/
example : ∃ pins, cellPins exRouteGrid (guideWires (taMain exRouteEnv true exRound exRound (designGuides guideDemoT exRouteGrid [(5, exRouteNet)]))) = some pins ∧
    (∀ w ∈ guideWires (taMain exRouteEnv true exRound exRound (designGuides guideDemoT exRouteGrid [(5, exRouteNet)])), w.Ok exRouteGrid ∧ (w.dummy = true → SameCell exRouteGrid w.b w.e)) ∧
    (genWorkers exRouteGrid 2 0).map (fun W => netPins exRouteGrid pins 2 (designTerms exRouteGrid [(5, exRouteNet)]) W 5) =
      [[.term 0, .border ⟨60, 200⟩ 4], [.border ⟨60, 200⟩ 4, .border ⟨200, 380⟩ 6], [], [.term 1, .border ⟨200, 380⟩ 6]] := by
  rw [exRoute_wires]
  obtain ⟨pins, h⟩ := cellPins_some exRouteGrid_fits [⟨5, 2, ⟨60, 20⟩, ⟨61, 20⟩⟩, ⟨5, 2, ⟨360, 340⟩, ⟨361, 340⟩⟩, ⟨5, 4, ⟨60, 20⟩, ⟨60, 380⟩⟩, ⟨5, 4, ⟨360, 340⟩, ⟨360, 380⟩⟩, ⟨5, 6, ⟨60, 380⟩, ⟨360, 380⟩⟩]
  refine ⟨pins, h, ?_, ?_⟩
  · intro w hw
    simp only [List.mem_cons, List.not_mem_nil, or_false] at hw
    have hin : ∀ x y : Int, 0 ≤ x ∧ x ≤ 400 → 0 ≤ y ∧ y ≤ 400 → exRouteGrid.die.Mem ⟨x, y⟩ := fun x y hx hy => die_mem.2 ⟨hx.1, hx.2, hy.1, hy.2⟩
    have hsame : ∀ p q : Point, p.x / 100 = q.x / 100 → p.y / 100 = q.y / 100 → SameCell exRouteGrid p q := by
      intro p q hx hy
      refine ⟨?_, ?_⟩ <;> intro k h0 h1 <;> have hk : k = 0 ∨ k = 1 ∨ k = 2 ∨ k = 3 := (by simp only [exRouteGrid] at h1; omega)
      · have : (exRouteGrid.box ⟨k, 0⟩).left = 100 * k := by rcases hk with rfl | rfl | rfl | rfl <;> decide
        rw [this]; omega
      · have : (exRouteGrid.box ⟨0, k⟩).bottom = 100 * k := by rcases hk with rfl | rfl | rfl | rfl <;> decide
        rw [this]; omega
    rcases hw with rfl | rfl | rfl | rfl | rfl
    · exact ⟨⟨⟨hin _ _ (by decide) (by decide), hin _ _ (by decide) (by decide)⟩, by decide⟩, fun _ => hsame _ _ (by decide) (by decide)⟩
    · exact ⟨⟨⟨hin _ _ (by decide) (by decide), hin _ _ (by decide) (by decide)⟩, by decide⟩, fun _ => hsame _ _ (by decide) (by decide)⟩
    · exact ⟨⟨⟨hin _ _ (by decide) (by decide), hin _ _ (by decide) (by decide)⟩, by decide⟩, fun h => absurd h (by decide)⟩
    · exact ⟨⟨⟨hin _ _ (by decide) (by decide), hin _ _ (by decide) (by decide)⟩, by decide⟩, fun h => absurd h (by decide)⟩
    · exact ⟨⟨⟨hin _ _ (by decide) (by decide), hin _ _ (by decide) (by decide)⟩, by decide⟩, fun h => absurd h (by decide)⟩
  · have : (cellPins exRouteGrid [⟨5, 2, ⟨60, 20⟩, ⟨61, 20⟩⟩, ⟨5, 2, ⟨360, 340⟩, ⟨361, 340⟩⟩, ⟨5, 4, ⟨60, 20⟩, ⟨60, 380⟩⟩, ⟨5, 4, ⟨360, 340⟩, ⟨360, 380⟩⟩, ⟨5, 6, ⟨60, 380⟩, ⟨360, 380⟩⟩]).map
        (fun pins => (genWorkers exRouteGrid 2 0).map (fun W => netPins exRouteGrid pins 2 (designTerms exRouteGrid [(5, exRouteNet)]) W 5)) =
        some [[.term 0, .border ⟨60, 200⟩ 4], [.border ⟨60, 200⟩ 4, .border ⟨200, 380⟩ 6], [], [.term 1, .border ⟨200, 380⟩ 6]] := by decide +kernel
    rw [h] at this
    exact Option.some.inj this

end TR
