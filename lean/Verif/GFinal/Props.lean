import Verif.GFinal.Main
import Verif.Guide.Props
import Verif.TaInit.Grid
import Verif.GCell.Props
/-! # C131, C132: the guides a net is left with -/
namespace TR
variable {T : GuideTech}

/-- a search that connects all pins leaves a tree -/
theorem searchOk_of {iv : Intvs} {pinCells : List (List Node)} {retry ft : Bool} {pen : Nat} {pick : Nat → Nat → Nat} {fuel : Nat}
    {segs : List GSeg} {r : NetFound} (hp : 2 ≤ pinCells.length) (hf : EnoughFuel T iv pinCells fuel)
    (h : guideAttempt T iv pinCells retry ft pen pick fuel = some (segs, r)) (hr : r.ok = true) :
    ∃ st, guideTree T segs (guidePins T iv pinCells) ft pen pick fuel = some st ∧ SearchOk T segs (guidePins T iv pinCells) ft st ∧ st.vis = r.kept := by
  have hsp := attempt_some h
  have hlen : (guidePins T iv pinCells).length = pinCells.length := by simp [guidePins]
  obtain ⟨r', g1, _, g3, _⟩ := guideSearch_spec (T := T) segs (pins := guidePins T iv pinCells) (by omega) ft pen pick (hf _ _ hsp)
  have hr' : r' = r := by
    unfold guideAttempt at h
    rw [hsp] at h
    dsimp only at h
    rw [g1] at h
    simp only [Option.map_some, Option.some.injEq, Prod.mk.injEq, true_and] at h
    exact h
  subst hr'
  unfold guideSearch netSearch at g1
  unfold guideTree
  cases hn : netRounds (guideAdj T segs.length ft (guideMap T segs (guidePins T iv pinCells))) segs.length (segs.length + (guidePins T iv pinCells).length) pen pick fuel
      (segs.length + (guidePins T iv pinCells).length - 1 - segs.length) 0 ⟨fun _ => false, fun _ => none⟩ (fun _ => false) with
  | none => rw [hn] at g1; cases g1
  | some o =>
    obtain ⟨st, on⟩ := o
    rw [hn] at g1
    simp only [Option.map_some, Option.some.injEq] at g1
    have hk : st.vis = r'.kept := by rw [← g1]
    obtain ⟨v, t⟩ := netRounds_tree (adj := guideAdj T segs.length ft (guideMap T segs (guidePins T iv pinCells))) (g := segs.length) pick _ 0 _ _ st on rfl
      (fun _ _ => rfl) ⟨fun _ => 0, 1, fun x hx => by cases hx⟩ hn
    refine ⟨st, rfl, ⟨by rw [v]; exact t, ?_, by omega, fun s hs => (split_segs hsp hs).1⟩, hk⟩
    rw [hk]
    exact g3.1 hr

/-- one successful attempt -/
theorem finish_of {iv : Intvs} {pinCells : List (List Node)} {retry ft : Bool} {pen : Nat} {pick : Nat → Nat → Nat} {fuel : Nat}
    {r : List GSeg × NetFound} (hp : 2 ≤ pinCells.length) (hf : EnoughFuel T iv pinCells fuel)
    (h : guideAttempt T iv pinCells retry ft pen pick fuel = some r) (hr : r.2.ok = true) :
    ∃ segs st F, splitGuides T iv pinCells retry = some segs ∧ SearchOk T segs (guidePins T iv pinCells) ft st ∧
      FinalOk T segs (guidePins T iv pinCells) st F ∧ guideFinish T iv pinCells retry ft pen pick fuel = some F := by
  obtain ⟨segs, r⟩ := r
  have hsp := attempt_some h
  obtain ⟨st, h1, ok, _⟩ := searchOk_of hp hf h hr
  obtain ⟨F, h2, fo⟩ := ok.finalOk
  refine ⟨segs, st, F, hsp, ok, fo, ?_⟩
  unfold guideFinish
  rw [hsp]
  dsimp only
  rw [h1]
  exact h2

/-- the driver: every accepted net is finished by one of the attempts -/
theorem netGuides_of {idxOf : Point → Point} {rects : List GuideRect} {iv : Intvs} (hm : mergeGuides T idxOf rects = some iv)
    {pinCells : List (List Node)} (hp : 2 ≤ pinCells.length) {allowFt : Bool} {pen : Nat} {pick : Nat → Nat → Nat} {fuel : Nat}
    (hf : EnoughFuel T iv pinCells fuel) :
    ((netGuides T idxOf rects pinCells allowFt pen pick fuel).isSome = (genGuides T idxOf rects pinCells allowFt pen pick fuel).isSome) ∧
    ∀ F, netGuides T idxOf rects pinCells allowFt pen pick fuel = some F → ∃ segs st retry ft,
      splitGuides T iv pinCells retry = some segs ∧ SearchOk T segs (guidePins T iv pinCells) ft st ∧ FinalOk T segs (guidePins T iv pinCells) st F ∧
      (ft = true → allowFt = true ∨ ∀ retry, ∃ r, guideAttempt T iv pinCells retry false pen pick fuel = some r ∧ r.2.ok = false) := by
  unfold netGuides genGuides
  rw [hm]
  dsimp only
  cases e1 : guideAttempt T iv pinCells false allowFt pen pick fuel with
  | none => exact ⟨rfl, fun F h => (by cases h)⟩
  | some r1 =>
    dsimp only
    by_cases c1 : r1.2.ok = true
    · obtain ⟨segs, st, F, h1, h2, h3, h4⟩ := finish_of hp hf e1 c1
      rw [if_pos c1, if_pos c1, h4]
      exact ⟨rfl, fun F' hF' => by cases hF'; exact ⟨segs, st, false, allowFt, h1, h2, h3, .inl⟩⟩
    · rw [if_neg c1, if_neg c1]
      cases e2 : guideAttempt T iv pinCells true allowFt pen pick fuel with
      | none => exact ⟨rfl, fun F h => (by cases h)⟩
      | some r2 =>
        dsimp only
        by_cases c2 : r2.2.ok = true
        · obtain ⟨segs, st, F, h1, h2, h3, h4⟩ := finish_of hp hf e2 c2
          rw [if_pos c2, if_pos c2, h4]
          exact ⟨rfl, fun F' hF' => by cases hF'; exact ⟨segs, st, true, allowFt, h1, h2, h3, .inl⟩⟩
        · rw [if_neg c2, if_neg c2]
          cases allowFt with
          | true => exact ⟨rfl, fun F h => (by cases h)⟩
          | false =>
            rw [if_neg (by decide), if_neg (by decide)]
            cases e3 : guideAttempt T iv pinCells true true pen pick fuel with
            | none => exact ⟨rfl, fun F h => (by cases h)⟩
            | some r3 =>
              dsimp only
              by_cases c3 : r3.2.ok = true
              · obtain ⟨segs, st, F, h1, h2, h3, h4⟩ := finish_of hp hf e3 c3
                rw [if_pos c3, if_pos c3, h4]
                refine ⟨rfl, fun F' hF' => ?_⟩
                cases hF'
                refine ⟨segs, st, true, true, h1, h2, h3, fun _ => .inr fun retry => ?_⟩
                cases retry with
                | true => exact ⟨r2, e2, by simpa using c2⟩
                | false => exact ⟨r1, e1, by simpa using c1⟩
              · rw [if_neg c3, if_neg c3]
                exact ⟨rfl, fun F h => (by cases h)⟩

/-! ### C131 -/

/-- C131: a net whose guides connect its pins always gets its final guides; the exit "pin dangling" is never taken. -/
theorem c131_never_exits {idxOf : Point → Point} {rects : List GuideRect} {iv : Intvs} (hm : mergeGuides T idxOf rects = some iv)
    {pinCells : List (List Node)} (hp : 2 ≤ pinCells.length) {allowFt : Bool} {pen : Nat} {pick : Nat → Nat → Nat} {fuel : Nat}
    (hf : EnoughFuel T iv pinCells fuel) {r : List GSeg × NetFound} (h : genGuides T idxOf rects pinCells allowFt pen pick fuel = some r) :
    ∃ F, netGuides T idxOf rects pinCells allowFt pen pick fuel = some F := by
  have := (netGuides_of hm hp (allowFt := allowFt) (pen := pen) (pick := pick) hf).1
  rw [h] at this
  exact Option.isSome_iff_exists.1 this

/-- C131: every pin is given a place; a place is a GCell of its pin, on its layer, and an end of a final guide. -/
theorem c131_pins_placed {idxOf : Point → Point} {rects : List GuideRect} {iv : Intvs} (hm : mergeGuides T idxOf rects = some iv)
    {pinCells : List (List Node)} (hp : 2 ≤ pinCells.length) {allowFt : Bool} {pen : Nat} {pick : Nat → Nat → Nat} {fuel : Nat}
    (hf : EnoughFuel T iv pinCells fuel) {F : GFinal} (h : netGuides T idxOf rects pinCells allowFt pen pick fuel = some F) :
    (∀ k, k < pinCells.length → ∃ n, (k, n) ∈ F.pins) ∧
    ∀ k n, (k, n) ∈ F.pins → (∃ ns, pinCells[k]? = some ns ∧ n ∈ ns) ∧ F.End T n := by
  obtain ⟨segs, st, retry, ft, hsp, ok, fo, _⟩ := (netGuides_of hm hp hf).2 F h
  refine ⟨fun k hk => ?_, fun k n hkn => ⟨?_, fo.place_end ok hkn⟩⟩
  · rw [fo.places]
    exact ok.has_place (by simp only [guidePins, List.length_map]; exact hk)
  · rw [fo.places] at hkn
    obtain ⟨ns, h1, h2⟩ := (ok.place hkn).1
    unfold guidePins at h1
    rw [List.getElem?_map, Option.map_eq_some_iff] at h1
    obtain ⟨ms, h3, rfl⟩ := h1
    exact ⟨ms, h3, (List.mem_filter.1 h2).1⟩

theorem link_symm {F : GFinal} {thr : Nat → Prop} (a b : Node) (h : F.Link T thr a b) : F.Link T thr b a := by
  rcases h with ⟨i, s, h1, h2, h3⟩ | ⟨h1, h2, h3, h4⟩ | ⟨k, h1, h2, h3⟩
  · exact .inl ⟨i, s, h1, h3, h2⟩
  · exact .inr (.inl ⟨h1.symm, h2.symm, h4, h3⟩)
  · exact .inr (.inr ⟨k, h1, h3, h2⟩)

/-- C131: the final guides are connected: from any GCell on one of them one comes to any other along guides, by changes of layer where guides end,
and across the metal of the first pin; across other pins only if that is allowed, or if the search without it failed. -/
theorem c131_connected {idxOf : Point → Point} {rects : List GuideRect} {iv : Intvs} (hm : mergeGuides T idxOf rects = some iv)
    {pinCells : List (List Node)} (hp : 2 ≤ pinCells.length) {allowFt : Bool} {pen : Nat} {pick : Nat → Nat → Nat} {fuel : Nat}
    (hf : EnoughFuel T iv pinCells fuel) {F : GFinal} (h : netGuides T idxOf rects pinCells allowFt pen pick fuel = some F) :
    ∃ ft : Bool, (ft = true → allowFt = true ∨ ∀ retry, ∃ r, guideAttempt T iv pinCells retry false pen pick fuel = some r ∧ r.2.ok = false) ∧
      ∀ a b, F.On T a → F.On T b → Chain (F.Link T fun k => k = 0 ∨ ft = true) (F.On T) a b := by
  obtain ⟨segs, st, retry, ft, hsp, ok, fo, hft⟩ := (netGuides_of hm hp hf).2 F h
  obtain ⟨c, hc⟩ := (c131_pins_placed hm hp hf h).1 0 (by omega)
  refine ⟨ft, hft, fun a b ha hb => ?_⟩
  have h1 := fo.connected ok hc a ha
  have h2 := fo.connected ok hc b hb
  exact (h1.symm link_symm).trans h2

/-! ### C132 -/

/-- C132: the final guides run along one track through GCells of the merged guides, each with its two ends in order. -/
theorem c132_within {idxOf : Point → Point} {rects : List GuideRect} {iv : Intvs} (hm : mergeGuides T idxOf rects = some iv)
    {pinCells : List (List Node)} (hp : 2 ≤ pinCells.length) {allowFt : Bool} {pen : Nat} {pick : Nat → Nat → Nat} {fuel : Nat}
    (hf : EnoughFuel T iv pinCells fuel) {F : GFinal} (h : netGuides T idxOf rects pinCells allowFt pen pick fuel = some F)
    {i : Nat} {s : GSeg} (hs : (i, s) ∈ F.guides) : s.b ≤ s.e ∧ ∀ n, s.Has T n → GuideCell T iv n := by
  obtain ⟨segs, st, retry, ft, hsp, ok, fo, _⟩ := (netGuides_of hm hp hf).2 F h
  obtain ⟨s0, h1, _, h2, h3, h4, h5, h6⟩ := fo.order ok hs
  refine ⟨h2, fun n hn => (split_segs hsp (List.mem_of_getElem? h1)).2.2 n ?_⟩
  obtain ⟨a, b, c, d⟩ := hn
  exact ⟨by omega, by omega, by omega, by omega⟩

/-- C132: no final guide has a dangling end: where a guide ends there is a pin or another guide ends, on its layer or on the one below or above. -/
theorem c132_no_dangling {idxOf : Point → Point} {rects : List GuideRect} {iv : Intvs} (hm : mergeGuides T idxOf rects = some iv)
    {pinCells : List (List Node)} (hp : 2 ≤ pinCells.length) {allowFt : Bool} {pen : Nat} {pick : Nat → Nat → Nat} {fuel : Nat}
    (hf : EnoughFuel T iv pinCells fuel) {F : GFinal} (h : netGuides T idxOf rects pinCells allowFt pen pick fuel = some F)
    {i : Nat} {s : GSeg} (hs : (i, s) ∈ F.guides) {n : Node} (hn : n ∈ s.ends T) : F.Used T i n := by
  obtain ⟨segs, st, retry, ft, hsp, ok, fo, _⟩ := (netGuides_of hm hp hf).2 F h
  exact fo.used ok hs hn


/-- the guide objects of net `k` -/
def GFinal.objects (T : GuideTech) (G : GGrid) (k : Nat) (F : GFinal) : List TGuide :=
  F.guides.map fun x => let q := x.2.placed T G.center; ⟨k, q.1, q.2.1, q.2.2, []⟩

theorem mid_mono {p : GCellPat} {dl dh : Int} (hf : AxisFits p dl dh) {i j : Int} (h0 : 0 ≤ i) (hij : i ≤ j) (h1 : j < p.count) :
    gcellMid p dl dh i ≤ gcellMid p dl dh j := by
  rcases Int.lt_or_eq_of_le hij with h | h
  · have h2 := mid_span hf h0 (by omega : i < p.count)
    have h3 := mid_span hf (by omega : 0 ≤ j) h1
    have := (span_sep hf h0 h h1).2.2
    omega
  · subst h; exact Int.le_refl _

/-- C132: the guides handed to track assignment are what it expects (the hypothesis of C127): straight, between centres of GCells, on routing
layers; and each pin of global routing lies at an end of such a guide. -/
theorem c132_plan (ha : T.Alternates) {G : GGrid} (hG : G.Fits) {E : TaEnv} (hE : E.dir = T.horz) {rects : List GuideRect} {iv : Intvs}
    (hm : mergeGuides T (fun p => (G.idx p).getD ⟨0, 0⟩) rects = some iv)
    (hR : ∀ r ∈ rects, ∀ l, l = r.layer ∨ l = r.layer - 2 ∨ l = r.layer + 2 → 0 ≤ l → l < T.nLayers → E.routing l = true)
    {pinCells : List (List Node)} (hp : 2 ≤ pinCells.length) {allowFt : Bool} {pen : Nat} {pick : Nat → Nat → Nat} {fuel : Nat}
    (hf : EnoughFuel T iv pinCells fuel) {F : GFinal}
    (h : netGuides T (fun p => (G.idx p).getD ⟨0, 0⟩) rects pinCells allowFt pen pick fuel = some F) (k : Nat) :
    GuidePlan E G.Centre (F.objects T G k) ∧
    ∀ j n, (j, n) ∈ F.pins → ∃ g ∈ F.objects T G k, g.layer = n.layer ∧ (G.center n.pt = g.b ∨ G.center n.pt = g.e) := by
  have hidx : ∀ p, G.InRange ((G.idx p).getD ⟨0, 0⟩) := by
    intro p
    obtain ⟨c, h1, h2, _⟩ := c21_index_in_range_and_contains G hG p
    rw [h1]; exact h2
  have hcov : ∀ n, GuideCell T iv n → G.InRange n.pt ∧ E.routing n.layer = true := by
    intro n ⟨n0, n1, hc⟩
    have hin : ∀ m : Node, (∃ r ∈ rects, r.Covers (fun p => (G.idx p).getD ⟨0, 0⟩) m) → G.InRange m.pt ∧ ∃ r ∈ rects, r.layer = m.layer := by
      rintro m ⟨r, hr, e, h1, h2, h3, h4⟩
      obtain ⟨a1, a2, a3, a4⟩ := hidx r.box.ll
      obtain ⟨b1, b2, b3, b4⟩ := hidx ⟨r.box.right - 1, r.box.top - 1⟩
      dsimp only at h1 h2 h3 h4
      exact ⟨⟨by omega, by omega, by omega, by omega⟩, r, hr, e.symm⟩
    rcases (c42_merge_coverage ha hm n).2 hc with h | h | h
    · obtain ⟨h1, r, h2, h3⟩ := hin _ h
      exact ⟨h1, hR r h2 _ (.inl h3.symm) n0 n1⟩
    · obtain ⟨h1, r, h2, h3⟩ := hin _ h
      exact ⟨h1, hR r h2 _ (.inr (.inr (by dsimp only at h3; omega))) n0 n1⟩
    · obtain ⟨h1, r, h2, h3⟩ := hin _ h
      exact ⟨h1, hR r h2 _ (.inr (.inl (by dsimp only at h3; omega))) n0 n1⟩
  have hseg : ∀ x ∈ F.guides, x.2.b ≤ x.2.e ∧ E.routing x.2.l = true ∧ G.InRange (T.cell x.2.l x.2.t x.2.b).pt ∧ G.InRange (T.cell x.2.l x.2.t x.2.e).pt := by
    rintro ⟨i, s⟩ hx
    obtain ⟨h1, h2⟩ := c132_within hm hp hf h hx
    obtain ⟨a1, a2⟩ := hcov _ (h2 _ (ends_has h1 (show T.cell s.l s.t s.b ∈ s.ends T by simp [GSeg.ends])))
    obtain ⟨b1, b2⟩ := hcov _ (h2 _ (ends_has h1 (show T.cell s.l s.t s.e ∈ s.ends T by simp [GSeg.ends])))
    rw [cell_layer] at a2
    exact ⟨h1, a2, a1, b1⟩
  have hctr : ∀ c : Point, G.InRange c → ∀ hz, G.Centre hz ((G.center c).c hz) := by
    rintro c ⟨c1, c2, c3, c4⟩ hz
    cases hz with
    | true => exact ⟨c.y, c3, c4, rfl⟩
    | false => exact ⟨c.x, c1, c2, rfl⟩
  refine ⟨⟨?_, ?_, ?_, ?_⟩, ?_⟩
  · intro g hg
    obtain ⟨x, hx, rfl⟩ := List.mem_map.1 hg
    exact (hseg x hx).2.1
  · intro g hg
    obtain ⟨x, hx, rfl⟩ := List.mem_map.1 hg
    dsimp only [GSeg.placed]
    rw [hE]
    have h1 := ha x.2.l
    have h2 := ha (x.2.l - 2)
    rw [show x.2.l - 2 + 2 = x.2.l by omega] at h2
    rw [h1, h2]
    cases T.horz (x.2.l - 2) <;> decide
  · intro g hg
    obtain ⟨x, hx, rfl⟩ := List.mem_map.1 hg
    obtain ⟨s1, _, s3, s4⟩ := hseg x hx
    dsimp only [GSeg.placed]
    rw [hE]
    unfold GuideTech.cell at s3 s4 ⊢
    cases hh : T.horz x.2.l with
    | true =>
      rw [hh] at s3 s4
      exact ⟨rfl, mid_mono hG.1 s3.1 s1 s4.2.1⟩
    | false =>
      rw [hh] at s3 s4
      exact ⟨rfl, mid_mono hG.2 s3.2.2.1 s1 s4.2.2.2⟩
  · intro g hg hz
    obtain ⟨x, hx, rfl⟩ := List.mem_map.1 hg
    obtain ⟨_, _, s3, s4⟩ := hseg x hx
    exact ⟨hctr _ s3 hz, hctr _ s4 hz⟩
  · intro j n hn
    obtain ⟨i, s, h1, h2⟩ := ((c131_pins_placed hm hp hf h).2 j n hn).2
    refine ⟨_, List.mem_map.2 ⟨(i, s), h1, rfl⟩, ?_⟩
    dsimp only [GSeg.placed]
    simp only [GSeg.ends, List.mem_cons, List.not_mem_nil, or_false] at h2
    rcases h2 with rfl | rfl
    · exact ⟨(cell_layer _ _ _).symm, .inl rfl⟩
    · exact ⟨(cell_layer _ _ _).symm, .inr rfl⟩

/-! ### examples -/

/-- a guide on layer 4 used at one end only, to change from layer 2 to layer 6 -/
def finalDemoRects : List GuideRect := [⟨2, ⟨⟨0, 0⟩, ⟨1, 1⟩⟩⟩, ⟨4, ⟨⟨0, 0⟩, ⟨1, 4⟩⟩⟩, ⟨6, ⟨⟨0, 0⟩, ⟨1, 1⟩⟩⟩, ⟨6, ⟨⟨0, 3⟩, ⟨1, 4⟩⟩⟩]
def finalDemoPins : List (List Node) := [[⟨⟨0, 0⟩, 2⟩], [⟨⟨0, 0⟩, 6⟩]]

set_option maxRecDepth 100000 in
/-- four guides join the two pins; the pins are at ends of guides -/
example : netGuides guideDemoT id guideDemoRects guideDemoPins false 3 (fun _ _ => 0) 2000 =
    some ⟨[(0, ⟨2, 0, 0, 0⟩), (1, ⟨2, 3, 3, 3⟩), (2, ⟨4, 0, 0, 3⟩), (3, ⟨4, 3, 3, 3⟩), (4, ⟨6, 3, 0, 3⟩)],
      [(0, ⟨⟨0, 0⟩, 2⟩), (1, ⟨⟨3, 3⟩, 2⟩)]⟩ := by decide +kernel

set_option maxRecDepth 100000 in
/-- the unused part of the guide on layer 4 is cut off, the guide on layer 6 that is not used is dropped -/
theorem finalDemo_run : netGuides guideDemoT id finalDemoRects finalDemoPins false 3 (fun _ _ => 0) 2000 =
    some ⟨[(0, ⟨2, 0, 0, 0⟩), (1, ⟨4, 0, 0, 0⟩), (2, ⟨6, 0, 0, 0⟩)], [(0, ⟨⟨0, 0⟩, 2⟩), (1, ⟨⟨0, 0⟩, 6⟩)]⟩ := by decide +kernel

theorem finalDemo_split (retry : Bool) : (mergeGuides guideDemoT id finalDemoRects).bind (fun iv => splitGuides guideDemoT iv finalDemoPins retry) =
    some [⟨2, 0, 0, 0⟩, ⟨4, 0, 0, 3⟩, ⟨6, 0, 0, 0⟩, ⟨6, 3, 0, 0⟩] := by cases retry <;> decide +kernel

/-- the hypotheses of C131 and C132 are met -/
example : ∃ iv, mergeGuides guideDemoT id finalDemoRects = some iv ∧ EnoughFuel guideDemoT iv finalDemoPins 2000 ∧ 2 ≤ finalDemoPins.length := by
  obtain ⟨iv, h⟩ : ∃ iv, mergeGuides guideDemoT id finalDemoRects = some iv := ⟨_, rfl⟩
  refine ⟨iv, h, ?_, by decide⟩
  have hpins : (mergeGuides guideDemoT id finalDemoRects).map (fun iv => guidePins guideDemoT iv finalDemoPins) = some finalDemoPins := by decide +kernel
  rw [h] at hpins
  simp only [Option.map_some, Option.some.injEq] at hpins
  intro retry segs hs
  have := finalDemo_split retry
  rw [h] at this
  simp only [Option.bind_some] at this
  rw [hs] at this
  cases this
  rw [hpins]
  decide +kernel

end TR
