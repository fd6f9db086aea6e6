import Verif.Guide.Attempt
/-! # C42, C43, C48–C50: guides -/
namespace TR
variable {T : GuideTech}

/-! ### a small design -/

/-- layers 2, 6, … horizontal, 4, 8, … vertical; M1 is layer 2 -/
def guideDemoT : GuideTech := ⟨fun l => decide (2 ≤ l % 4), 7, 2⟩

theorem guideDemoT_alt : guideDemoT.Alternates := by
  intro l
  show decide (2 ≤ (l + 2) % 4) = !decide (2 ≤ l % 4)
  by_cases h : 2 ≤ l % 4
  · simp [h]; omega
  · simp [h]; omega

def guideDemoRects : List GuideRect :=
  [⟨2, ⟨⟨0, 0⟩, ⟨1, 1⟩⟩⟩, ⟨4, ⟨⟨0, 0⟩, ⟨1, 4⟩⟩⟩, ⟨6, ⟨⟨0, 3⟩, ⟨3, 4⟩⟩⟩, ⟨6, ⟨⟨3, 3⟩, ⟨4, 4⟩⟩⟩, ⟨4, ⟨⟨3, 3⟩, ⟨4, 4⟩⟩⟩, ⟨2, ⟨⟨3, 3⟩, ⟨4, 4⟩⟩⟩]

def guideDemoPins : List (List Node) := [[⟨⟨0, 0⟩, 2⟩], [⟨⟨3, 3⟩, 2⟩]]

/-! ### C42 -/

/-- C42, coverage: every GCell of an input guide is covered, and every other covered GCell (added for
touching guides) lies directly above or below a GCell of an input guide. -/
theorem c42_merge_coverage (ha : T.Alternates) {idxOf : Point → Point} {rects : List GuideRect} {iv : Intvs}
    (h : mergeGuides T idxOf rects = some iv) (n : Node) :
    ((∃ r ∈ rects, r.Covers idxOf n) → Covered T iv n) ∧
    (Covered T iv n → (∃ r ∈ rects, r.Covers idxOf n) ∨
      (∃ r ∈ rects, r.Covers idxOf ⟨n.pt, n.layer - 2⟩) ∨ ∃ r ∈ rects, r.Covers idxOf ⟨n.pt, n.layer + 2⟩) := by
  obtain ⟨_, _, hc⟩ := merge_spec h
  obtain ⟨bok, bcov⟩ := base_spec T idxOf rects
  refine ⟨fun h1 => (hc n).2 (.inr h1), ?_⟩
  intro h1
  rcases (hc n).1 h1 with ⟨t, h2, h3, h4, h5, h6⟩ | h2
  · rcases touch_cells ha bok h2 h3 h4 h5 h6 with h7 | h7
    · exact .inr (.inl ((bcov _).1 h7))
    · exact .inr (.inr ((bcov _).1 h7))
  · exact .inl h2

/-- C42: before touching guides are added, exactly the GCells of the input guides are covered. -/
theorem c42_base_exact (T : GuideTech) (idxOf : Point → Point) (rects : List GuideRect) (n : Node) :
    Covered T (baseIntvs T idxOf rects) n ↔ ∃ r ∈ rects, r.Covers idxOf n := (base_spec T idxOf rects).2 n

/-- C42: after merging the intervals of each track are disjoint and not even adjacent, and each track occurs once. -/
theorem c42_merge_separated {idxOf : Point → Point} {rects : List GuideRect} {iv : Intvs} (h : mergeGuides T idxOf rects = some iv)
    (l : Int) : (iv l).Pairwise (fun a b => a.1 < b.1) ∧ ∀ k ∈ iv l, Separated k.2 := by
  obtain ⟨hok, _, _⟩ := merge_spec h
  exact hok l

example : (mergeGuides guideDemoT id guideDemoRects).map (fun iv => (iv 2, iv 4, iv 6)) =
    some ([(0, [(0, 0)]), (3, [(3, 3)])], [(0, [(0, 3)]), (3, [(3, 3)])], [(3, [(0, 3)])]) := by rfl

/-- two parallel guides that only touch: a guide on the layer above is added -/
example : (mergeGuides guideDemoT id [⟨4, ⟨⟨0, 0⟩, ⟨1, 4⟩⟩⟩, ⟨4, ⟨⟨1, 2⟩, ⟨2, 6⟩⟩⟩]).map (fun iv => (iv 4, iv 6)) =
    some ([(0, [(0, 3)]), (1, [(2, 5)])], [(2, [(0, 1)])]) := by decide

/-! ### C48 -/

/-- C48: two GCells of input guides in neighbouring tracks of a layer are connected after merging, by
moves along preferred directions and changes of layer through covered GCells of existing layers. -/
theorem c48_touching_connected (ha : T.Alternates) {idxOf : Point → Point} {rects : List GuideRect} {iv : Intvs}
    (h : mergeGuides T idxOf rects = some iv) {a b : Node} (h0 : 0 ≤ a.layer) (hl : a.layer < T.nLayers) (hab : a.layer = b.layer)
    (ht : T.track b = T.track a + 1) (hp : T.pos b = T.pos a) (h1 : ∃ r ∈ rects, r.Covers idxOf a)
    (h2 : ∃ r ∈ rects, r.Covers idxOf b) : Chain (CellStep T (fun _ => True)) (GuideCell T iv) a b := by
  have e : ((a.layer.toNat : Nat) : Int) = a.layer := by omega
  have ea := cell_eta (T := T) a
  have eb := cell_eta (T := T) b
  rw [← hab, ht, hp] at eb
  have := touching_connected ha h (l := a.layer.toNat) (by omega) (p := T.track a) (x := T.pos a)
    (by rw [e, ea]; exact (c42_base_exact T idxOf rects a).2 h1) (by rw [e, eb]; exact (c42_base_exact T idxOf rects b).2 h2)
  rw [e, ea, eb] at this
  exact this

example : ∃ iv, mergeGuides guideDemoT id [⟨4, ⟨⟨0, 0⟩, ⟨1, 4⟩⟩⟩, ⟨4, ⟨⟨1, 2⟩, ⟨2, 6⟩⟩⟩] = some iv ∧
    Chain (CellStep guideDemoT (fun _ => True)) (GuideCell guideDemoT iv) ⟨⟨0, 3⟩, 4⟩ ⟨⟨1, 3⟩, 4⟩ := by
  obtain ⟨iv, h⟩ : ∃ iv, mergeGuides guideDemoT id [⟨4, ⟨⟨0, 0⟩, ⟨1, 4⟩⟩⟩, ⟨4, ⟨⟨1, 2⟩, ⟨2, 6⟩⟩⟩] = some iv := ⟨_, rfl⟩
  refine ⟨iv, h, c48_touching_connected guideDemoT_alt h (by decide) (by decide) rfl (by decide) (by decide)
    ⟨_, List.mem_cons_self, by unfold GuideRect.Covers; decide⟩ ⟨_, List.mem_cons_of_mem _ List.mem_cons_self, by unfold GuideRect.Covers; decide⟩⟩

/-! ### C49 -/

/-- C49: every guide after splitting is part of the merged guides, and it meets guides of the
neighbouring layers and pins only at its two end GCells. -/
theorem c49_split_ends (ha : T.Alternates) {iv : Intvs} {pinCells : List (List Node)} {retry : Bool} {segs : List GSeg}
    (h : splitGuides T iv pinCells retry = some segs) {s : GSeg} (hs : s ∈ segs) {n : Node} (hn : s.Has T n) :
    GuideCell T iv n ∧
    (((∃ m, m.pt = n.pt ∧ (m.layer = n.layer + 2 ∨ n.layer = m.layer + 2) ∧ GuideCell T iv m) ∨ ∃ ns ∈ pinCells, n ∈ ns) →
      n ∈ s.ends T) := by
  have hc := (split_segs h hs).2.2 n hn
  refine ⟨hc, ?_⟩
  intro hx
  have hlp : LinePt T iv pinCells n := by
    rcases hx with ⟨m, h1, h2 | h2, h3⟩ | hx
    · exact (via_linePt ha h1.symm h2 hc h3).1
    · exact (via_linePt ha h1 h2 h3 hc).2
    · exact .inr (.inr hx)
  obtain ⟨l, hl, k, hk, i, hi, L, hL, hsL⟩ := (split_spec h).2 s hs
  obtain ⟨a1, a2, a3, a4, a5⟩ := hL.inside s hsL
  obtain ⟨e1, e2, e3, e4⟩ := hn
  have hm := linePt_mem hlp (b := i.1) (e := i.2) (by omega) (by omega)
  rw [← e1, ← e2, a1, a2] at hm
  have := hL.gap s hsL _ hm
  exact end_of_eq e1 e2 (by omega)

/-- C49: wherever a merged guide meets a guide of a neighbouring layer or a pin, some guide after splitting ends. -/
theorem c49_split_complete (ha : T.Alternates) {iv : Intvs} {pinCells : List (List Node)} {retry : Bool} {segs : List GSeg}
    (h : splitGuides T iv pinCells retry = some segs) {n : Node} (hn : GuideCell T iv n)
    (hx : (∃ m, m.pt = n.pt ∧ (m.layer = n.layer + 2 ∨ n.layer = m.layer + 2) ∧ GuideCell T iv m) ∨ ∃ ns ∈ pinCells, n ∈ ns) :
    ∃ s ∈ segs, n ∈ s.ends T := by
  have hlp : LinePt T iv pinCells n := by
    rcases hx with ⟨m, h1, h2 | h2, h3⟩ | hx
    · exact (via_linePt ha h1.symm h2 hn h3).1
    · exact (via_linePt ha h1 h2 h3 hn).2
    · exact .inr (.inr hx)
  obtain ⟨j, s, h1, h2, _⟩ := covered_end h hn hlp
  exact ⟨s, List.mem_of_getElem? h1, h2⟩

example : ((mergeGuides guideDemoT id (⟨4, ⟨⟨2, 0⟩, ⟨3, 6⟩⟩⟩ :: guideDemoRects)).bind (fun iv => splitGuides guideDemoT iv guideDemoPins false)) =
    some [⟨2, 0, 0, 0⟩, ⟨2, 3, 3, 3⟩, ⟨4, 0, 0, 3⟩, ⟨4, 2, 3, 3⟩, ⟨4, 3, 3, 3⟩, ⟨6, 3, 0, 2⟩, ⟨6, 3, 2, 3⟩] := by decide

/-! ### C43 -/

/-- C43: with guides of unit length on the lowest layers (the first attempt) the search answers for
every queue order, and succeeds exactly if every pin is connected to the first one by moves through
covered GCells, without moves along the layers up to the via-access layer. -/
theorem c43_search_exact (ha : T.Alternates) {idxOf : Point → Point} {rects : List GuideRect} {iv : Intvs}
    (hm : mergeGuides T idxOf rects = some iv) {pinCells : List (List Node)} {segs : List GSeg}
    (hsp : splitGuides T iv pinCells false = some segs) (hp : 2 ≤ pinCells.length) (ft : Bool) (pen : Nat) (pick : Nat → Nat → Nat)
    {fuel : Nat} (hf : guideFuel T segs (guidePins T iv pinCells) ≤ fuel) :
    ∃ r, guideAttempt T iv pinCells false ft pen pick fuel = some (segs, r) ∧
      (r.ok = true ↔ ∀ k, k ≠ 0 → k < pinCells.length →
        PinReach T (fun l => T.viaAccess < l) (GuideCell T iv) (guidePins T iv pinCells) ft k) := by
  have hlat : lateralOf T false = fun l => T.viaAccess < l := by funext l; simp [lateralOf]
  obtain ⟨hok, _, _⟩ := merge_spec hm
  obtain ⟨r, h, h1, h2⟩ := attempt_spec (ft := ft) ha hok hsp hp pen pick hf
  rw [hlat] at h1 h2
  exact ⟨r, h, fun hr k hk0 hk => pinReach_mono (fun n => onGuides_cell hsp) (h1 hr k hk0 hk), h2⟩

/-- C43: if the search succeeds, the guides it keeps connect every pin to the first one: one can move
from GCell to GCell without leaving the kept guides. -/
theorem c43_kept_connect (ha : T.Alternates) {idxOf : Point → Point} {rects : List GuideRect} {iv : Intvs}
    (hm : mergeGuides T idxOf rects = some iv) {pinCells : List (List Node)} {retry : Bool} {segs : List GSeg}
    (hsp : splitGuides T iv pinCells retry = some segs) (hp : 2 ≤ pinCells.length) {ft : Bool} {pen : Nat} {pick : Nat → Nat → Nat}
    {fuel : Nat} (hf : guideFuel T segs (guidePins T iv pinCells) ≤ fuel) {r : NetFound}
    (h : guideAttempt T iv pinCells retry ft pen pick fuel = some (segs, r)) (hr : r.ok = true) :
    ∀ k, k ≠ 0 → k < pinCells.length →
      PinReach T (lateralOf T retry) (OnGuides T segs (fun i => r.kept i = true)) (guidePins T iv pinCells) ft k := by
  obtain ⟨hok, _, _⟩ := merge_spec hm
  obtain ⟨r', h', h1, _⟩ := attempt_spec (ft := ft) ha hok hsp hp pen pick hf
  rw [h] at h'
  simp only [Option.some.injEq, Prod.mk.injEq, true_and] at h'
  subst h'
  exact h1 hr

set_option maxRecDepth 100000 in
/-- the demo net is connected, and the guides kept are the path -/
example : ((mergeGuides guideDemoT id (⟨4, ⟨⟨2, 0⟩, ⟨3, 6⟩⟩⟩ :: guideDemoRects)).bind (fun iv => guideAttempt guideDemoT iv guideDemoPins false false 3 (fun _ _ => 0) 2000)).map
    (fun r => (r.2.ok, (List.range 7).filter r.2.kept)) = some (true, [0, 1, 2, 4, 5, 6]) := by decide

set_option maxRecDepth 100000 in
/-- without the layer-6 guides it is not -/
example : ((mergeGuides guideDemoT id (guideDemoRects.filter (fun r => decide (r.layer ≠ 6)))).bind
    (fun iv => guideAttempt guideDemoT iv guideDemoPins false false 3 (fun _ _ => 0) 2000)).map (fun r => r.2.ok) = some false := by decide

set_option maxRecDepth 100000 in
/-- Finding: for a net with one pin the search reports success without keeping any guide. -/
theorem c43_one_pin_keeps_nothing :
    ((mergeGuides guideDemoT id guideDemoRects).bind (fun iv => guideAttempt guideDemoT iv [[⟨⟨0, 0⟩, 2⟩]] false false 3 (fun _ _ => 0) 2000)).map
      (fun r => (r.2.ok, (List.range 10).filter r.2.kept)) = some (true, []) := by decide

/-! ### C50 -/

/-- the fuel suffices for all attempts of the driver -/
def EnoughFuel (T : GuideTech) (iv : Intvs) (pinCells : List (List Node)) (fuel : Nat) : Prop :=
  ∀ retry segs, splitGuides T iv pinCells retry = some segs → guideFuel T segs (guidePins T iv pinCells) ≤ fuel

theorem attempt_some {iv : Intvs} {pinCells : List (List Node)} {retry ft : Bool} {pen : Nat} {pick : Nat → Nat → Nat} {fuel : Nat}
    {segs : List GSeg} {r : NetFound} (h : guideAttempt T iv pinCells retry ft pen pick fuel = some (segs, r)) :
    splitGuides T iv pinCells retry = some segs := by
  unfold guideAttempt at h
  split at h
  · simp at h
  · rename_i s hs
    rw [Option.map_eq_some_iff] at h
    obtain ⟨x, _, h⟩ := h
    simp only [Prod.mk.injEq] at h
    rw [hs, h.1]

/-- C50, soundness of the driver: if a net is accepted, the kept guides connect all its pins: each pin
is connected to the first one, possibly through other pins, without leaving the kept guides, and
those lie in the merged guides. -/
theorem c50_accepted_connected (ha : T.Alternates) {idxOf : Point → Point} {rects : List GuideRect} {iv : Intvs}
    (hm : mergeGuides T idxOf rects = some iv) {pinCells : List (List Node)} (hp : 2 ≤ pinCells.length) {allowFt : Bool} {pen : Nat}
    {pick : Nat → Nat → Nat} {fuel : Nat} (hf : EnoughFuel T iv pinCells fuel) {segs : List GSeg} {r : NetFound}
    (h : genGuides T idxOf rects pinCells allowFt pen pick fuel = some (segs, r)) :
    (∀ k, k ≠ 0 → k < pinCells.length →
      ∃ ft, PinReach T (fun _ => True) (OnGuides T segs (fun i => r.kept i = true)) (guidePins T iv pinCells) ft k) ∧
    ∀ n, OnGuides T segs (fun i => r.kept i = true) n → GuideCell T iv n := by
  have key : ∀ retry ft, guideAttempt T iv pinCells retry ft pen pick fuel = some (segs, r) → r.ok = true →
      (∀ k, k ≠ 0 → k < pinCells.length →
        ∃ ft, PinReach T (fun _ => True) (OnGuides T segs (fun i => r.kept i = true)) (guidePins T iv pinCells) ft k) ∧
      ∀ n, OnGuides T segs (fun i => r.kept i = true) n → GuideCell T iv n := by
    intro retry ft h1 h2
    have hsp := attempt_some h1
    refine ⟨fun k hk0 hk => ⟨ft, ?_⟩, fun n => onGuides_cell hsp⟩
    have := c43_kept_connect ha hm hsp hp (hf _ _ hsp) h1 h2 k hk0 hk
    have stepw : ∀ x y : Node, CellStep T (lateralOf T retry) x y → CellStep T (fun _ => True) x y := by
      rintro x y (⟨a, _, c⟩ | h)
      · exact .inl ⟨a, trivial, c⟩
      · exact .inr h
    have chw : ∀ {C : Node → Prop} {x y : Node}, Chain (CellStep T (lateralOf T retry)) C x y → Chain (CellStep T (fun _ => True)) C x y := by
      intro C x y hc
      induction hc with
      | refl h => exact .refl h
      | step _ a b ih => exact .step ih (stepw _ _ a) b
    have lw : ∀ {C : Node → Prop} {i j : Nat}, PinLink T (lateralOf T retry) C (guidePins T iv pinCells) i j →
        PinLink T (fun _ => True) C (guidePins T iv pinCells) i j := by
      rintro C i j ⟨ns, ms, a, b, h1, h2, h3, h4, h5⟩
      exact ⟨ns, ms, a, b, h1, h2, h3, h4, chw h5⟩
    unfold PinReach at this ⊢
    split
    · rename_i hft
      rw [if_pos hft] at this
      clear hk0 hk
      induction this with
      | refl h => exact .refl h
      | step _ a b ih => exact .step ih (lw a) b
    · rename_i hft
      rw [if_neg hft] at this
      exact lw this
  unfold genGuides at h
  rw [hm] at h
  simp only at h
  split at h
  · simp at h
  · rename_i r1 e1
    split at h
    · simp only [Option.some.injEq] at h
      subst h
      exact key _ _ e1 (by assumption)
    · split at h
      · simp at h
      · rename_i r2 e2
        split at h
        · simp only [Option.some.injEq] at h
          subst h
          exact key _ _ e2 (by assumption)
        · split at h
          · simp at h
          · split at h
            · simp at h
            · rename_i r3 e3
              split at h
              · simp only [Option.some.injEq] at h
                subst h
                exact key _ _ e3 (by assumption)
              · simp at h

/-- C50, completeness of the driver: a net is accepted if all its pins are connected through the merged
guides without moves along the layers up to the via-access layer. (Splitting stops the program if a
guide meets nothing at all; that is the hypothesis `hsp`.) -/
theorem c50_connected_accepted (ha : T.Alternates) {idxOf : Point → Point} {rects : List GuideRect} {iv : Intvs}
    (hm : mergeGuides T idxOf rects = some iv) {pinCells : List (List Node)} (hp : 2 ≤ pinCells.length) {segs : List GSeg}
    (hsp : splitGuides T iv pinCells false = some segs) {allowFt : Bool} {pen : Nat} {pick : Nat → Nat → Nat} {fuel : Nat}
    (hf : EnoughFuel T iv pinCells fuel)
    (hc : ∀ k, k ≠ 0 → k < pinCells.length →
      PinReach T (fun l => T.viaAccess < l) (GuideCell T iv) (guidePins T iv pinCells) allowFt k) :
    ∃ r, genGuides T idxOf rects pinCells allowFt pen pick fuel = some (segs, r) := by
  obtain ⟨r, h, h1⟩ := c43_search_exact ha hm hsp hp allowFt pen pick (hf _ _ hsp)
  refine ⟨r, ?_⟩
  unfold genGuides
  rw [hm]
  simp only [h]
  rw [if_pos (h1.2 hc)]

/-- C50: when the program exits because "guide not connected", then some pin is not connected to the first
one, even when passing through other pins is allowed. -/
theorem c50_rejected_disconnected (ha : T.Alternates) {idxOf : Point → Point} {rects : List GuideRect} {iv : Intvs}
    (hm : mergeGuides T idxOf rects = some iv) {pinCells : List (List Node)} (hp : 2 ≤ pinCells.length) {segs segs' : List GSeg}
    (hsp : splitGuides T iv pinCells false = some segs) (hsp' : splitGuides T iv pinCells true = some segs') {allowFt : Bool}
    {pen : Nat} {pick : Nat → Nat → Nat} {fuel : Nat} (hf : EnoughFuel T iv pinCells fuel)
    (h : genGuides T idxOf rects pinCells allowFt pen pick fuel = none) :
    ∃ k, k ≠ 0 ∧ k < pinCells.length ∧
      ¬ PinReach T (fun l => T.viaAccess < l) (GuideCell T iv) (guidePins T iv pinCells) true k := by
  have hlat : lateralOf T false = fun l => T.viaAccess < l := by funext l; simp [lateralOf]
  apply Classical.byContradiction
  intro hn
  have hall : ∀ k, k ≠ 0 → k < pinCells.length →
      PinReach T (fun l => T.viaAccess < l) (GuideCell T iv) (guidePins T iv pinCells) true k := by
    intro k h1 h2
    apply Classical.byContradiction
    intro h3
    exact hn ⟨k, h1, h2, h3⟩
  obtain ⟨hok, _, _⟩ := merge_spec hm
  rw [← hlat] at hall
  unfold genGuides at h
  rw [hm] at h
  simp only at h
  obtain ⟨r1, a1, _, a3⟩ := attempt_spec (ft := allowFt) ha hok hsp hp pen pick (hf _ _ hsp)
  obtain ⟨r2, b1, _, b3⟩ := attempt_spec (ft := allowFt) ha hok hsp' hp pen pick (hf _ _ hsp')
  obtain ⟨r3, c1, _, c3⟩ := attempt_spec (ft := true) ha hok hsp' hp pen pick (hf _ _ hsp')
  rw [a1] at h
  simp only at h
  split at h
  · simp at h
  · rw [b1] at h
    simp only at h
    split at h
    · simp at h
    · rename_i hr1 hr2
      split at h
      · rename_i hft
        subst hft
        exact hr2 (b3 hall)
      · rw [c1] at h
        simp only at h
        rw [if_pos (c3 hall)] at h
        simp at h

set_option maxRecDepth 100000 in
example : (genGuides guideDemoT id guideDemoRects guideDemoPins false 3 (fun _ _ => 0) 2000).isSome = true := by decide

set_option maxRecDepth 100000 in
/-- a net whose pins are joined only through a third pin: accepted in the last attempt -/
example : (genGuides guideDemoT id [⟨2, ⟨⟨0, 0⟩, ⟨1, 1⟩⟩⟩, ⟨4, ⟨⟨0, 0⟩, ⟨1, 1⟩⟩⟩, ⟨4, ⟨⟨5, 5⟩, ⟨6, 6⟩⟩⟩, ⟨6, ⟨⟨5, 5⟩, ⟨6, 6⟩⟩⟩]
    [[⟨⟨0, 0⟩, 2⟩], [⟨⟨0, 0⟩, 4⟩, ⟨⟨5, 5⟩, 4⟩], [⟨⟨5, 5⟩, 6⟩]] false 3 (fun _ _ => 0) 2000).isSome = true := by decide

end TR
