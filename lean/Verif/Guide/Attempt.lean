import Verif.Guide.Search
import Verif.Conn.SearchLemmas
/-! One attempt of the guide driver: the search answers, soundly and completely. -/
namespace TR
variable {T : GuideTech}

theorem guideMap_range {segs : List GSeg} {pins : List (List Node)} {n : Node} {i : Nat} (h : (guideMap T segs pins).Has n i) :
    i < segs.length + pins.length := by
  rcases (guideMap_has segs pins n i).1 h with ⟨s, h1, _⟩ | ⟨k, ns, h1, h2, _⟩
  · have := (List.getElem?_eq_some_iff.1 h1).1; omega
  · have := (List.getElem?_eq_some_iff.1 h2).1; omega

theorem guideAdj_range {segs : List GSeg} {pins : List (List Node)} {ft : Bool} {i m : Nat}
    (h : m ∈ guideAdj T segs.length ft (guideMap T segs pins) i) : m < segs.length + pins.length := by
  rcases (mem_guideAdj (guideMap_sorted segs pins) _ _ _ _).1 h with ⟨_, n, _, h1, _⟩ | ⟨_, h1, _⟩
  · exact guideMap_range h1
  · omega

/-- bound on the number of edges of a node, for the fuel -/
def guideDeg (T : GuideTech) (segs : List GSeg) (pins : List (List Node)) : Nat :=
  ((guideMap T segs pins).map (fun x => x.2.length + (((guideMap T segs pins).at ⟨x.1.pt, x.1.layer + 2⟩).length +
    ((guideMap T segs pins).at ⟨x.1.pt, x.1.layer - 2⟩).length))).sum

theorem flatMap_length_le {α β : Type} (f : α → List β) (g : α → Nat) (l : List α) (h : ∀ x, (f x).length ≤ g x) :
    (l.flatMap f).length ≤ (l.map g).sum := by
  induction l with
  | nil => simp
  | cons a r ih =>
    have := h a
    simp only [List.flatMap_cons, List.length_append, List.map_cons, List.sum_cons]
    omega

theorem guideAdj_len (segs : List GSeg) (pins : List (List Node)) (ft : Bool) (i : Nat) :
    (guideAdj T segs.length ft (guideMap T segs pins) i).length ≤ guideDeg T segs pins := by
  unfold guideAdj guideDeg
  apply flatMap_length_le
  intro x
  split
  · have h1 := List.length_filter_le (fun j => decide (j ≠ i) && guideEdge T segs.length ft x.1.layer i j) x.2
    have h2 := List.length_filter_le (fun j => decide (j < segs.length)) ((guideMap T segs pins).at ⟨x.1.pt, x.1.layer + 2⟩)
    have h3 := List.length_filter_le (fun j => decide (j < segs.length)) ((guideMap T segs pins).at ⟨x.1.pt, x.1.layer - 2⟩)
    split <;> simp only [List.length_append, List.length_nil] <;> omega
  · simp

/-- fuel that always suffices -/
def guideFuel (T : GuideTech) (segs : List GSeg) (pins : List (List Node)) : Nat :=
  roundFuel (segs.length + pins.length) (guideDeg T segs pins)

/-- the search, for a net with at least two pins -/
theorem guideSearch_spec (segs : List GSeg) {pins : List (List Node)} (hp : 2 ≤ pins.length) (ft : Bool) (pen : Nat)
    (pick : Nat → Nat → Nat) {fuel : Nat} (hf : guideFuel T segs pins ≤ fuel) :
    ∃ r, guideSearch T segs pins ft pen pick fuel = some r ∧
      (r.ok = true ↔ ∀ k, k < pins.length → Reaches (guideAdj T segs.length ft (guideMap T segs pins)) segs.length (segs.length + k)) ∧
      (r.ok = true ↔ ∀ k, k < pins.length → r.kept (segs.length + k) = true) ∧
      ∀ x, r.kept x = true → Within (guideAdj T segs.length ft (guideMap T segs pins)) (fun y => r.kept y = true) segs.length x := by
  obtain ⟨r, h, h1, h2, h3⟩ := netSearch_correct (adj := guideAdj T segs.length ft (guideMap T segs pins)) (g := segs.length)
    (n := segs.length + pins.length) (D := guideDeg T segs pins) (by omega) (fun i _ m hm => guideAdj_range hm)
    (fun i _ => guideAdj_len segs pins ft i) pen pick (fuel := fuel) hf
  refine ⟨r, ?_, ?_, ?_, fun x hx => (h3 x hx).2⟩
  · unfold guideSearch
    simp [h, show pins.length ≠ 1 by omega]
  · rw [h1]
    constructor
    · intro hx k hk; exact hx _ (by omega) (by omega)
    · intro hx x g1 g2
      have := hx (x - segs.length) (by omega)
      rwa [show segs.length + (x - segs.length) = x by omega] at this
  · rw [h2]
    constructor
    · intro hx k hk; exact hx _ (by omega) (by omega)
    · intro hx x g1 g2
      have := hx (x - segs.length) (by omega)
      rwa [show segs.length + (x - segs.length) = x by omega] at this

theorem split_segs {iv : Intvs} {pinCells : List (List Node)} {retry : Bool} {segs : List GSeg}
    (h : splitGuides T iv pinCells retry = some segs) {s : GSeg} (hs : s ∈ segs) :
    s.b ≤ s.e ∧ (retry = false → s.l ≤ T.viaAccess → s.b = s.e) ∧ ∀ n, s.Has T n → GuideCell T iv n := by
  obtain ⟨l, hl, k, hk, i, hi, L, hL, hsL⟩ := (split_spec h).2 s hs
  obtain ⟨a1, a2, a3, a4, a5⟩ := hL.inside s hsL
  refine ⟨a4, fun h1 h2 => hL.unit h1 (by omega) s hsL, ?_⟩
  intro n ⟨e1, e2, e3, e4⟩
  refine ⟨by omega, by omega, k, ?_, by omega, i, hi, by omega, by omega⟩
  rw [← e1, a1]; exact hk

theorem pinReach_mono {lat : Int → Prop} {C D : Node → Prop} (h : ∀ n, C n → D n) {pins : List (List Node)} {ft : Bool} {k : Nat}
    (hl : PinReach T lat C pins ft k) : PinReach T lat D pins ft k := by
  unfold PinReach at *
  split
  · rename_i hft
    rw [if_pos hft] at hl
    induction hl with
    | refl h => exact .refl h
    | step _ h1 h2 ih => exact .step ih (pinLink_mono h h1) h2
  · rename_i hft
    rw [if_neg hft] at hl
    exact pinLink_mono h hl

variable {iv : Intvs} {pinCells : List (List Node)} {retry ft : Bool} {segs : List GSeg}

theorem pin_sound (hsp : splitGuides T iv pinCells retry = some segs) {K : Nat → Prop} {k : Nat} (hk0 : k ≠ 0)
    (hk : k < (guidePins T iv pinCells).length)
    (h : Within (guideAdj T segs.length ft (guideMap T segs (guidePins T iv pinCells))) K segs.length (segs.length + k)) :
    PinReach T (lateralOf T retry) (OnGuides T segs K) (guidePins T iv pinCells) ft k := by
  have hsegs : ∀ s ∈ segs, s.b ≤ s.e ∧ (s.b < s.e → lateralOf T retry s.l) := by
    intro s hs
    obtain ⟨h1, h2, _⟩ := split_segs hsp hs
    refine ⟨h1, fun hlt => ?_⟩
    cases hr : retry with
    | true => exact .inl rfl
    | false =>
      refine .inr (Classical.byContradiction fun hn => ?_)
      have := h2 hr (by omega)
      omega
  unfold PinReach
  split
  · rename_i hft
    obtain ⟨j, h1, h2⟩ := (reach_sound hsegs (S := Chain (PinLink T (lateralOf T retry) (OnGuides T segs K) (guidePins T iv pinCells))
      (fun j => j < (guidePins T iv pinCells).length) 0) (.refl (by omega)) (fun _ j k hj hl => .step hj hl (by
        obtain ⟨_, ms, _, _, _, h2, _⟩ := hl
        exact (List.getElem?_eq_some_iff.1 h2).1)) h).2 (by omega)
    rw [show segs.length + k - segs.length = k by omega] at h2
    exact .step h1 h2 hk
  · rename_i hft
    obtain ⟨j, rfl, h2⟩ := (reach_sound hsegs (S := fun j => j = 0) rfl (fun h => absurd h hft) h).2 (by omega)
    rwa [show segs.length + k - segs.length = k by omega] at h2

theorem pin_complete' (ha : T.Alternates) (hok : iv.Ok) (hsp : splitGuides T iv pinCells retry = some segs) {k : Nat} (hk0 : k ≠ 0)
    (h : PinReach T (lateralOf T false) (GuideCell T iv) (guidePins T iv pinCells) ft k) :
    Reaches (guideAdj T segs.length ft (guideMap T segs (guidePins T iv pinCells))) segs.length (segs.length + k) := by
  have hlat : lateralOf T false = fun l => T.viaAccess < l := by
    funext l; simp [lateralOf]
  rw [hlat] at h
  unfold PinReach at h
  split at h
  · rename_i hft
    clear hk0
    induction h with
    | refl _ => exact .refl trivial
    | step _ h1 _ ih => exact pin_complete ha hok hsp (.inl hft) h1 ih
  · exact pin_complete ha hok hsp (.inr ⟨rfl, hk0⟩) h (.refl trivial)

theorem onGuides_cell (hsp : splitGuides T iv pinCells retry = some segs) {K : Nat → Prop} {n : Node} (h : OnGuides T segs K n) :
    GuideCell T iv n := by
  obtain ⟨i, s, _, h1, h2⟩ := h
  exact (split_segs hsp (List.mem_of_getElem? h1)).2.2 n h2

/-- everything about one attempt -/
theorem attempt_spec (ha : T.Alternates) (hok : iv.Ok) (hsp : splitGuides T iv pinCells retry = some segs)
    (hp : 2 ≤ pinCells.length) (pen : Nat) (pick : Nat → Nat → Nat) {fuel : Nat}
    (hf : guideFuel T segs (guidePins T iv pinCells) ≤ fuel) :
    ∃ r, guideAttempt T iv pinCells retry ft pen pick fuel = some (segs, r) ∧
      (r.ok = true → ∀ k, k ≠ 0 → k < pinCells.length →
        PinReach T (lateralOf T retry) (OnGuides T segs (fun i => r.kept i = true)) (guidePins T iv pinCells) ft k) ∧
      ((∀ k, k ≠ 0 → k < pinCells.length →
        PinReach T (lateralOf T false) (GuideCell T iv) (guidePins T iv pinCells) ft k) → r.ok = true) := by
  have hlen : (guidePins T iv pinCells).length = pinCells.length := by simp [guidePins]
  obtain ⟨r, h, h1, h2, h3⟩ := guideSearch_spec (T := T) segs (pins := guidePins T iv pinCells) (by omega) ft pen pick hf
  refine ⟨r, by unfold guideAttempt; rw [hsp]; simp [h], ?_, ?_⟩
  · intro hr k hk0 hk
    exact pin_sound hsp hk0 (by omega) (h3 _ (h2.1 hr k (by omega)))
  · intro hall
    refine h1.2 (fun k hk => ?_)
    by_cases hk0 : k = 0
    · subst hk0; exact .refl trivial
    · exact pin_complete' ha hok hsp hk0 (hall k hk0 (by omega))

end TR
