import Verif.TA.Lemmas
import Verif.TA.Spec
import Verif.Track.Props
/-! # C34–C36, C52: track assignment of one panel -/
namespace TR

/-- order in which the tracks of a range are tried -/
def scanOrder (locs : List Int) (w2 : Option Int) (w i1 i2 : Int) : List Int :=
  match w2 with
  | some c =>
    let st := startTrack locs c i1 i2
    if 0 < w then upFrom st i2 ++ downFrom (st - 1) i1
    else if w = 0 then altOrder i1 i2 st (List.range (i2 - i1 + 1).toNat)
    else downFrom st i1 ++ upFrom (st + 1) i2
  | none =>
    if 0 < w then downFrom i2 i1
    else if w = 0 then upFrom ((i1 + i2).tdiv 2) i2 ++ downFrom ((i1 + i2).tdiv 2 - 1) i1
    else upFrom i1 i2

theorem startTrack_range {locs : List Int} {c i1 i2 : Int} (h : i1 ≤ i2) : i1 ≤ startTrack locs c i1 i2 ∧ startTrack locs c i1 i2 ≤ i2 := by
  unfold startTrack; omega

theorem tdiv_mid {i1 i2 : Int} (h0 : 0 ≤ i1) (h : i1 ≤ i2) : i1 ≤ (i1 + i2).tdiv 2 ∧ (i1 + i2).tdiv 2 ≤ i2 := by
  rw [Int.tdiv_eq_ediv_of_nonneg (by omega)]; omega

theorem mem_altOrder {i1 i2 st x : Int} (h1 : i1 ≤ st) (h2 : st ≤ i2) :
    x ∈ altOrder i1 i2 st (List.range (i2 - i1 + 1).toNat) ↔ i1 ≤ x ∧ x ≤ i2 := by
  unfold altOrder
  simp only [List.mem_filter, List.mem_flatMap, List.mem_range, List.mem_cons, List.not_mem_nil, or_false, Bool.and_eq_true, decide_eq_true_eq]
  constructor
  · rintro ⟨_, h⟩; exact h
  · intro hx
    refine ⟨?_, hx⟩
    by_cases hge : st ≤ x
    · exact ⟨(x - st).toNat, by omega, .inl (by omega)⟩
    · exact ⟨(st - 1 - x).toNat, by omega, .inr (by omega)⟩

/-- C34: the scan order covers exactly the available tracks -/
theorem c34_order_covers {locs : List Int} {w2 : Option Int} {w i1 i2 : Int} (h0 : 0 ≤ i1) (h : i1 ≤ i2) (x : Int) :
    x ∈ scanOrder locs w2 w i1 i2 ↔ i1 ≤ x ∧ x ≤ i2 := by
  unfold scanOrder
  cases w2 with
  | some c =>
    obtain ⟨a, b⟩ := startTrack_range (locs := locs) (c := c) h
    simp only
    split
    · rw [List.mem_append, mem_upFrom, mem_downFrom]; omega
    · split
      · exact mem_altOrder a b
      · rw [List.mem_append, mem_upFrom, mem_downFrom]; omega
  | none =>
    obtain ⟨a, b⟩ := tdiv_mid h0 h
    simp only
    split
    · rw [mem_downFrom]
    · split
      · rw [List.mem_append, mem_upFrom, mem_downFrom]; omega
      · rw [mem_upFrom]

theorem ne_nil_of_mem {l : List Int} {x : Int} (h : x ∈ l) : l ≠ [] := by rintro rfl; simp at h

theorem bestScan_eq {init : Bool} {cost drc : Int → Nat} {locs : List Int} {w2 : Option Int} {w i1 i2 : Int} (h0 : 0 ≤ i1) (h : i1 ≤ i2) :
    bestScan init cost drc locs w2 w i1 i2 = scan init cost drc (scanOrder locs w2 w i1 i2) {} := by
  unfold bestScan scanOrder
  cases w2 with
  | some c =>
    obtain ⟨a, b⟩ := startTrack_range (locs := locs) (c := c) h
    simp only
    split
    · exact scan_append _ _ _ (ne_nil_of_mem ((mem_upFrom _ _ _).2 ⟨Int.le_refl _, b⟩))
    · split
      · have : (i2 - i1 + 1).toNat = (i2 - i1).toNat + 1 := by omega
        rw [this]
        exact altScan_start a b _ _
      · exact scan_append _ _ _ (ne_nil_of_mem ((mem_downFrom _ _ _).2 ⟨a, Int.le_refl _⟩))
  | none =>
    obtain ⟨a, b⟩ := tdiv_mid h0 h
    simp only
    split
    · rfl
    · split
      · exact scan_append _ _ _ (ne_nil_of_mem ((mem_upFrom _ _ _).2 ⟨Int.le_refl _, b⟩))
      · rfl

/-- C34: for a non-empty range and every scan order, the tracks inspected are those up to the first
violation-free one (all if there is none); the chosen track is one of these, and no inspected track is
cheaper; the program exits only if no inspected track costs less than 2^32 - 1. -/
theorem c34_best_track (init : Bool) (cost drc : Int → Nat) (locs : List Int) (w2 : Option Int) (w : Int) {i1 i2 : Int}
    (h0 : 0 ≤ i1) (h : i1 ≤ i2) : ∃ order seen : List Int,
    (∀ i, i ∈ order ↔ i1 ≤ i ∧ i ≤ i2) ∧ Inspected drc order seen ∧ seen ≠ [] ∧
    (∀ t rec, bestTrack init cost drc locs w2 w i1 i2 = some (t, rec) →
      t ∈ seen ∧ (∀ i ∈ seen, taKey init cost drc t ≤ taKey init cost drc i)) ∧
    (bestTrack init cost drc locs w2 w i1 i2 = none → ∀ i ∈ seen, 4294967295 ≤ taKey init cost drc i) := by
  have hcov := c34_order_covers (locs := locs) (w2 := w2) (w := w) h0 h
  have hb : BestOf (scanKey init cost drc) [] ({} : Best) := .inl ⟨rfl, rfl, by simp⟩
  rcases scan_spec (scanOrder locs w2 w i1 i2) [] _ hb with ⟨_, h2⟩ | ⟨a, z, b, h1, h2, h3, h4, h5⟩
  · exact absurd h2 (ne_nil_of_mem ((hcov i1).2 ⟨Int.le_refl _, h⟩))
  · refine ⟨scanOrder locs w2 w i1 i2, a ++ [z], hcov, ⟨b, by simp [h1], ?_, ?_⟩, by simp, ?_, ?_⟩
    · exact h5.imp_right (fun hz => ⟨a, z, rfl, hz⟩)
    · intro pre last he
      obtain ⟨rfl, _⟩ := List.append_inj' he rfl
      exact h4
    · intro t rec he
      unfold bestTrack at he
      rw [bestScan_eq h0 h] at he
      simp only [Option.map_eq_some_iff, Prod.mk.injEq] at he
      obtain ⟨t', e1, rfl, _⟩ := he
      rcases h2 with ⟨g1, _⟩ | ⟨t, g1, g2, _, _, g5⟩
      · rw [g1] at e1; simp at e1
      · rw [g2] at e1
        simp only [Option.some.injEq] at e1
        subst e1
        exact ⟨by simpa using g1, fun i hi => g5 i (by simpa using hi)⟩
    · intro he
      unfold bestTrack at he
      rw [bestScan_eq h0 h, Option.map_eq_none_iff] at he
      rcases h2 with ⟨_, _, g3⟩ | ⟨t, _, g2, _⟩
      · exact fun i hi => g3 i (by simpa using hi)
      · rw [g2] at he; simp at he

/-- C34: the chosen track is available; in the later passes its violation cost is minimal among all
available tracks; in the first pass its cost is minimal among all available tracks unless one of these
was violation-free, and then it costs no more than this one. -/
theorem c34_best_available (init : Bool) (cost drc : Int → Nat) (locs : List Int) (w2 : Option Int) (w : Int) {i1 i2 : Int}
    (h0 : 0 ≤ i1) (h : i1 ≤ i2) {t : Int} {rec : Nat} (hb : bestTrack init cost drc locs w2 w i1 i2 = some (t, rec)) :
    (i1 ≤ t ∧ t ≤ i2) ∧
    (init = false → ∀ i, i1 ≤ i → i ≤ i2 → drc t ≤ drc i) ∧
    (init = true → (∀ i, i1 ≤ i → i ≤ i2 → cost t ≤ cost i) ∨ ∃ z, i1 ≤ z ∧ z ≤ i2 ∧ drc z = 0 ∧ cost t ≤ cost z) := by
  obtain ⟨order, seen, h1, ⟨rest, h2, h3, _⟩, _, h5, _⟩ := c34_best_track init cost drc locs w2 w h0 h
  obtain ⟨g1, g2⟩ := h5 t rec hb
  have hin : ∀ i ∈ seen, i1 ≤ i ∧ i ≤ i2 := fun i hi => (h1 i).1 (by rw [h2]; exact List.mem_append_left _ hi)
  refine ⟨hin t g1, ?_, ?_⟩
  · rintro rfl
    intro i hi1 hi2
    rcases h3 with rfl | ⟨a, z, rfl, hz⟩
    · have := g2 i (by rw [List.append_nil] at h2; rw [← h2]; exact (h1 i).2 ⟨hi1, hi2⟩)
      simpa [taKey] using this
    · have := g2 z (by simp)
      simp [taKey] at this
      omega
  · rintro rfl
    rcases h3 with rfl | ⟨a, z, rfl, hz⟩
    · left
      intro i hi1 hi2
      have := g2 i (by rw [List.append_nil] at h2; rw [← h2]; exact (h1 i).2 ⟨hi1, hi2⟩)
      simpa [taKey] using this
    · right
      have := g2 z (by simp)
      obtain ⟨q1, q2⟩ := hin z (by simp)
      exact ⟨z, q1, q2, hz, by simpa [taKey] using this⟩

/-- C34: a track is found whenever the range is not empty and costs are below 2^32 - 1 -/
theorem c34_track_found (init : Bool) (cost drc : Int → Nat) (locs : List Int) (w2 : Option Int) (w : Int) {i1 i2 : Int}
    (h0 : 0 ≤ i1) (h : i1 ≤ i2) (hc : ∀ i, cost i < 4294967295 ∧ drc i < 4294967295) :
    (bestTrack init cost drc locs w2 w i1 i2).isSome = true := by
  obtain ⟨order, seen, _, _, h3, _, h5⟩ := c34_best_track init cost drc locs w2 w h0 h
  cases hb : bestTrack init cost drc locs w2 w i1 i2 with
  | some x => rfl
  | none =>
    cases seen with
    | nil => exact absurd rfl h3
    | cons a r =>
      have := h5 hb a List.mem_cons_self
      obtain ⟨q1, q2⟩ := hc a
      unfold taKey at this
      split at this <;> omega

/-- C34: the available tracks are the tracks inside the panel, its upper border excluded -/
theorem c34_available_tracks (locs : List Int) (hs : StrictInc locs) (lo hi : Int) (i : Nat) (c : Int) (hc : locs[i]? = some c) :
    (availTracks locs lo hi).1 ≤ i ∧ (i : Int) ≤ (availTracks locs lo hi).2 ↔ lo ≤ c ∧ c < hi := by
  unfold availTracks
  rw [c13_ta_track_range locs hs lo (hi - 1) i c hc]
  omega

/-- C34, the case the property excludes: without an available track the program does not exit but may take
a track outside the panel. Tracks at 10 and 30, panel from 15 to 25: the track at 10 is chosen. -/
theorem c34_empty_panel_takes_outside_track :
    availTracks [10, 30] 15 25 = (1, 0) ∧ bestTrack true (fun _ => 5) (fun _ => 0) [10, 30] none 0 1 0 = some (0, 0) := by decide

/-- five tracks; the middle one is blocked -/
example : bestTrack false (fun _ => 1) (fun i => if i = 2 then 7 else if i = 4 then 0 else 3) [0, 10, 20, 30, 40] (some 20) 0 0 4 = some (4, 0) := by decide
example : availTracks [0, 10, 20, 30, 40] 10 40 = (1, 3) := by decide

/-- C35 is false: in the first pass the wire goes to track 0 (total cost 3, violation cost 3) while the
recorded violation cost 0 is that of track 1, the last one tried. -/
theorem c35_first_pass_records_other_track :
    bestTrack true (fun i => if i = 0 then 3 else 9) (fun i => if i = 0 then 3 else 0) [0, 10] none (-1) 0 1 = some (0, 0) ∧
    (fun i : Int => if i = 0 then 3 else 0) 0 = 3 := by decide

/-- C35 is false in the later passes too: the wire goes to track 0 (violation cost 3), the recorded cost 9
is that of track 1. -/
theorem c35_later_pass_records_other_track :
    bestTrack false (fun _ => 0) (fun i => if i = 0 then 3 else 9) [0, 10] none (-1) 0 1 = some (0, 9) := by decide

/-- C35, what holds: the recorded cost is the violation cost of an available track, never below that of
the chosen track in the later passes; there it is zero exactly if the chosen track is violation-free. Missing: equality
with the violation cost of the chosen track, which is false. -/
theorem c35_recorded_cost_partial (init : Bool) (cost drc : Int → Nat) (locs : List Int) (w2 : Option Int) (w : Int) {i1 i2 : Int}
    (h0 : 0 ≤ i1) (h : i1 ≤ i2) {t : Int} {rec : Nat} (hb : bestTrack init cost drc locs w2 w i1 i2 = some (t, rec)) :
    (∃ z, i1 ≤ z ∧ z ≤ i2 ∧ rec = drc z) ∧ (init = false → drc t ≤ rec ∧ (rec = 0 ↔ drc t = 0)) := by
  have hcov := c34_order_covers (locs := locs) (w2 := w2) (w := w) h0 h
  have hb0 : BestOf (scanKey init cost drc) [] ({} : Best) := .inl ⟨rfl, rfl, by simp⟩
  rcases scan_spec (scanOrder locs w2 w i1 i2) [] _ hb0 with ⟨_, h2⟩ | ⟨a, z, b, h1, h2, h3, h4, h5⟩
  · exact absurd h2 (ne_nil_of_mem ((hcov i1).2 ⟨Int.le_refl _, h⟩))
  · have hz := (hcov z).1 (by rw [h1]; simp)
    have hb' := hb
    unfold bestTrack at hb'
    rw [bestScan_eq h0 h] at hb'
    simp only [Option.map_eq_some_iff, Prod.mk.injEq] at hb'
    obtain ⟨t', e1, e2, e3⟩ := hb'
    subst e2
    have hr : rec = drc z := by rw [← e3, h3]
    refine ⟨⟨z, hz.1, hz.2, hr⟩, ?_⟩
    intro hi
    have hmin := (c34_best_available init cost drc locs w2 w h0 h hb).2.1 hi
    refine ⟨by rw [hr]; exact hmin z hz.1 hz.2, ?_, ?_⟩
    · intro hr0
      have := hmin z hz.1 hz.2
      omega
    · intro ht
      rcases h5 with rfl | h5
      · rcases h2 with ⟨g1, _⟩ | ⟨t, g1, g2, _⟩
        · rw [g1] at e1; simp at e1
        · rw [g2] at e1
          simp only [Option.some.injEq] at e1
          subst e1
          simp only [List.nil_append, List.mem_append, List.mem_singleton] at g1
          rcases g1 with g1 | rfl
          · exact absurd ht (h4 _ g1)
          · rw [hr]; exact ht
      · rw [hr]; exact h5

/-! ### the loop -/

theorem taInv_start {U todo : List Nat} {maxRetry : Nat} (hn : todo.Nodup) (hs : ∀ i ∈ todo, i ∈ U) : TAInv U maxRetry (taStart todo) :=
  ⟨hn, hs, fun _ => Nat.zero_le _⟩

/-- C36: the loop ends after finitely many passes, whatever order the wires are taken in and whatever
wires are found to have violations; no wire is assigned more than `maxRetry` times. -/
theorem c36_assignment_terminates {U todo : List Nat} (hU : U.Nodup) (hn : todo.Nodup) (hs : ∀ i ∈ todo, i ∈ U) (init : Bool) (maxRetry : Nat)
    (pick : Nat → Nat) {others : Nat → List (Nat × Bool)} (ho : ∀ t, ∀ x ∈ others t, x.1 ∈ U) {fuel : Nat}
    (hf : U.length * maxRetry * (U.length + 1) + U.length ≤ fuel) :
    (taRun init maxRetry pick others fuel (taStart todo)).todo = [] ∧ ∀ i, (taRun init maxRetry pick others fuel (taStart todo)).cnt i ≤ maxRetry := by
  obtain ⟨h1, _, h3⟩ := taRun_spec hU (init := init) (pick := pick) ho fuel _ (taInv_start (maxRetry := maxRetry) hn hs)
  refine ⟨h3 (Nat.le_trans ?_ hf), h1.cap⟩
  have hl : taLeft U maxRetry (fun _ => 0) = U.length * maxRetry := by
    unfold taLeft
    clear hf ho hs hU h1 h3
    induction U with
    | nil => simp
    | cons a r ih => 
      simp only [List.map_cons, List.sum_cons, List.length_cons, Nat.sub_zero] at ih ⊢
      rw [ih, Nat.add_mul]
      omega
  unfold taMeasure
  show taLeft U maxRetry (fun _ => 0) * _ + todo.length ≤ _
  rw [hl]
  have := nodup_length_le hn hs
  omega

/-- progress made on the wires of the first list -/
structure TADone (todo0 : List Nat) (maxRetry : Nat) (others : Nat → List (Nat × Bool)) (s : TAState) : Prop where
  buf : ∀ i ∈ s.buf, 1 ≤ s.cnt i
  done : ∀ i ∈ todo0, i ∈ s.todo ∨ 1 ≤ s.cnt i ∨ ∃ t < s.time, (i, false) ∈ others t

theorem updateOther_keep {maxRetry : Nat} {cnt : Nat → Nat} {i : Nat} (hm : 1 ≤ maxRetry) : ∀ (xs : List (Nat × Bool)) (todo : List Nat),
    i ∈ todo → i ∈ xs.foldl (updateOther maxRetry cnt) todo ∨ 1 ≤ cnt i ∨ (i, false) ∈ xs
  | [], _, h => .inl h
  | (j, f) :: r, todo, h => by
    by_cases hj : j = i
    · subst hj
      cases f with
      | false => right; right; simp
      | true =>
        by_cases hc : cnt j < maxRetry
        · have : j ∈ updateOther maxRetry cnt todo (j, true) := by unfold updateOther; simp [hc]
          rcases updateOther_keep hm r _ this with h | h | h
          · exact .inl h
          · exact .inr (.inl h)
          · exact .inr (.inr (List.mem_cons_of_mem _ h))
        · right; left; omega
    · have : i ∈ updateOther maxRetry cnt todo (j, f) := by
        unfold updateOther
        simp only
        have hf : i ∈ todo.filter (fun x => decide (x ≠ j)) := List.mem_filter.2 ⟨h, by simp; exact fun e => hj e.symm⟩
        split
        · exact List.mem_cons_of_mem _ hf
        · exact hf
      rcases updateOther_keep hm r _ this with h | h | h
      · exact .inl h
      · exact .inr (.inl h)
      · exact .inr (.inr (List.mem_cons_of_mem _ h))

theorem taStep_done {todo0 : List Nat} {init : Bool} {maxRetry : Nat} (hm : 1 ≤ maxRetry) {pick : Nat → Nat} {others : Nat → List (Nat × Bool)} {s : TAState}
    (h : TADone todo0 maxRetry others s) (hne : s.todo ≠ []) : TADone todo0 maxRetry others (taStep init maxRetry pick others s) := by
  have hlen : 0 < s.todo.length := by
    cases hh : s.todo with
    | nil => exact absurd hh hne
    | cons a r => simp
  have hlt := Nat.mod_lt (pick s.time) hlen
  unfold taStep
  rw [List.getElem?_eq_getElem hlt]
  generalize s.todo[pick s.time % s.todo.length] = j
  simp only
  split
  · rename_i hc
    refine ⟨h.buf, fun i hi => ?_⟩
    rcases h.done i hi with h1 | h1 | ⟨t, h1, h2⟩
    · by_cases hij : i = j
      · subst hij
        right; left
        rcases hc with hc | hc
        · exact h.buf i hc
        · show 1 ≤ s.cnt i; omega
      · left; exact List.mem_filter.2 ⟨h1, by simpa using hij⟩
    · exact .inr (.inl h1)
    · exact .inr (.inr ⟨t, Nat.lt_succ_of_lt h1, h2⟩)
  · refine ⟨fun i hi => ?_, fun i hi => ?_⟩
    · have := List.mem_of_mem_take hi
      rcases List.mem_cons.1 this with rfl | hb
      · simp
      · have := h.buf i hb
        show 1 ≤ if i = j then s.cnt i + 1 else s.cnt i
        split <;> omega
    · have hup : 1 ≤ s.cnt i → 1 ≤ (if i = j then s.cnt i + 1 else s.cnt i) := by intro; split <;> omega
      rcases h.done i hi with h1 | h1 | ⟨t, h1, h2⟩
      · by_cases hij : i = j
        · right; left; simp [hij]
        · have hf : i ∈ s.todo.filter (fun x => decide (x ≠ j)) := List.mem_filter.2 ⟨h1, by simpa using hij⟩
          cases init with
          | true => exact .inl hf
          | false =>
            rcases updateOther_keep (cnt := fun x => if x = j then s.cnt x + 1 else s.cnt x) hm (others s.time) _ hf with q | q | q
            · exact .inl q
            · exact .inr (.inl q)
            · exact .inr (.inr ⟨s.time, Nat.lt_succ_self _, q⟩)
      · exact .inr (.inl (hup h1))
      · exact .inr (.inr ⟨t, Nat.lt_succ_of_lt h1, h2⟩)

theorem taRun_done {todo0 : List Nat} {init : Bool} {maxRetry : Nat} (hm : 1 ≤ maxRetry) {pick : Nat → Nat} {others : Nat → List (Nat × Bool)} :
    ∀ (fuel : Nat) (s : TAState), TADone todo0 maxRetry others s → TADone todo0 maxRetry others (taRun init maxRetry pick others fuel s)
  | 0, _, h => h
  | f + 1, s, h => by
    unfold taRun
    by_cases hn : s.todo = []
    · rw [if_pos (by simp [hn])]; exact h
    · rw [if_neg (by simpa using hn)]
      exact taRun_done hm f _ (taStep_done hm h hn)

/-- C52: when the loop ends, every wire that was to be assigned has been assigned at least once, or an
assignment of another wire left it without violations. -/
theorem c52_every_wire_handled {todo : List Nat} (init : Bool) {maxRetry : Nat} (hm : 1 ≤ maxRetry) (pick : Nat → Nat)
    (others : Nat → List (Nat × Bool)) (fuel : Nat) (he : (taRun init maxRetry pick others fuel (taStart todo)).todo = []) :
    ∀ i ∈ todo, 1 ≤ (taRun init maxRetry pick others fuel (taStart todo)).cnt i ∨
      ∃ t < (taRun init maxRetry pick others fuel (taStart todo)).time, (i, false) ∈ others t := by
  have h0 : TADone todo maxRetry others (taStart todo) := ⟨by simp [taStart], fun i hi => .inl hi⟩
  intro i hi
  rcases (taRun_done (init := init) (pick := pick) hm fuel _ h0).done i hi with h | h
  · rw [he] at h; simp at h
  · exact h

/-- the first pass: wires not yet taken have not been assigned, the others once -/
structure TAFirst (todo0 : List Nat) (s : TAState) : Prop where
  nodup : s.todo.Nodup
  sub : ∀ i ∈ s.todo, i ∈ todo0
  wait : ∀ i ∈ s.todo, s.cnt i = 0 ∧ i ∉ s.buf
  done : ∀ i ∈ todo0, i ∉ s.todo → s.cnt i = 1

theorem taStep_first {todo0 : List Nat} {maxRetry : Nat} (hm : 1 ≤ maxRetry) {pick : Nat → Nat} {others : Nat → List (Nat × Bool)} {s : TAState}
    (h : TAFirst todo0 s) (hne : s.todo ≠ []) : TAFirst todo0 (taStep true maxRetry pick others s) := by
  have hlen : 0 < s.todo.length := by
    cases hh : s.todo with
    | nil => exact absurd hh hne
    | cons a r => simp
  have hlt := Nat.mod_lt (pick s.time) hlen
  unfold taStep
  rw [List.getElem?_eq_getElem hlt]
  generalize hj : s.todo[pick s.time % s.todo.length] = j
  have hjm : j ∈ s.todo := by rw [← hj]; exact List.getElem_mem hlt
  obtain ⟨hc, hb⟩ := h.wait j hjm
  simp only [if_true]
  rw [if_neg (by simp [hb]; omega)]
  refine ⟨h.nodup.filter _, fun i hi => h.sub i (List.mem_filter.1 hi).1, fun i hi => ?_, fun i hi hni => ?_⟩
  · obtain ⟨h1, h2⟩ := List.mem_filter.1 hi
    have hij : i ≠ j := by simpa using h2
    obtain ⟨h3, h4⟩ := h.wait i h1
    refine ⟨by simp [hij, h3], fun hm2 => ?_⟩
    rcases List.mem_cons.1 (List.mem_of_mem_take hm2) with q | q
    · exact hij q
    · exact h4 q
  · show (if i = j then s.cnt i + 1 else s.cnt i) = 1
    by_cases hij : i = j
    · subst hij; simp [hc]
    · rw [if_neg hij]
      refine h.done i hi (fun hmem => hni (List.mem_filter.2 ⟨hmem, by simpa using hij⟩))

/-- C52: in the first pass every wire of the panel is assigned exactly once. -/
theorem c52_first_pass_once {todo : List Nat} (hn : todo.Nodup) {maxRetry : Nat} (hm : 1 ≤ maxRetry) (pick : Nat → Nat)
    (others : Nat → List (Nat × Bool)) (fuel : Nat) (he : (taRun true maxRetry pick others fuel (taStart todo)).todo = []) :
    ∀ i ∈ todo, (taRun true maxRetry pick others fuel (taStart todo)).cnt i = 1 := by
  have key : ∀ (fuel : Nat) (s : TAState), TAFirst todo s → TAFirst todo (taRun true maxRetry pick others fuel s) := by
    intro f
    induction f with
    | zero => exact fun s h => h
    | succ f ih =>
      intro s h
      unfold taRun
      by_cases hne : s.todo = []
      · rw [if_pos (by simp [hne])]; exact h
      · rw [if_neg (by simpa using hne)]
        exact ih _ (taStep_first hm h hne)
  have h0 : TAFirst todo (taStart todo) := ⟨hn, fun _ h => h, fun i _ => ⟨rfl, by simp [taStart]⟩, fun i h h' => absurd h h'⟩
  intro i hi
  exact (key fuel _ h0).done i hi (by rw [he]; simp)

/-- three wires; assigning the first one leaves the second one clean -/
example : (taRun false 1 (fun _ => 0) (fun t => if t = 0 then [(2, false), (3, true)] else []) 30 (taStart [1, 2])).todo = [] ∧
    [1, 2, 3].map (taRun false 1 (fun _ => 0) (fun t => if t = 0 then [(2, false), (3, true)] else []) 30 (taStart [1, 2])).cnt = [1, 0, 1] := by decide
example : [1, 2, 3].map (taRun true 1 (fun _ => 1) (fun _ => []) 30 (taStart [1, 2, 3])).cnt = [1, 1, 1] := by decide

end TR
