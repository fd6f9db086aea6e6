import Verif.PA.Lib.Model
import Verif.PA.Track.RangeProps

/-!
# C209: the analysis of instances ends, unless the step of some tracks is zero, and counts groups

In English: reading a design ends with a division by zero just if there is an instance and a pattern
of tracks, in the preferred direction of a layer between the lowest pin layer of the instance's cell
and two above the highest, whose step is 0.  Else the number reported is the number of instances
that are pairwise not alike, to one of which each instance is alike, where alike means: the same
cell and orientation, and the same position relative to each such pattern.
-/

namespace TR

/-! ## Specification -/

/-- The pattern runs in the preferred direction of its layer. -/
def IaPreferred (dirH : Int → Bool) (t : PTrack) : Prop := t.vert = !dirH t.layer

/-- The layer lies between the lowest layer of a pin of the cell and two layers above the highest. -/
def IaInRange (ts : List PlrTerm) (l : Int) : Prop :=
  (∃ t ∈ ts, ∃ p : Int, p ∈ t.layers ∧ p ≤ l) ∧ ∃ t ∈ ts, ∃ p : Int, p ∈ t.layers ∧ l ≤ p + 2

/-- Instances of one cell and orientation whose origins differ by whole steps of each pattern. -/
def IaAlike (dirH : Int → Bool) (cells : Nat → List PlrTerm) (pats : List PTrack)
    (i j : PInst) : Prop :=
  i.block = j.block ∧ i.orient = j.orient ∧
  ∀ t ∈ pats, IaPreferred dirH t → IaInRange (cells i.block) t.layer →
    ∃ k : Int, if t.vert then i.origin.x - j.origin.x = k * t.spc else i.origin.y - j.origin.y = k * t.spc

/-- All layers exist. -/
def IaKnown (n : Nat) (cells : Nat → List PlrTerm) (pats : List PTrack) : Prop :=
  (∀ b, ∀ t ∈ cells b, ∀ p : Int, p ∈ t.layers → 0 ≤ p ∧ p < n) ∧ ∀ t ∈ pats, 0 ≤ t.layer ∧ t.layer < n

/-! ## Lemmas -/

theorem iaFold_min_le (ls : List Int) (a x : Int) : ls.foldl min a ≤ x ↔ a ≤ x ∨ ∃ p : Int, p ∈ ls ∧ p ≤ x := by
  induction ls generalizing a with
  | nil => simp
  | cons b r ih =>
    rw [List.foldl_cons, ih]
    constructor
    · rintro (h | ⟨p, hp, h⟩)
      · by_cases hb : b ≤ x
        · exact .inr ⟨b, List.mem_cons_self .., hb⟩
        · exact .inl (by omega)
      · exact .inr ⟨p, List.mem_cons_of_mem _ hp, h⟩
    · rintro (h | ⟨p, hp, h⟩)
      · exact .inl (by omega)
      · rcases List.mem_cons.1 hp with e | hp
        · subst e; exact .inl (by omega)
        · exact .inr ⟨p, hp, h⟩

theorem le_foldl_max (ls : List Int) (a x : Int) : x ≤ ls.foldl max a ↔ x ≤ a ∨ ∃ p : Int, p ∈ ls ∧ x ≤ p := by
  induction ls generalizing a with
  | nil => simp
  | cons b r ih =>
    rw [List.foldl_cons, ih]
    constructor
    · rintro (h | ⟨p, hp, h⟩)
      · by_cases hb : x ≤ b
        · exact .inr ⟨b, List.mem_cons_self .., hb⟩
        · exact .inl (by omega)
      · exact .inr ⟨p, List.mem_cons_of_mem _ hp, h⟩
    · rintro (h | ⟨p, hp, h⟩)
      · exact .inl (by omega)
      · rcases List.mem_cons.1 hp with e | hp
        · subst e; exact .inl (by omega)
        · exact .inr ⟨p, hp, h⟩

theorem iaTracks_mem {dirH : Int → Bool} {n : Nat} {ts : List PlrTerm} {pats : List PTrack}
    (hp0 : ∀ t ∈ ts, ∀ p : Int, p ∈ t.layers → 0 ≤ p ∧ p < n)
    (hk : ∀ t ∈ pats, 0 ≤ t.layer ∧ t.layer < n) (t : PTrack) :
    t ∈ iaTracks (prefTracks dirH pats) (iaRange n ts) ↔
      t ∈ pats ∧ IaPreferred dirH t ∧ IaInRange ts t.layer := by
  unfold iaTracks prefTracks iaRange IaPreferred IaInRange
  simp only [List.mem_filter, Bool.and_eq_true, decide_eq_true_eq, ge_iff_le]
  have e1 : ∀ x : Int, (∃ p : Int, p ∈ ts.flatMap (·.layers) ∧ p ≤ x) ↔ ∃ t ∈ ts, ∃ p : Int, p ∈ t.layers ∧ p ≤ x := by
    intro x
    simp only [List.mem_flatMap]
    constructor
    · rintro ⟨p, ⟨t, ht, hp⟩, h⟩; exact ⟨t, ht, p, hp, h⟩
    · rintro ⟨t, ht, p, hp, h⟩; exact ⟨p, ⟨t, ht, hp⟩, h⟩
  have e2 : ∀ x : Int, (∃ p : Int, p ∈ ts.flatMap (·.layers) ∧ x ≤ p + 2) ↔ ∃ t ∈ ts, ∃ p : Int, p ∈ t.layers ∧ x ≤ p + 2 := by
    intro x
    simp only [List.mem_flatMap]
    constructor
    · rintro ⟨p, ⟨t, ht, hp⟩, h⟩; exact ⟨t, ht, p, hp, h⟩
    · rintro ⟨t, ht, p, hp, h⟩; exact ⟨p, ⟨t, ht, hp⟩, h⟩
  rw [← e1, ← e2, iaFold_min_le]
  have e3 : t.layer ≤ min ((ts.flatMap (·.layers)).foldl max 0 + 2) (n : Int) ↔
      t.layer ≤ n ∧ (t.layer ≤ 2 ∨ ∃ p : Int, p ∈ ts.flatMap (·.layers) ∧ t.layer ≤ p + 2) := by
    have := le_foldl_max (ts.flatMap (·.layers)) 0 (t.layer - 2)
    rw [show (t.layer ≤ 2 ∨ ∃ p : Int, p ∈ ts.flatMap (·.layers) ∧ t.layer ≤ p + 2) ↔
      (t.layer - 2 ≤ 0 ∨ ∃ p : Int, p ∈ ts.flatMap (·.layers) ∧ t.layer - 2 ≤ p) by
        constructor
        · rintro (h | ⟨p, hp, h⟩)
          · exact .inl (by omega)
          · exact .inr ⟨p, hp, by omega⟩
        · rintro (h | ⟨p, hp, h⟩)
          · exact .inl (by omega)
          · exact .inr ⟨p, hp, by omega⟩, ← this]
    omega
  rw [e3]
  constructor
  · rintro ⟨⟨h1, h2⟩, h3, h4, h5⟩
    have := hk t h1
    have h3 := h3.resolve_left (by omega)
    refine ⟨h1, ?_, h3, ?_⟩
    · revert h2; cases dirH t.layer <;> cases t.vert <;> simp
    · rcases h5 with h5 | h5
      · obtain ⟨p, hp, _⟩ := h3
        obtain ⟨u, hu, hp'⟩ := List.mem_flatMap.1 hp
        have := hp0 u hu p hp'
        exact ⟨p, hp, by omega⟩
      · exact h5
  · rintro ⟨h1, h2, h3, h5⟩
    have := hk t h1
    refine ⟨⟨h1, ?_⟩, .inr h3, by omega, .inr h5⟩
    revert h2; cases dirH t.layer <;> cases t.vert <;> simp

theorem iaOffsets_none (i : PInst) (ts : List PTrack) : iaOffsets i ts = none ↔ ∃ t ∈ ts, t.spc = 0 := by
  induction ts with
  | nil => simp [iaOffsets]
  | cons t r ih =>
    simp only [iaOffsets]
    split
    · rename_i h
      simp [h]
    · rename_i h
      simp [ih, h]

theorem uMod_eq_iff {a b : Int} {s : Nat} (ha : 0 ≤ a ∧ a < 4294967296) (hb : 0 ≤ b ∧ b < 4294967296) :
    uMod a s = uMod b s ↔ ∃ k : Int, a - b = k * s := by
  unfold uMod
  rw [Int.emod_eq_of_lt ha.1 ha.2, Int.emod_eq_of_lt hb.1 hb.2, Int.emod_eq_emod_iff_emod_sub_eq_zero,
    ← Int.dvd_iff_emod_eq_zero]
  constructor
  · rintro ⟨k, h⟩; exact ⟨k, by rw [h, Int.mul_comm]⟩
  · rintro ⟨k, h⟩; exact ⟨k, by rw [h, Int.mul_comm]⟩

theorem iaOffsets_eq {i j : PInst} (hi : 0 ≤ i.origin.x ∧ i.origin.x < 4294967296 ∧ 0 ≤ i.origin.y ∧ i.origin.y < 4294967296)
    (hj : 0 ≤ j.origin.x ∧ j.origin.x < 4294967296 ∧ 0 ≤ j.origin.y ∧ j.origin.y < 4294967296)
    (ts : List PTrack) {a b : List Int} (ha : iaOffsets i ts = some a) (hb : iaOffsets j ts = some b) :
    a = b ↔ ∀ t ∈ ts, ∃ k : Int, if t.vert then i.origin.x - j.origin.x = k * t.spc
      else i.origin.y - j.origin.y = k * t.spc := by
  induction ts generalizing a b with
  | nil =>
    simp only [iaOffsets, Option.some.injEq] at ha hb
    subst ha hb
    simp
  | cons t r ih =>
    simp only [iaOffsets] at ha hb
    split at ha
    · cases ha
    · rename_i hs
      rw [if_neg hs] at hb
      simp only [Option.map_eq_some_iff] at ha hb
      obtain ⟨a', ha', rfl⟩ := ha
      obtain ⟨b', hb', rfl⟩ := hb
      rw [List.cons.injEq, ih ha' hb', List.forall_mem_cons]
      refine and_congr_left fun _ => ?_
      cases t.vert
      · simp only [Bool.false_eq_true, if_false]
        exact uMod_eq_iff ⟨hi.2.2.1, hi.2.2.2⟩ ⟨hj.2.2.1, hj.2.2.2⟩
      · simp only [if_true]
        exact uMod_eq_iff ⟨hi.1, hi.2.1⟩ ⟨hj.1, hj.2.1⟩

theorem iaGroups_none (n : Nat) (cells : Nat → List PlrTerm) (prefs : List PTrack) (insts : List PInst)
    (ks : List (Nat × Orient × List Int)) :
    iaGroups n cells prefs insts ks = none ↔ ∃ i ∈ insts, iaKey n cells prefs i = none := by
  induction insts generalizing ks with
  | nil => simp [iaGroups]
  | cons i r ih =>
    simp only [iaGroups]
    cases h : iaKey n cells prefs i with
    | none => simp [h]
    | some k => simp [ih, h]

theorem iaGroups_some (n : Nat) (cells : Nat → List PlrTerm) (prefs : List PTrack) (insts : List PInst)
    (ks gs : List (Nat × Orient × List Int)) (reps : List PInst)
    (h : iaGroups n cells prefs insts ks = some gs)
    (hr : reps.map (fun i => iaKey n cells prefs i) = ks.map some) (hn : ks.Nodup) :
    ∃ more, (∀ i ∈ more, i ∈ insts) ∧
      (reps ++ more).map (fun i => iaKey n cells prefs i) = gs.map some ∧ gs.Nodup ∧
      ∀ i ∈ insts, ∃ k ∈ gs, iaKey n cells prefs i = some k := by
  induction insts generalizing ks reps with
  | nil =>
    simp only [iaGroups, Option.some.injEq] at h
    subst h
    exact ⟨[], by simp, by simpa using hr, hn, by simp⟩
  | cons i r ih =>
    simp only [iaGroups] at h
    split at h
    · cases h
    · rename_i k hk
      by_cases hm : k ∈ ks
      · rw [if_pos hm] at h
        obtain ⟨more, h1, h2, h3, h4⟩ := ih ks reps h hr hn
        refine ⟨more, fun x hx => List.mem_cons_of_mem _ (h1 x hx), h2, h3, ?_⟩
        intro x hx
        rcases List.mem_cons.1 hx with e | hx
        · subst e
          -- the group of an earlier instance
          have : some k ∈ ks.map some := List.mem_map.2 ⟨k, hm, rfl⟩
          rw [← hr] at this
          obtain ⟨y, hy, hyk⟩ := List.mem_map.1 this
          have : some k ∈ gs.map some := by
            rw [← h2, List.map_append]
            exact List.mem_append_left _ (List.mem_map.2 ⟨y, hy, hyk⟩)
          obtain ⟨g, hg, e⟩ := List.mem_map.1 this
          injection e with e
          subst e
          exact ⟨g, hg, hk⟩
        · exact h4 x hx
      · rw [if_neg hm] at h
        obtain ⟨more, h1, h2, h3, h4⟩ := ih (ks ++ [k]) (reps ++ [i]) h (by simp [hr, hk]) (by
          rw [List.nodup_append]
          refine ⟨hn, by simp, ?_⟩
          intro a ha b hb
          simp only [List.mem_singleton] at hb
          subst hb
          intro e
          exact hm (e ▸ ha))
        refine ⟨i :: more, ?_, by simpa using h2, h3, ?_⟩
        · intro x hx
          rcases List.mem_cons.1 hx with e | hx
          · subst e; exact List.mem_cons_self ..
          · exact List.mem_cons_of_mem _ (h1 x hx)
        · intro x hx
          rcases List.mem_cons.1 hx with e | hx
          · subst e
            have : some k ∈ gs.map some := by
              rw [← h2]
              exact List.mem_map.2 ⟨x, by simp, hk⟩
            obtain ⟨g, hg, e⟩ := List.mem_map.1 this
            injection e with e
            subst e
            exact ⟨g, hg, hk⟩
          · exact h4 x hx

theorem iaKey_eq {dirH : Int → Bool} {n : Nat} {cells : Nat → List PlrTerm} {pats : List PTrack}
    (hk : IaKnown n cells pats) {i j : PInst}
    (hi : 0 ≤ i.origin.x ∧ i.origin.x < 4294967296 ∧ 0 ≤ i.origin.y ∧ i.origin.y < 4294967296)
    (hj : 0 ≤ j.origin.x ∧ j.origin.x < 4294967296 ∧ 0 ≤ j.origin.y ∧ j.origin.y < 4294967296)
    {a b : Nat × Orient × List Int} (ha : iaKey n cells (prefTracks dirH pats) i = some a)
    (hb : iaKey n cells (prefTracks dirH pats) j = some b) :
    a = b ↔ IaAlike dirH cells pats i j := by
  unfold iaKey at ha hb
  simp only [Option.map_eq_some_iff] at ha hb
  obtain ⟨x, hx, rfl⟩ := ha
  obtain ⟨y, hy, rfl⟩ := hb
  unfold IaAlike
  simp only [Prod.mk.injEq]
  by_cases hbl : i.block = j.block
  · rw [← hbl] at hy
    have := iaOffsets_eq hi hj _ hx hy
    rw [this]
    refine and_congr_right fun _ => and_congr_right fun _ => ?_
    simp only [iaTracks_mem (hk.1 _) hk.2]
    exact ⟨fun h t h1 h2 h3 => h t ⟨h1, h2, h3⟩, fun h t h1 => h t h1.1 h1.2.1 h1.2.2⟩
  · simp [hbl]

/-! ## Theorems -/

/-- Reading divides by zero just if there is an instance and a pattern of step 0 it is compared
by. -/
theorem c209_division_by_zero (dirH : Int → Bool) (n : Nat) (cells : Nat → List PlrTerm)
    (pats : List PTrack) (insts : List PInst) (hk : IaKnown n cells pats) :
    instAnalysis dirH n cells pats insts = none ↔
      ∃ i ∈ insts, ∃ t ∈ pats, t.spc = 0 ∧ IaPreferred dirH t ∧ IaInRange (cells i.block) t.layer := by
  unfold instAnalysis
  rw [Option.map_eq_none_iff, iaGroups_none]
  unfold iaKey
  simp only [Option.map_eq_none_iff, iaOffsets_none, iaTracks_mem (hk.1 _) hk.2]
  constructor
  · rintro ⟨i, hi, t, ⟨h1, h2, h3⟩, h4⟩
    exact ⟨i, hi, t, h1, h4, h2, h3⟩
  · rintro ⟨i, hi, t, h1, h4, h2, h3⟩
    exact ⟨i, hi, t, ⟨h1, h2, h3⟩, h4⟩

/-- The number reported is that of instances pairwise not alike, to one of which every instance is
alike. -/
theorem c209_count (dirH : Int → Bool) (n : Nat) (cells : Nat → List PlrTerm) (pats : List PTrack)
    (insts : List PInst) (hk : IaKnown n cells pats)
    (ho : ∀ i ∈ insts, 0 ≤ i.origin.x ∧ i.origin.x < 4294967296 ∧ 0 ≤ i.origin.y ∧ i.origin.y < 4294967296)
    (m : Nat) (h : instAnalysis dirH n cells pats insts = some m) :
    ∃ reps : List PInst, reps.length = m ∧ (∀ i ∈ reps, i ∈ insts) ∧
      reps.Pairwise (fun i j => ¬ IaAlike dirH cells pats i j) ∧
      ∀ i ∈ insts, ∃ j ∈ reps, IaAlike dirH cells pats i j := by
  unfold instAnalysis at h
  simp only [Option.map_eq_some_iff] at h
  obtain ⟨gs, hg, rfl⟩ := h
  obtain ⟨reps, h1, h2, h3, h4⟩ := iaGroups_some n cells _ insts [] gs [] hg rfl List.nodup_nil
  rw [List.nil_append] at h2
  refine ⟨reps, by simpa using congrArg List.length h2, h1, ?_, ?_⟩
  · rw [List.pairwise_iff_getElem]
    intro p q hp hq hpq hal
    have hlen : reps.length = gs.length := by simpa using congrArg List.length h2
    have kp : iaKey n cells (prefTracks dirH pats) reps[p] = some gs[p] := by
      have := congrArg (fun l => l[p]?) h2
      simpa [hp, hlen ▸ hp] using this
    have kq : iaKey n cells (prefTracks dirH pats) reps[q] = some gs[q] := by
      have := congrArg (fun l => l[q]?) h2
      simpa [hq, hlen ▸ hq] using this
    have := (iaKey_eq hk (ho _ (h1 _ (List.getElem_mem hp))) (ho _ (h1 _ (List.getElem_mem hq))) kp kq).2 hal
    exact List.pairwise_iff_getElem.1 h3 p q (hlen ▸ hp) (hlen ▸ hq) hpq this
  · intro i hi
    obtain ⟨k, hkg, hik⟩ := h4 i hi
    have : some k ∈ gs.map some := List.mem_map.2 ⟨k, hkg, rfl⟩
    rw [← h2] at this
    obtain ⟨j, hj, hjk⟩ := List.mem_map.1 this
    exact ⟨j, hj, (iaKey_eq hk (ho i hi) (ho j (h1 j hj)) hik hjk).1 rfl⟩

/-- If reading goes through, the classes of instances formed for the access of pins (C205) are formed
without division by zero: each preferred pattern on the layers of the signal pins has a step. -/
theorem c209_then_pin_access (dirH : Int → Bool) (n : Nat) (hn : (n : Int) < 2147483647)
    (cells : Nat → List PlrTerm) (pats : List PTrack) (insts : List PInst) (hk : IaKnown n cells pats)
    (h : instAnalysis dirH n cells pats insts ≠ none) (i : PInst) (hi : i ∈ insts) :
    ∃ r, plrFind n cells i.block = some r ∧
      ∀ t ∈ prefTracks dirH pats, r.1 ≤ t.layer → t.layer ≤ r.2 → 0 < t.spc := by
  obtain ⟨r, hr, hr'⟩ := c205_range n hn cells i.block (hk.1 i.block)
  refine ⟨r, hr, fun t ht h1 h2 => ?_⟩
  unfold prefTracks at ht
  obtain ⟨ht, hd⟩ := List.mem_filter.1 ht
  have hl := hk.2 t ht
  obtain ⟨⟨p, ⟨a, ha, _, hp⟩, hp'⟩, ⟨q, ⟨b, hb, _, hq⟩, hq'⟩⟩ := (hr' t.layer hl.1 hl.2).1 ⟨h1, h2⟩
  refine Nat.pos_of_ne_zero fun hz => h ?_
  rw [c209_division_by_zero dirH n cells pats insts hk]
  refine ⟨i, hi, t, ht, hz, ?_, ⟨a, ha, p, hp, hp'⟩, ⟨b, hb, q, hq, hq'⟩⟩
  unfold IaPreferred
  revert hd; cases dirH t.layer <;> cases t.vert <;> simp

/-- Without the bound on coordinates the number is another: an instance at -1 and one at 9 are alike
for tracks of step 10, but counted twice. -/
theorem c209_negative_coordinates :
    ∃ (dirH : Int → Bool) (n : Nat) (cells : Nat → List PlrTerm) (pats : List PTrack) (i j : PInst),
      IaKnown n cells pats ∧ IaAlike dirH cells pats i j ∧ instAnalysis dirH n cells pats [i, j] = some 2 := by
  refine ⟨fun _ => false, 7, fun _ => [⟨true, [2]⟩], [⟨true, 0, 100, 10, 4⟩],
    ⟨1, 7, .R0, ⟨-1, 0⟩, ⟨⟨-1, 0⟩, ⟨50, 50⟩⟩⟩, ⟨2, 7, .R0, ⟨9, 0⟩, ⟨⟨9, 0⟩, ⟨60, 50⟩⟩⟩, ⟨?_, ?_⟩, ⟨rfl, rfl, ?_⟩,
    by decide⟩
  · intro b t ht p hp
    simp only [List.mem_singleton] at ht
    subst ht
    simp only [List.mem_singleton] at hp
    omega
  · intro t ht
    simp only [List.mem_singleton] at ht
    subst ht
    decide
  · intro t ht _ _
    simp only [List.mem_singleton] at ht
    subst ht
    exact ⟨-1, by decide⟩

/-! Three instances of one cell, two of them a whole number of steps apart. -/
def iaExCells : Nat → List PlrTerm := fun _ => [⟨true, [2]⟩, ⟨false, [2]⟩]
def iaExPats (s : Nat) : List PTrack := [⟨true, 0, 100, s, 4⟩, ⟨true, 0, 100, 7, 2⟩]
def iaExInsts : List PInst :=
  [⟨1, 7, .R0, ⟨0, 0⟩, ⟨⟨0, 0⟩, ⟨50, 50⟩⟩⟩, ⟨2, 7, .R0, ⟨105, 0⟩, ⟨⟨105, 0⟩, ⟨155, 50⟩⟩⟩,
   ⟨3, 7, .R0, ⟨300, 0⟩, ⟨⟨300, 0⟩, ⟨350, 50⟩⟩⟩]

example : instAnalysis (fun l => decide (l = 2)) 7 iaExCells (iaExPats 10) iaExInsts = some 2 := by decide
example : instAnalysis (fun l => decide (l = 2)) 7 iaExCells (iaExPats 0) iaExInsts = none := by decide
example : IaKnown 7 iaExCells (iaExPats 10) := by
  refine ⟨?_, ?_⟩
  · intro b t ht p hp
    simp only [iaExCells, List.mem_cons, List.not_mem_nil, or_false] at ht
    rcases ht with rfl | rfl <;> simp only [List.mem_singleton] at hp <;> omega
  · intro t ht
    simp only [iaExPats, List.mem_cons, List.not_mem_nil, or_false] at ht
    rcases ht with rfl | rfl <;> decide

end TR
