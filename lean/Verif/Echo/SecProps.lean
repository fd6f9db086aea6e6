import Verif.Echo.Sec

/-!
# C184: the sections of the written file
-/

namespace TR

/-- a section: the number in its header and how many statements it has -/
structure EhSec where
  kind : EhSecKind
  num : Int
  count : Nat
deriving DecidableEq, Repr

/-- the calls that the library makes for a section -/
def EhSec.calls (s : EhSec) : List EhEv :=
  .start s.kind s.num :: (List.replicate s.count (.stmt s.kind) ++ [.fin s.kind])

/-- what a reader of DEF sees: sections one after the other, each a header, statements and one `END`; `cur` is the
section that is open — def.y: for example 1723, 1743-1747, 2037 -/
def ehSecsIn (cur : Option EhSec) : List EhOut → Option (List EhSec)
  | [] => if cur = none then some [] else none
  | .head (some k) d :: r => if cur = none then ehSecsIn (some ⟨k, d, 0⟩) r else none
  | .head none _ :: _ => none
  | .stmt k :: r =>
      match cur with
      | some s => if s.kind = k then ehSecsIn (some { s with count := s.count + 1 }) r else none
      | none => none
  | .fin k :: r =>
      match cur with
      | some s => if s.kind = k then (ehSecsIn none r).map (s :: ·) else none
      | none => none

/-- sections that are written with their end: nets, special nets and pins always; timing disables never; the others if
they have as many statements as their header says, at least one (a section of one statement also if its header says
less) -/
def EhSec.Fine (s : EhSec) : Prop :=
  (s.kind = .nets ∨ s.kind = .specialnets ∨ s.kind = .pins) ∨ (s.kind ≠ .timingdisables ∧ (s.count : Int) = max 1 s.num)

instance (s : EhSec) : Decidable s.Fine := by unfold EhSec.Fine; infer_instance

theorem ehByEnd_iff (k : EhSecKind) : ehByEnd k = true ↔ k = .nets ∨ k = .specialnets ∨ k = .pins := by
  cases k <;> simp [ehByEnd]

/-- what follows a section begins with a header -/
def EhStarts (r : List EhOut) : Prop := ∀ x ∈ r.head?, ∃ k d, x = .head k d

theorem ehSecsIn_open (s : EhSec) (r : List EhOut) (h : EhStarts r) : ehSecsIn (some s) r = none := by
  cases r with
  | nil => simp [ehSecsIn]
  | cons x r =>
      obtain ⟨k, d, rfl⟩ := h x (by simp)
      cases k <;> simp [ehSecsIn]

theorem ehRun_byEnd (k : EhSecKind) (hk : ehByEnd k = true) (m : Nat) (n : Int) (es : List EhEv) (s : EhSec)
    (hs : s.kind = k) : ∃ n', ehSecsIn (some s) (ehSecRun n (List.replicate m (.stmt k) ++ .fin k :: es))
      = (ehSecsIn none (ehSecRun n' es)).map ({ s with count := s.count + m } :: ·) := by
  induction m generalizing n s with
  | zero => subst hs; exact ⟨n, by simp [ehSecRun, hk, ehSecsIn]⟩
  | succ m ih =>
      have hc : ehByCount k = false := by simp [ehByCount, hk]
      obtain ⟨n', h⟩ := ih (if k = .timingdisables then n else n - 1) { s with count := s.count + 1 } hs
      refine ⟨n', ?_⟩
      simp only [List.replicate_succ, List.cons_append, ehSecRun, hc, Bool.false_eq_true, false_and, if_false,
        List.nil_append, ehSecsIn, hs, if_true]
      simp only [hs] at h
      rw [h, show s.count + (m + 1) = s.count + 1 + m by omega]

theorem ehRun_byCount (k : EhSecKind) (hk : ehByCount k = true) (m : Nat) (n : Int) (es : List EhEv) (s : EhSec)
    (hs : s.kind = k) (hes : ∀ n, EhStarts (ehSecRun n es)) :
    ∃ n', ehSecsIn (some s) (ehSecRun n (List.replicate m (.stmt k) ++ .fin k :: es))
      = if (m : Int) = max 1 n then (ehSecsIn none (ehSecRun n' es)).map ({ s with count := s.count + m } :: ·)
        else none := by
  have he : ehByEnd k = false := by cases h : ehByEnd k <;> simp_all [ehByCount]
  have ht : k ≠ .timingdisables := by intro h; subst h; simp [ehByCount] at hk
  induction m generalizing n s with
  | zero =>
      refine ⟨n, ?_⟩
      rw [if_neg (by omega)]
      simp only [List.replicate_zero, List.nil_append, ehSecRun, he, Bool.false_eq_true, if_false]
      exact ehSecsIn_open s _ (hes n)
  | succ m ih =>
      obtain ⟨n', h⟩ := ih (n - 1) { s with count := s.count + 1 } hs
      simp only [List.replicate_succ, List.cons_append, ehSecRun, hk, true_and, if_neg ht, ehSecsIn, hs, if_true]
      simp only [hs] at h
      by_cases hn : n - 1 ≤ 0
      · rw [if_pos hn]
        simp only [List.cons_append, List.nil_append, ehSecsIn, if_true]
        cases m with
        | zero =>
            refine ⟨n - 1, ?_⟩
            rw [if_pos (by omega)]
            simp [ehSecRun, he]
        | succ m =>
            refine ⟨n - 1, ?_⟩
            rw [if_neg (by omega)]
            simp [List.replicate_succ, ehSecRun, ehSecsIn]
      · refine ⟨n', ?_⟩
        rw [if_neg hn, List.nil_append, h]
        by_cases hm : (m : Int) = max 1 (n - 1)
        · rw [if_pos hm, if_pos (by omega), show s.count + (m + 1) = s.count + 1 + m by omega]
        · rw [if_neg hm, if_neg (by omega)]

theorem ehStarts_calls (secs : List EhSec) (n : Int) : EhStarts (ehSecRun n (secs.flatMap EhSec.calls)) := by
  cases secs with
  | nil => intro x hx; simp [ehSecRun] at hx
  | cons s r =>
      intro x hx
      simp only [List.flatMap_cons, EhSec.calls, List.cons_append, ehSecRun, List.head?_cons, Option.mem_def,
        Option.some.injEq] at hx
      exact ⟨_, _, hx.symm⟩

/-- C184: what is written for a sequence of sections is read back as these sections if every one of them is fine, and
is not a DEF file otherwise. -/
theorem c184_sections_partial (n : Int) (secs : List EhSec) :
    ehSecsIn none (ehSecRun n (secs.flatMap EhSec.calls)) = if ∀ s ∈ secs, s.Fine then some secs else none := by
  induction secs generalizing n with
  | nil => simp [ehSecRun, ehSecsIn]
  | cons s r ih =>
      simp only [List.flatMap_cons, EhSec.calls, List.cons_append, List.append_assoc, List.nil_append, ehSecRun]
      by_cases he : ehByEnd s.kind = true
      · have ht : ehSecName s.kind = some s.kind := by cases hk : s.kind <;> simp_all [ehByEnd, ehSecName]
        obtain ⟨n', h⟩ := ehRun_byEnd s.kind he s.count s.num (r.flatMap EhSec.calls) ⟨s.kind, s.num, 0⟩ rfl
        rw [ht]
        simp only [ehSecsIn, if_true]
        rw [h, ih]
        have hf : s.Fine := Or.inl ((ehByEnd_iff _).1 he)
        by_cases hr : ∀ t ∈ r, t.Fine
        · rw [if_pos hr, if_pos (by simpa [hf] using hr)]
          cases s; simp
        · rw [if_neg hr, if_neg (by intro h; exact hr (fun t ht => h t (by simp [ht])))]
          rfl
      · by_cases ht : s.kind = .timingdisables
        · rw [if_neg]
          · rw [ht]; rfl
          · intro h
            rcases h s (by simp) with h | h
            · exact he ((ehByEnd_iff _).2 h)
            · exact h.1 ht
        · have hc : ehByCount s.kind = true := by simp [ehByCount, he, ht]
          have hn : ehSecName s.kind = some s.kind := by cases hk : s.kind <;> simp_all [ehSecName]
          obtain ⟨n', h⟩ := ehRun_byCount s.kind hc s.count s.num (r.flatMap EhSec.calls) ⟨s.kind, s.num, 0⟩ rfl
            (ehStarts_calls r)
          rw [hn]
          simp only [ehSecsIn, if_true]
          rw [h, ih]
          by_cases hm : (s.count : Int) = max 1 s.num
          · have hf : s.Fine := Or.inr ⟨ht, hm⟩
            rw [if_pos hm]
            by_cases hr : ∀ t ∈ r, t.Fine
            · rw [if_pos hr, if_pos (by simpa [hf] using hr)]
              cases s; simp
            · rw [if_neg hr, if_neg (by intro h; exact hr (fun t ht => h t (by simp [ht])))]
              rfl
          · rw [if_neg hm, if_neg]
            intro h
            rcases h s (by simp) with h | h
            · exact he ((ehByEnd_iff _).2 h)
            · exact hm h.2

/-- C184: sections that have as many statements as they say, at least one, are all written with their end, whatever
their order and whatever was counted before. -/
theorem c184_counted (n : Int) (secs : List EhSec)
    (h : ∀ s ∈ secs, s.kind ≠ .timingdisables ∧ 1 ≤ s.count ∧ s.num = s.count) :
    ehSecsIn none (ehSecRun n (secs.flatMap EhSec.calls)) = some secs := by
  rw [c184_sections_partial, if_pos]
  intro s hs
  have := h s hs
  exact Or.inr ⟨this.1, by omega⟩

/-- C184 fails for an empty section, `REGIONS 0 ; END REGIONS`: the end is not written, so the file cannot be read. -/
theorem c184_empty (k : EhSecKind) (hk : k ≠ .nets ∧ k ≠ .specialnets ∧ k ≠ .pins) (num : Int) (n : Int) :
    ehSecsIn none (ehSecRun n (EhSec.calls ⟨k, num, 0⟩)) = none := by
  have := c184_sections_partial n [⟨k, num, 0⟩]
  rw [if_neg] at this
  · simpa using this
  · intro h
    rcases h ⟨k, num, 0⟩ (by simp) with h | h
    · simp [hk] at h
    · have := h.2; dsimp only at this; omega

/-- C184 fails for a section whose header gives a wrong number, and the library accepts such a section -/
example : ehSecsIn none (ehSecRun 0 (EhSec.calls ⟨.vias, 1, 2⟩)) = none ∧
    ehSecRun 0 (EhSec.calls ⟨.vias, 1, 2⟩) = [.head (some .vias) 1, .stmt .vias, .fin .vias, .stmt .vias, .fin .vias] ∧
    ehSecRun 0 (EhSec.calls ⟨.vias, 3, 2⟩) = [.head (some .vias) 3, .stmt .vias, .stmt .vias] := by decide +kernel

/-- the sections of an ordinary file -/
example : ehSecsIn none (ehSecRun 0 ([⟨.vias, 2, 2⟩, ⟨.components, 3, 3⟩, ⟨.pins, 0, 0⟩, ⟨.specialnets, 1, 1⟩,
    ⟨.nets, 7, 2⟩].flatMap EhSec.calls))
    = some [⟨.vias, 2, 2⟩, ⟨.components, 3, 3⟩, ⟨.pins, 0, 0⟩, ⟨.specialnets, 1, 1⟩, ⟨.nets, 7, 2⟩] := by
  decide +kernel

end TR
