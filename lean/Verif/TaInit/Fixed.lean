import Verif.TaInit.Spec
import Verif.TaInit.Pass
import Verif.TaWork.Props
/-! # Fixed objects and access points -/
namespace TR

theorem tdiv2_nonneg {w : Int} (h : 0 ≤ w) : w.tdiv 2 = w / 2 := Int.tdiv_eq_ediv_of_nonneg h

theorem bloatOf_iff {P : PanelTech} {o : FixObj} (hw : 0 ≤ P.c.width o.layer) (k : Int) :
    bloatOf P o = some k ↔ ∃ d, FixSpacing P o d ∧ k = d + P.c.width o.layer / 2 := by
  unfold bloatOf FixSpacing
  cases hk : o.kind with
  | term =>
    dsimp only
    rw [tdiv2_nonneg (show 0 ≤ 3 * P.c.width o.layer by omega), Option.some.injEq]
    constructor
    · intro h; exact ⟨_, .inl ⟨rfl, rfl⟩, by omega⟩
    · rintro ⟨d, ⟨_, h⟩ | ⟨h, _⟩, h2⟩
      · omega
      · exact absurd rfl h
  | wire =>
    dsimp only
    rw [tdiv2_nonneg hw]
    cases hs : P.c.spc o.layer with
    | none => simp; constructor <;> intro h <;> omega
    | some r =>
      cases r with
      | fixed s => simp; constructor <;> intro h <;> omega
      | prl t =>
        simp only [Option.map_eq_some_iff, reduceCtorEq, false_and, false_or, ne_eq, not_false_eq_true, true_and, or_false, Option.some.injEq, SpcRule.prl.injEq, exists_eq_left', exists_false, and_false]
        constructor
        · rintro ⟨a, h1, h2⟩; exact ⟨a, h1, by omega⟩
        · rintro ⟨a, h1, h2⟩; exact ⟨a, h1, by omega⟩
      | tw t =>
        simp only [Option.map_eq_some_iff, reduceCtorEq, false_and, false_or, ne_eq, not_false_eq_true, true_and, or_false, Option.some.injEq, SpcRule.tw.injEq, exists_eq_left', exists_false, and_false]
        constructor
        · rintro ⟨a, h1, h2⟩; exact ⟨a, h1, by omega⟩
        · rintro ⟨a, h1, h2⟩; exact ⟨a, h1, by omega⟩
  | obs =>
    dsimp only
    rw [tdiv2_nonneg hw]
    cases hs : P.c.spc o.layer with
    | none => simp; constructor <;> intro h <;> omega
    | some r =>
      cases r with
      | fixed s => simp; constructor <;> intro h <;> omega
      | prl t =>
        simp only [Option.map_eq_some_iff, reduceCtorEq, false_and, false_or, ne_eq, not_false_eq_true, true_and, or_false, Option.some.injEq, SpcRule.prl.injEq, exists_eq_left', exists_false, and_false]
        constructor
        · rintro ⟨a, h1, h2⟩; exact ⟨a, h1, by omega⟩
        · rintro ⟨a, h1, h2⟩; exact ⟨a, h1, by omega⟩
      | tw t =>
        simp only [Option.map_eq_some_iff, reduceCtorEq, false_and, false_or, ne_eq, not_false_eq_true, true_and, or_false, Option.some.injEq, SpcRule.tw.injEq, exists_eq_left', exists_false, and_false]
        constructor
        · rintro ⟨a, h1, h2⟩; exact ⟨a, h1, by omega⟩
        · rintro ⟨a, h1, h2⟩; exact ⟨a, h1, by omega⟩

theorem bloat_bloat {b : Box} {k : Int} (h1 : b.left + 2 ≤ b.right) (h2 : b.bottom + 2 ≤ b.top) (hk : 0 ≤ k) :
    (b.bloat (-1)).bloat k = ⟨⟨b.left + 1 - k, b.bottom + 1 - k⟩, ⟨b.right - 1 + k, b.top - 1 + k⟩⟩ := by
  simp only [Box.bloat, Box.mk4_eq, Box.left, Box.right, Box.bottom, Box.top, Box.mk.injEq, Point.mk.injEq] at *
  omega

theorem fixLines_has {P : PanelTech} {b : Box} {d hw l : Int} {own : CostOwner} (h1 : b.left + 2 ≤ b.right) (h2 : b.bottom + 2 ≤ b.top) (hd : 0 ≤ d) (hw0 : 0 ≤ hw)
    (hs : StrictInc (P.locs l)) (x t : Int) :
    (∃ r ∈ fixLines P (b.bloat (-1)) (d + hw) l own, r.box.Has (ptAC P.horz x t)) ↔ t ∈ P.locs l ∧ Crowds b d hw (ptAC P.horz x t) := by
  unfold fixLines
  rw [bloat_bloat h1 h2 (by omega)]
  simp only [List.mem_map]
  have key : ∀ u, (lineBox P.horz ((⟨⟨b.left + 1 - (d + hw), b.bottom + 1 - (d + hw)⟩, ⟨b.right - 1 + (d + hw), b.top - 1 + (d + hw)⟩⟩ : Box).fr P.horz).left
      ((⟨⟨b.left + 1 - (d + hw), b.bottom + 1 - (d + hw)⟩, ⟨b.right - 1 + (d + hw), b.top - 1 + (d + hw)⟩⟩ : Box).fr P.horz).right u).Has (ptAC P.horz x t) ↔
      t = u ∧ ((⟨⟨b.left + 1 - (d + hw), b.bottom + 1 - (d + hw)⟩, ⟨b.right - 1 + (d + hw), b.top - 1 + (d + hw)⟩⟩ : Box).fr P.horz).left ≤ x ∧
      x ≤ ((⟨⟨b.left + 1 - (d + hw), b.bottom + 1 - (d + hw)⟩, ⟨b.right - 1 + (d + hw), b.top - 1 + (d + hw)⟩⟩ : Box).fr P.horz).right := by
    intro u
    refine (lineBox_has ?_ x t).trans ⟨fun h => ⟨h.2.2, h.1, h.2.1⟩, fun h => ⟨h.2.1, h.2.2, h.1⟩⟩
    cases P.horz <;> simp only [Box.fr, Box.left, Box.right, Box.bottom, Box.top, Bool.false_eq_true, if_false, if_true] at * <;> omega
  constructor
  · rintro ⟨r, ⟨u, hu, rfl⟩, hh⟩
    rw [mem_tracksIn hs] at hu
    obtain ⟨rfl, k1, k2⟩ := (key u).1 hh
    refine ⟨hu.1, ?_⟩
    obtain ⟨_, u1, u2⟩ := hu
    unfold Crowds ptAC
    cases hz : P.horz <;> rw [hz] at k1 k2 u1 u2 <;>
      simp only [Box.fr, Box.left, Box.right, Box.bottom, Box.top, Bool.false_eq_true, if_false, if_true] at * <;> omega
  · rintro ⟨ht, hc⟩
    refine ⟨_, ⟨t, (mem_tracksIn hs _ _ _).2 ⟨ht, ?_⟩, rfl⟩, (key t).2 ⟨rfl, ?_⟩⟩
    · revert hc
      unfold Crowds ptAC
      cases hz : P.horz <;> intro hc <;>
        simp only [Box.fr, Box.left, Box.right, Box.bottom, Box.top, Bool.false_eq_true, if_false, if_true] at * <;> omega
    · revert hc
      unfold Crowds ptAC
      cases hz : P.horz <;> intro hc <;>
        simp only [Box.fr, Box.left, Box.right, Box.bottom, Box.top, Bool.false_eq_true, if_false, if_true] at * <;> omega

theorem fixLines_owner {P : PanelTech} {b : Box} {d l : Int} {own : CostOwner} {r : CostRec} (h : r ∈ fixLines P b d l own) :
    r.layer = l ∧ r.owner = own ∧ r.box.Proper := by
  unfold fixLines at h
  simp only [List.mem_map] at h
  obtain ⟨u, _, rfl⟩ := h
  exact ⟨rfl, rfl, lineBox_proper _ _ _ _⟩

theorem against_iff {n : Nat} {o : FixObj} : AgainstNet n (if o.kind = .obs then .unknown else o.net.elim .unknown .net) ↔ FixAgainst n o := by
  unfold FixAgainst
  by_cases hk : o.kind = .obs
  · rw [if_pos hk]; simp [AgainstNet, hk]
  · rw [if_neg hk]
    cases hn : o.net with
    | none => simp [AgainstNet]
    | some m => simp [AgainstNet, hk]

theorem mem_fixedRecs {P : PanelTech} {eb : Box} {objs : List FixObj} {r : CostRec} :
    r ∈ fixedRecs P eb objs ↔ ∃ o ∈ objs, PanelLayer P o.layer ∧ eb.meets o.box = true ∧ r ∈ fixRecs P o := by
  unfold fixedRecs PanelLayer
  rw [List.mem_flatMap]
  constructor
  · rintro ⟨l, hl, hr⟩
    rw [mem_upFrom] at hl
    split at hr
    · rename_i hc
      rw [List.mem_flatMap] at hr
      obtain ⟨o, ho, hr⟩ := hr
      rw [List.mem_filter, Bool.and_eq_true, decide_eq_true_eq] at ho
      obtain ⟨o1, rfl, o2⟩ := ho
      exact ⟨o, o1, ⟨hl.1, hl.2, hc.1, hc.2⟩, o2, hr⟩
    · cases hr
  · rintro ⟨o, o1, ⟨h1, h2, h3, h4⟩, o2, hr⟩
    refine ⟨o.layer, (mem_upFrom _ _ _).2 ⟨h1, h2⟩, ?_⟩
    rw [if_pos ⟨h3, h4⟩, List.mem_flatMap]
    refine ⟨o, ?_, hr⟩
    rw [List.mem_filter, Bool.and_eq_true, decide_eq_true_eq]
    exact ⟨o1, rfl, o2⟩

theorem fixRecs_has {P : PanelTech} {o : FixObj} (hf : FixFine P o) (hs : StrictInc (P.locs o.layer)) (n : Nat) (x t : Int) :
    (∃ r ∈ fixRecs P o, r.box.Has (ptAC P.horz x t) ∧ AgainstNet n r.owner) ↔
      FixAgainst n o ∧ t ∈ P.locs o.layer ∧ ∃ d, FixSpacing P o d ∧ Crowds o.box d (P.c.width o.layer / 2) (ptAC P.horz x t) := by
  obtain ⟨f1, f2, f3, f4⟩ := hf
  unfold fixRecs
  constructor
  · rintro ⟨r, hr, h1, h2⟩
    split at hr
    · cases hr
    · rename_i k hk
      obtain ⟨d, hd, rfl⟩ := (bloatOf_iff f3 k).1 hk
      obtain ⟨_, ho, _⟩ := fixLines_owner hr
      rw [ho, against_iff] at h2
      obtain ⟨ht, hc⟩ := (fixLines_has f1 f2 (f4 d hd) (by omega) hs x t).1 ⟨r, hr, h1⟩
      exact ⟨h2, ht, d, hd, hc⟩
  · rintro ⟨h2, ht, d, hd, hc⟩
    have hk := (bloatOf_iff f3 _).2 ⟨d, hd, rfl⟩
    rw [hk]
    dsimp only
    obtain ⟨r, hr, h1⟩ := (fixLines_has (own := if o.kind = .obs then .unknown else o.net.elim .unknown .net) f1 f2 (f4 d hd) (by omega) hs x t).2 ⟨ht, hc⟩
    obtain ⟨_, ho, _⟩ := fixLines_owner hr
    exact ⟨r, hr, h1, by rw [ho, against_iff]; exact h2⟩

theorem fixRecs_rec {P : PanelTech} {o : FixObj} {r : CostRec} (h : r ∈ fixRecs P o) : r.layer = o.layer ∧ r.box.Proper ∧ ∀ p k, r.owner ≠ .fig p k := by
  unfold fixRecs at h
  split at h
  · cases h
  · obtain ⟨h1, h2, h3⟩ := fixLines_owner h
    refine ⟨h1, h3, fun p k => ?_⟩
    rw [h2]
    split
    · simp
    · cases o.net <;> simp

/-! ### access points -/

theorem accLoop_all {t : GrPin} (ok : Point → Int → Bool) (hi : t.inst = true) (hx : t.accIdx ≠ -1) : ∀ (ps : List Bool) (k : Nat), (∀ b ∈ ps, b = true) →
    (∀ j, j < ps.length → ∃ ap, t.aps[k + j]? = some (some ap)) →
    ((accLoop t ok ps k).isSome = true ↔ ∃ j ap, j < ps.length ∧ t.aps[k + j]? = some (some ap) ∧ ok ⟨ap.1.x + t.shift.x, ap.1.y + t.shift.y⟩ ap.2 = true) := by
  intro ps
  induction ps with
  | nil => intro k _ _; simp [accLoop]
  | cons has ps ih =>
    intro k hp ha
    obtain ⟨ap, h0⟩ := ha 0 (by simp)
    rw [Nat.add_zero] at h0
    unfold accLoop
    rw [if_pos hi, h0]
    simp only [Option.join_some]
    have hc : ¬ (has = false ∨ (if t.inst then t.accIdx else -1) = -1) := by
      rw [if_pos hi, hp has List.mem_cons_self]
      simp [hx]
    rw [if_neg hc]
    by_cases hok : ok ⟨ap.1.x + t.shift.x, ap.1.y + t.shift.y⟩ ap.2 = true
    · rw [if_pos hok]
      simp only [Option.isSome_some, true_iff]
      exact ⟨0, ap, by simp, h0, hok⟩
    · rw [if_neg hok]
      refine (ih (k + 1) (fun b hb => hp b (List.mem_cons_of_mem _ hb)) ?_).trans ?_
      · intro j hj
        rw [show k + 1 + j = k + (j + 1) by omega]
        exact ha (j + 1) (by simpa using hj)
      · constructor
        · rintro ⟨j, ap', h1, h2, h3⟩
          exact ⟨j + 1, ap', by simpa using h1, by rw [show k + (j + 1) = k + 1 + j by omega]; exact h2, h3⟩
        · rintro ⟨j, ap', h1, h2, h3⟩
          cases j with
          | zero => rw [Nat.add_zero, h0] at h2; cases h2; exact absurd h3 hok
          | succ j => exact ⟨j, ap', by simpa using h1, by rw [show k + 1 + j = k + (j + 1) by omega]; exact h2, h3⟩

end TR
