import Verif.LefVia.RuleSpec
import Verif.LefVia.Props
/-! # C200: the via rules of a technology -/
namespace TR

theorem lrStack_plain {α : Type} {t : LvTech} {ls : List (LrLayer α)} {n : Int} {lo cut hi : LrLayer α} (h : LrStack t ls n lo cut hi) :
    ∃ i j k, lvMap t (ls.map LrLayer.plain) 0 [] = some [(n, i), (n + 1, j), (n + 2, k)] ∧
      ls[i]? = some lo ∧ ls[j]? = some cut ∧ ls[k]? = some hi := by
  obtain ⟨hp, h1, h2, h3⟩ := h
  have e1 : ¬ n + 1 < n := by omega
  have e2 : ¬ n + 2 < n := by omega
  have e3 : ¬ n + 2 < n + 1 := by omega
  have e4 : n < n + 2 := by omega
  have e5 : n + 1 < n + 2 := by omega
  have e6 : n < n + 1 := by omega
  have d1 : ¬ n + 1 = n := by omega
  have d2 : ¬ n + 2 = n := by omega
  have d3 : ¬ n + 2 = n + 1 := by omega
  rcases perm3 hp with e | e | e | e | e | e <;> subst e
  · exact ⟨0, 1, 2, by simp [lvMap, LrLayer.plain, h1, h2, h3, lvPut, e1, e2, e3, d1, d2, d3], rfl, rfl, rfl⟩
  · exact ⟨0, 2, 1, by simp [lvMap, LrLayer.plain, h1, h2, h3, lvPut, e1, e2, e5, d1, d2, d3], rfl, rfl, rfl⟩
  · exact ⟨1, 0, 2, by simp [lvMap, LrLayer.plain, h1, h2, h3, lvPut, e2, e3, e6, d1, d2, d3], rfl, rfl, rfl⟩
  · exact ⟨2, 0, 1, by simp [lvMap, LrLayer.plain, h1, h2, h3, lvPut, e3, e6, d1, d2, d3], rfl, rfl, rfl⟩
  · exact ⟨1, 2, 0, by simp [lvMap, LrLayer.plain, h1, h2, h3, lvPut, e1, e4, e5, d1, d2, d3], rfl, rfl, rfl⟩
  · exact ⟨2, 1, 0, by simp [lvMap, LrLayer.plain, h1, h2, h3, lvPut, e5, e6, d1, d2, d3], rfl, rfl, rfl⟩

theorem lrBox_mk4 {α : Type} (dbu : α → Int) (r : α × α × α × α) :
    Box.mk4 (dbu r.1) (dbu r.2.1) (dbu r.2.2.1) (dbu r.2.2.2) = lrBox dbu (some r) := by
  simp [lrBox, Box.mk4]
  refine ⟨⟨?_, ?_⟩, ?_, ?_⟩ <;> split <;> omega

/-- **C200 (stored).** A generate rule for three layers one above the other is stored, in whatever order its LAYER statements stand, with the enclosures of the two
metals, the rectangle and the spacing of the cuts, and nothing else: the layers that it is for are not stored. -/
theorem c200_stored {α : Type} (t : LvTech) (dbu : α → Int) (v : LrRule α) (n : Int) (lo cut hi : LrLayer α) (h : LrStack t v.layers n lo cut hi)
    (hg : v.generate = true) : lrRead t dbu v = .stored
      { name := v.name, isDefault := v.isDefault, botEnc := lrPoint dbu lo.enc, cutRect := lrBox dbu cut.rect,
        cutSpacing := lrPoint dbu cut.spacing, topEnc := lrPoint dbu hi.enc, layerNums := (0, 0, 0) } := by
  obtain ⟨i, j, k, hm, h1, h2, h3⟩ := lrStack_plain h
  have hl : v.layers.length = 3 := by rw [h.perm.length_eq]; rfl
  rw [lrRead, if_neg (by simp [hl]), hm]
  simp only [List.head?_cons, List.getLast?_cons_cons, List.getLast?_singleton, ne_eq, not_true_eq_false, if_false, hg, Bool.true_eq_false,
    lrLoop, h1, h2, h3]
  rcases lo with ⟨ln, le, lr, lsp⟩
  rcases cut with ⟨cn, ce, cr, cs⟩
  rcases hi with ⟨un, ue, ur, us⟩
  cases le <;> cases lr <;> cases lsp <;> cases ce <;> cases cr <;> cases cs <;> cases ue <;> cases ur <;> cases us <;>
    simp [lrEnc, lrRect, lrSpacing, lrPoint, lrBox_mk4] <;> simp [lrBox, Box.mk4]

/-- **C200 (not generate).** A rule that is not a generate rule ends the program, unless a layer is unknown. -/
theorem c200_not_generate {α : Type} (t : LvTech) (dbu : α → Int) (v : LrRule α) (hg : v.generate = false)
    (hk : ∀ l ∈ v.layers, t.num l.name ≠ none) : lrRead t dbu v = .exits := by
  rw [lrRead]
  split
  · rfl
  · cases hm : lvMap t (v.layers.map LrLayer.plain) 0 [] with
    | none =>
        obtain ⟨l, hl, hn⟩ := (lvMap_none t _ 0 []).1 hm
        obtain ⟨l', hl', rfl⟩ := List.mem_map.1 hl
        exact absurd hn (hk l' hl')
    | some m =>
        simp only [hg]
        repeat' split
        all_goals rfl

/-- **C200 (left out).** A rule is left out exactly if it has three layers and the technology does not have one of them. -/
theorem c200_skipped {α : Type} (t : LvTech) (dbu : α → Int) (v : LrRule α) :
    lrRead t dbu v = .skipped ↔ v.layers.length = 3 ∧ ∃ l ∈ v.layers, t.num l.name = none := by
  have hn := lvMap_none t (v.layers.map LrLayer.plain) 0 []
  have he : (∃ l ∈ v.layers.map LrLayer.plain, t.num l.name = none) ↔ ∃ l ∈ v.layers, t.num l.name = none := by
    constructor
    · rintro ⟨_, h, hn⟩
      obtain ⟨l, hl, rfl⟩ := List.mem_map.1 h
      exact ⟨l, hl, hn⟩
    · rintro ⟨l, hl, hn⟩
      exact ⟨_, List.mem_map.2 ⟨l, hl, rfl⟩, hn⟩
  rw [← he, ← hn, lrRead]
  by_cases hl : v.layers.length = 3
  · simp only [hl, ne_eq, not_true_eq_false, if_false, true_and]
    cases hm : lvMap t (v.layers.map LrLayer.plain) 0 [] with
    | none => simp
    | some m =>
      simp only [reduceCtorEq, iff_false]
      repeat' split
      all_goals simp
  · simp [hl]

/-- **C200 (refused).** With LAYER statements for three different layers of the technology, the program ends unless it is a generate rule and they are one above the
other. -/
theorem c200_refused {α : Type} (t : LvTech) (dbu : α → Int) (v : LrRule α) (x y z : LrLayer α) (a b c : Int) (hl : v.layers = [x, y, z])
    (hx : t.num x.name = some a) (hy : t.num y.name = some b) (hz : t.num z.name = some c) (hd : a ≠ b ∧ b ≠ c ∧ a ≠ c) :
    lrRead t dbu v = .exits ↔ ¬ (v.generate = true ∧ ∃ n lo cut hi, LrStack t v.layers n lo cut hi) := by
  constructor
  · rintro he ⟨hg, n, lo, cut, hi, hs⟩
    rw [c200_stored t dbu v n lo cut hi hs hg] at he
    cases he
  · intro hno
    by_cases hst : ∃ n lo cut hi, LrStack t v.layers n lo cut hi
    · apply c200_not_generate
      · cases hg : v.generate with
        | false => rfl
        | true => exact absurd ⟨hg, hst⟩ hno
      · rw [hl]; simp [hx, hy, hz]
    · have key : ∀ (n : Int) (p q r : LrLayer α), [x, y, z].Perm [p, q, r] →
          ¬ (t.num p.name = some n ∧ t.num q.name = some (n + 1) ∧ t.num r.name = some (n + 2)) := by
        intro n p q r hp ⟨h1, h2, h3⟩
        exact hst ⟨n, p, q, r, by rw [hl]; exact hp, h1, h2, h3⟩
      have k1 := key a x y z (List.Perm.refl _)
      have k2 := key a x z y ((List.Perm.swap z y []).cons x)
      have k3 := key b y x z (List.Perm.swap y x _)
      have pyzx : [x, y, z].Perm [y, z, x] := by simpa using (List.perm_append_comm (l₁ := [x]) (l₂ := [y, z]))
      have k4 := key b y z x pyzx
      have pzxy : [x, y, z].Perm [z, x, y] := by simpa using (List.perm_append_comm (l₁ := [x, y]) (l₂ := [z]))
      have k5 := key c z x y pzxy
      have k6 := key c z y x (pzxy.trans ((List.Perm.swap y x []).cons z))
      simp only [hx, hy, hz, Option.some.injEq, true_and] at k1 k2 k3 k4 k5 k6
      obtain ⟨d1, d2, d3⟩ := hd
      have e : lvMap t (v.layers.map LrLayer.plain) 0 [] = some (lvPut c 2 (lvPut b 1 (lvPut a 0 []))) := by
        rw [hl]; simp [lvMap, LrLayer.plain, hx, hy, hz]
      rw [lrRead, if_neg (by simp [hl]), e]
      simp only [lvPut]
      by_cases hba : b < a
      · rw [if_pos hba]
        simp only [lvPut]
        by_cases hcb : c < b
        · rw [if_pos hcb]; simp only [List.head?_cons, List.getLast?_cons_cons, List.getLast?_singleton]
          rw [if_pos (by omega)]
        · rw [if_neg hcb, if_neg (by omega)]
          by_cases hca : c < a
          · rw [if_pos hca]; simp only [List.head?_cons, List.getLast?_cons_cons, List.getLast?_singleton]
            rw [if_pos (by omega)]
          · rw [if_neg hca, if_neg (by omega)]; simp only [List.head?_cons, List.getLast?_cons_cons, List.getLast?_singleton]
            rw [if_pos (by omega)]
      · rw [if_neg hba, if_neg (by omega)]
        simp only [lvPut]
        by_cases hca : c < a
        · rw [if_pos hca]; simp only [List.head?_cons, List.getLast?_cons_cons, List.getLast?_singleton]
          rw [if_pos (by omega)]
        · rw [if_neg hca, if_neg (by omega)]
          by_cases hcb : c < b
          · rw [if_pos hcb]; simp only [List.head?_cons, List.getLast?_cons_cons, List.getLast?_singleton]
            rw [if_pos (by omega)]
          · rw [if_neg hcb, if_neg (by omega)]; simp only [List.head?_cons, List.getLast?_cons_cons, List.getLast?_singleton]
            rw [if_pos (by omega)]

/-- **C200 (accepted).** With LAYER statements for three layers of the technology, some of them perhaps the same, a rule is stored exactly if it is a generate rule and
its highest layer is two above its lowest. -/
theorem c200_accepted {α : Type} (t : LvTech) (dbu : α → Int) (v : LrRule α) (x y z : LrLayer α) (a b c : Int) (hl : v.layers = [x, y, z])
    (hx : t.num x.name = some a) (hy : t.num y.name = some b) (hz : t.num z.name = some c) :
    (∃ d, lrRead t dbu v = .stored d) ↔ v.generate = true ∧ max a (max b c) = min a (min b c) + 2 := by
  have hm : lvMap t (v.layers.map LrLayer.plain) 0 [] = some (lvPut c 2 (lvPut b 1 [(a, 0)])) := by
    rw [hl]
    simp [lvMap, LrLayer.plain, hx, hy, hz, lvPut]
  have hends : ∃ lo hi : Int × Nat, (lvPut c 2 (lvPut b 1 [(a, 0)])).head? = some lo ∧ (lvPut c 2 (lvPut b 1 [(a, 0)])).getLast? = some hi ∧
      lo.1 = min a (min b c) ∧ hi.1 = max a (max b c) := by
    simp only [lvPut]
    repeat' (first | split | simp only [lvPut])
    all_goals exact ⟨_, _, rfl, rfl, by simp <;> omega, by simp <;> omega⟩
  obtain ⟨lo, hi, h1, h2, h3, h4⟩ := hends
  have h5 : lrRead t dbu v = if lo.1 + 2 ≠ hi.1 then .exits else if v.generate = false then .exits
      else .stored (lrLoop dbu v.layers (lvPut c 2 (lvPut b 1 [(a, 0)])) 0 { name := v.name, isDefault := v.isDefault }) := by
    rw [lrRead, if_neg (by simp [hl]), hm]
    dsimp only
    rw [h1, h2]
  rw [h5, h3, h4]
  by_cases he : min a (min b c) + 2 = max a (max b c)
  · rw [if_neg (by simpa using he)]
    cases hg : v.generate with
    | false => simp
    | true => simp [he]
  · rw [if_pos he]
    constructor
    · rintro ⟨d, hd⟩; cases hd
    · rintro ⟨_, h⟩; exact absurd h.symm he

/-- **C200 (finding).** A rule with two LAYER statements for its upper metal is not refused: the second one is taken for the cut layer. -/
theorem c200_twice_accepted : lrRead lvTech id ({ name := "X", layers := [{ name := "M1", enc := some (1, 2) }, { name := "M2", enc := some (3, 4) },
      { name := "M2", rect := some (0, 0, 9, 9) }] } : LrRule Int) =
    .stored { name := "X", botEnc := ⟨1, 2⟩, cutRect := ⟨⟨0, 0⟩, ⟨9, 9⟩⟩ } := by decide +kernel

/-- a rule with its layers in the order M2, V1, M1 -/
def lrEx : LrRule Int :=
  { name := "R"
    isDefault := true
    layers := [{ name := "M2", enc := some (3, 4) }, { name := "V1", rect := some (-5, -5, 5, 5), spacing := some (20, 30) },
      { name := "M1", enc := some (1, 2) }] }

example : ∃ n lo cut hi, LrStack lvTech lrEx.layers n lo cut hi :=
  ⟨2, { name := "M1", enc := some (1, 2) }, { name := "V1", rect := some (-5, -5, 5, 5), spacing := some (20, 30) }, { name := "M2", enc := some (3, 4) },
    (List.perm_append_comm (l₁ := [_]) (l₂ := [_, _])).trans (List.Perm.swap _ _ _), by decide, by decide, by decide⟩

example : lrRead lvTech id lrEx = .stored
    { name := "R", isDefault := true, botEnc := ⟨1, 2⟩, cutRect := ⟨⟨-5, -5⟩, ⟨5, 5⟩⟩,
      cutSpacing := ⟨20, 30⟩, topEnc := ⟨3, 4⟩ } := by decide +kernel

end TR
