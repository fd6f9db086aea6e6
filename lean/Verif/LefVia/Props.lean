import Verif.LefVia.Spec
import Verif.Lay.Props
/-! # Properties of the reading of vias -/
namespace TR

theorem perm3 {β : Type} {ls : List β} {x y z : β} (h : ls.Perm [x, y, z]) :
    ls = [x, y, z] ∨ ls = [x, z, y] ∨ ls = [y, x, z] ∨ ls = [y, z, x] ∨ ls = [z, x, y] ∨ ls = [z, y, x] := by
  have two : ∀ {l : List β} {p q : β}, l.Perm [p, q] → l = [p, q] ∨ l = [q, p] := by
    intro l p q h
    match l, h with
    | [], h => simp at h
    | a :: t, h =>
      have ha : a ∈ [p, q] := h.subset (by simp)
      simp only [List.mem_cons, List.not_mem_nil, or_false] at ha
      rcases ha with ha | ha
      · subst ha
        have := List.Perm.eq_singleton ((List.perm_cons a).1 h)
        simp [this]
      · subst ha
        have := List.Perm.eq_singleton ((List.perm_cons a).1 (h.trans (List.Perm.swap _ _ _)))
        simp [this]
  match ls, h with
  | [], h => simp at h
  | a :: t, h =>
    have ha : a ∈ [x, y, z] := h.subset (by simp)
    simp only [List.mem_cons, List.not_mem_nil, or_false] at ha
    rcases ha with ha | ha | ha
    · subst ha
      rcases two ((List.perm_cons a).1 h) with e | e <;> simp [e]
    · subst ha
      rcases two ((List.perm_cons a).1 (h.trans (List.Perm.swap _ _ _))) with e | e <;> simp [e]
    · subst ha
      have hp : List.Perm [x, y, a] [a, x, y] := by
        have := List.perm_append_comm (l₁ := [x, y]) (l₂ := [a])
        simpa using this
      rcases two ((List.perm_cons a).1 (h.trans hp)) with e | e <;> simp [e]

theorem lvMap_perm {α : Type} {t : LvTech} {ls : List (LvLayer α)} {n : Int} {lo cut hi : LvLayer α} (h : LvStack t ls n lo cut hi) :
    ∃ i j k, lvMap t ls 0 [] = some [(n, i), (n + 1, j), (n + 2, k)] ∧ ls[i]? = some lo ∧ ls[j]? = some cut ∧ ls[k]? = some hi := by
  obtain ⟨hp, h1, h2, h3⟩ := h
  have e1 : ¬ n + 1 < n := by omega
  have e2 : ¬ n + 2 < n := by omega
  have e3 : ¬ n + 2 < n + 1 := by omega
  have e4 : n < n + 2 := by omega
  have e5 : n + 1 < n + 2 := by omega
  have e6 : n < n + 1 := by omega
  have d1 : ¬ n + 1 = n := by omega
  have d2 : ¬ n + 2 = n := by omega
  have d3 : ¬ n + 2 = n + 1 := by omega
  rcases perm3 hp with e | e | e | e | e | e <;> subst e
  · exact ⟨0, 1, 2, by simp [lvMap, h1, h2, h3, lvPut, e1, e2, e3, d1, d2, d3], rfl, rfl, rfl⟩
  · exact ⟨0, 2, 1, by simp [lvMap, h1, h2, h3, lvPut, e1, e2, e5, d1, d2, d3], rfl, rfl, rfl⟩
  · exact ⟨1, 0, 2, by simp [lvMap, h1, h2, h3, lvPut, e2, e3, e6, d1, d2, d3], rfl, rfl, rfl⟩
  · exact ⟨2, 0, 1, by simp [lvMap, h1, h2, h3, lvPut, e3, e6, d1, d2, d3], rfl, rfl, rfl⟩
  · exact ⟨1, 2, 0, by simp [lvMap, h1, h2, h3, lvPut, e1, e4, e5, d1, d2, d3], rfl, rfl, rfl⟩
  · exact ⟨2, 1, 0, by simp [lvMap, h1, h2, h3, lvPut, e5, e6, d1, d2, d3], rfl, rfl, rfl⟩

theorem lvFigs_nil {α : Type} {dbu : α → Int} {n : Int} {l : LvLayer α} : lvFigs dbu n l = [] ↔ l.rects = [] ∧ l.polys = [] := by
  simp [lvFigs]

theorem lvFigs_num {α : Type} {dbu : α → Int} {n : Int} {l : LvLayer α} : ∀ f ∈ lvFigs dbu n l, f.1 = n := by
  intro f hf
  simp only [lvFigs, List.mem_append, List.mem_map] at hf
  rcases hf with ⟨r, _, rfl⟩ | ⟨r, _, rfl⟩ <;> rfl

theorem lvRead_stack {α : Type} {t : LvTech} (dbu : α → Int) (v : LvVia α) {n : Int} {lo cut hi : LvLayer α} (h : LvStack t v.layers n lo cut hi) :
    lvRead t dbu v = if cut.rects = [] ∧ cut.polys = [] then .exits else
      .stored ⟨v.name, v.isDefault, lvFigs dbu n lo, lvFigs dbu (n + 1) cut, lvFigs dbu (n + 2) hi, lvCutClass t (n + 1) (lvFigs dbu (n + 1) cut)⟩ := by
  obtain ⟨i, j, k, hm, hi', hj', hk'⟩ := lvMap_perm h
  have hlen : v.layers.length = 3 := h.perm.length_eq
  rw [lvRead, if_neg (by simp [hlen]), hm]
  have hl : lvLoop dbu v.layers [(n, i), (n + 1, j), (n + 2, k)] 0 ⟨v.name, v.isDefault, [], [], [], none⟩ =
      ⟨v.name, v.isDefault, lvFigs dbu n lo, lvFigs dbu (n + 1) cut, lvFigs dbu (n + 2) hi, none⟩ := by
    simp [lvLoop, lvAdd, hi', hj', hk']
  simp only [List.head?_cons, List.getLast?_cons_cons, List.getLast?_singleton, ne_eq, not_true_eq_false, if_false, hl]
  cases hc : lvFigs dbu (n + 1) cut with
  | nil => rw [if_pos (lvFigs_nil.1 hc)]
  | cons c cs =>
    rw [if_neg (by rw [← lvFigs_nil (dbu := dbu) (n := n + 1), hc]; simp)]
    have hn : c.1 = n + 1 := lvFigs_num c (by rw [hc]; exact List.mem_cons_self)
    simp only [hn]

theorem lvFigs_shapes {α : Type} (dbu : α → Int) (n : Int) (l : LvLayer α) : LvShapes dbu n l (lvFigs dbu n l) := by
  refine ⟨by simp [lvFigs], ?_, ?_⟩
  · intro i x1 y1 x2 y2 hr
    have hi : i < l.rects.length := (List.getElem?_eq_some_iff.1 hr).1
    refine ⟨Box.mk4 (dbu x1) (dbu y1) (dbu x2) (dbu y2), ?_, ?_⟩
    · rw [lvFigs, List.getElem?_append_left (by simpa using hi), List.getElem?_map, hr]; rfl
    · simp only [Box.mk4, Box.left, Box.right, Box.bottom, Box.top]
      repeat' split
      all_goals omega
  · intro i ps hp
    refine ⟨ps.map (fun p => ⟨dbu p.1, dbu p.2⟩), ?_, by simp, ?_⟩
    · rw [lvFigs, List.getElem?_append_right (by simp)]
      simp [hp]
    · intro k x y hk
      rw [List.getElem?_map, hk]; rfl

theorem lvClassLoop_eq (w len : Int) : ∀ (cs : List (Int × Int)) (i : Nat) (r : Option Nat) (x : Nat),
    lvClassLoop w len cs i r = some x ↔
      (∃ k : Nat, x = i + k ∧ cs[k]? = some (w, len) ∧ ∀ j : Nat, k < j → cs[j]? ≠ some (w, len)) ∨ ((∀ j : Nat, cs[j]? ≠ some (w, len)) ∧ r = some x)
  | [], i, r, x => by simp [lvClassLoop]
  | c :: cs, i, r, x => by
    rw [lvClassLoop, lvClassLoop_eq w len cs]
    by_cases hc : c.1 = w ∧ c.2 = len
    · have hc' : c = (w, len) := by rw [← hc.1, ← hc.2]
      rw [if_pos hc]
      constructor
      · rintro (⟨k, rfl, hk, hj⟩ | ⟨hj, hx⟩)
        · refine Or.inl ⟨k + 1, by omega, by simpa using hk, ?_⟩
          intro j hkj
          cases j with
          | zero => omega
          | succ j => simpa using hj j (by omega)
        · refine Or.inl ⟨0, by simpa using hx.symm, by simp [hc'], ?_⟩
          intro j hkj
          cases j with
          | zero => omega
          | succ j => simpa using hj j
      · rintro (⟨k, rfl, hk, hj⟩ | ⟨hj, _⟩)
        · cases k with
          | zero =>
            refine Or.inr ⟨fun j => by simpa using hj (j + 1) (by omega), by simp⟩
          | succ k =>
            refine Or.inl ⟨k, by omega, by simpa using hk, fun j hkj => by simpa using hj (j + 1) (by omega)⟩
        · exact absurd (by simp [hc']) (hj 0)
    · have hc' : ¬ c = (w, len) := fun e => hc (by rw [e]; exact ⟨rfl, rfl⟩)
      rw [if_neg hc]
      constructor
      · rintro (⟨k, rfl, hk, hj⟩ | ⟨hj, hx⟩)
        · refine Or.inl ⟨k + 1, by omega, by simpa using hk, ?_⟩
          intro j hkj
          cases j with
          | zero => omega
          | succ j => simpa using hj j (by omega)
        · refine Or.inr ⟨?_, hx⟩
          intro j
          cases j with
          | zero => simpa using hc'
          | succ j => simpa using hj j
      · rintro (⟨k, rfl, hk, hj⟩ | ⟨hj, hx⟩)
        · cases k with
          | zero => simp [hc'] at hk
          | succ k =>
            refine Or.inl ⟨k, by omega, by simpa using hk, fun j hkj => by simpa using hj (j + 1) (by omega)⟩
        · exact Or.inr ⟨fun j => by simpa using hj (j + 1), hx⟩

theorem lvClass_iff (t : LvTech) (n : Int) (b : Box) (i : Nat) : lvClass t n b = some i ↔ LvOfClass t n b i := by
  rw [lvClass, lvClassLoop_eq, LvOfClass]
  constructor
  · rintro (⟨k, rfl, h⟩ | ⟨_, h⟩)
    · simpa using h
    · exact absurd h (by simp)
  · intro h
    exact Or.inl ⟨i, by simp, h⟩

theorem lvCutClass_spec (t : LvTech) (n : Int) : ∀ (fs : List (Int × LvFig)), (∀ f ∈ fs, f.1 = n) → LvViaClass t n fs (lvCutClass t n fs)
  | [], _ => by simp [lvCutClass, LvViaClass]
  | (m, f) :: fs, hall => by
    have hm : m = n := hall (m, f) List.mem_cons_self
    subst hm
    have ih := lvCutClass_spec t m fs (fun g hg => hall g (List.mem_cons_of_mem _ hg))
    have hstep : (∀ b, f = .rect b → ∀ i', ¬ LvOfClass t m b i') → ∀ c, LvViaClass t m fs c → LvViaClass t m ((m, f) :: fs) c := by
      intro hf c hc
      cases c with
      | none =>
        intro k b hk
        cases k with
        | zero => simp at hk; exact hf b hk
        | succ k => exact hc k b (by simpa using hk)
      | some i =>
        obtain ⟨k, b, hk, hi, hj⟩ := hc
        refine ⟨k + 1, b, by simpa using hk, hi, ?_⟩
        intro j hjk b' hb'
        cases j with
        | zero => simp at hb'; exact hf b' hb'
        | succ j => exact hj j (by omega) b' (by simpa using hb')
    cases f with
    | poly ps =>
      rw [lvCutClass]
      exact hstep (fun b hb => by cases hb) _ ih
    | rect b =>
      rw [lvCutClass]
      cases hcl : lvClass t m b with
      | some i =>
        simp only
        exact ⟨0, b, by simp, (lvClass_iff t m b i).1 hcl, fun j hj => by omega⟩
      | none =>
        simp only
        refine hstep ?_ _ ih
        intro b' hb' i' hi'
        injection hb' with hb'
        subst hb'
        have := (lvClass_iff t m b i').2 hi'
        rw [hcl] at this
        exact absurd this (by simp)

/-- **C173 (what is stored).** A VIA whose three LAYER statements, in any order, are for three layers one above the other is stored with exactly its shapes, on the
layers it names: lower metal, cut and upper metal by the order of the layers in the technology; its class is that of its first rectangular cut that has one. -/
theorem c173_stored {α : Type} (t : LvTech) (dbu : α → Int) (v : LvVia α) (n : Int) (lo cut hi : LvLayer α) (h : LvStack t v.layers n lo cut hi)
    (hc : ¬ (cut.rects = [] ∧ cut.polys = [])) :
    ∃ d, lvRead t dbu v = .stored d ∧ d.name = v.name ∧ d.isDefault = v.isDefault ∧ LvShapes dbu n lo d.layer1 ∧ LvShapes dbu (n + 1) cut d.cut ∧
      LvShapes dbu (n + 2) hi d.layer2 ∧ LvViaClass t (n + 1) d.cut d.cls := by
  refine ⟨_, by rw [lvRead_stack dbu v h, if_neg hc], rfl, rfl, lvFigs_shapes .., lvFigs_shapes .., lvFigs_shapes .., ?_⟩
  exact lvCutClass_spec t (n + 1) _ lvFigs_num

/-- **C173 (order of the layers).** The order in which a VIA names its layers makes no difference. -/
theorem c173_any_order {α : Type} (t : LvTech) (dbu : α → Int) (v w : LvVia α) (n : Int) (lo cut hi : LvLayer α) (h : LvStack t v.layers n lo cut hi)
    (hp : w.layers.Perm v.layers) (hn : w.name = v.name) (hd : w.isDefault = v.isDefault) : lvRead t dbu w = lvRead t dbu v := by
  rw [lvRead_stack dbu v h, lvRead_stack dbu w ⟨hp.trans h.perm, h.lower, h.middle, h.upper⟩, hn, hd]

theorem lvMap_none {α : Type} (t : LvTech) : ∀ (ls : List (LvLayer α)) (i : Nat) (m : List (Int × Nat)),
    lvMap t ls i m = none ↔ ∃ l ∈ ls, t.num l.name = none
  | [], i, m => by simp [lvMap]
  | l :: ls, i, m => by
    rw [lvMap.eq_def]
    simp only
    cases h : t.num l.name with
    | none => simp [h]
    | some n => simp [h, lvMap_none t ls]

/-- **C173 (left out).** A via is left out exactly when it has three layers and the technology does not have one of them. -/
theorem c173_skipped {α : Type} (t : LvTech) (dbu : α → Int) (v : LvVia α) :
    lvRead t dbu v = .skipped ↔ v.layers.length = 3 ∧ ∃ l ∈ v.layers, t.num l.name = none := by
  rw [← lvMap_none t v.layers 0 [], lvRead]
  by_cases hl : v.layers.length = 3
  · simp only [hl, ne_eq, not_true_eq_false, if_false, true_and]
    cases hm : lvMap t v.layers 0 [] with
    | none => simp
    | some m =>
      simp only [reduceCtorEq, iff_false]
      repeat' split
      all_goals simp
  · simp [hl]

/-- **C173 (span).** A via with LAYER statements for three layers of the technology, some of them perhaps the same, is never stored unless its highest layer is two above
its lowest. -/
theorem c173_span {α : Type} (t : LvTech) (dbu : α → Int) (v : LvVia α) (x y z : LvLayer α) (a b c : Int) (d : LvDef) (hl : v.layers = [x, y, z])
    (hx : t.num x.name = some a) (hy : t.num y.name = some b) (hz : t.num z.name = some c) (hs : lvRead t dbu v = .stored d) :
    max a (max b c) = min a (min b c) + 2 := by
  have hm : lvMap t v.layers 0 [] = some (lvPut c 2 (lvPut b 1 [(a, 0)])) := by
    rw [hl]
    simp [lvMap, hx, hy, hz, lvPut]
  have hends : ∃ lo hi : Int × Nat, (lvPut c 2 (lvPut b 1 [(a, 0)])).head? = some lo ∧ (lvPut c 2 (lvPut b 1 [(a, 0)])).getLast? = some hi ∧
      lo.1 = min a (min b c) ∧ hi.1 = max a (max b c) := by
    simp only [lvPut]
    repeat' (first | split | simp only [lvPut])
    all_goals exact ⟨_, _, rfl, rfl, by simp <;> omega, by simp <;> omega⟩
  obtain ⟨lo, hi, h1, h2, h3, h4⟩ := hends
  rw [lvRead, if_neg (by simp [hl]), hm] at hs
  dsimp only at hs
  rw [h1, h2] at hs
  dsimp only at hs
  by_cases he : lo.1 + 2 = hi.1
  · omega
  · rw [if_pos he] at hs
    cases hs

/-- **C173 (refused).** With three LAYER statements for three different layers of the technology, the program ends unless these are one above the other and the middle
one has a shape. -/
theorem c173_refused {α : Type} (t : LvTech) (dbu : α → Int) (v : LvVia α) (x y z : LvLayer α) (a b c : Int) (hl : v.layers = [x, y, z])
    (hx : t.num x.name = some a) (hy : t.num y.name = some b) (hz : t.num z.name = some c) (hd : a ≠ b ∧ b ≠ c ∧ a ≠ c) :
    lvRead t dbu v = .exits ↔ ¬ ∃ n lo cut hi, LvStack t v.layers n lo cut hi ∧ ¬ (cut.rects = [] ∧ cut.polys = []) := by
  constructor
  · rintro he ⟨n, lo, cut, hi, hs, hc⟩
    rw [lvRead_stack dbu v hs, if_neg hc] at he
    cases he
  · intro hno
    by_cases hst : ∃ n lo cut hi, LvStack t v.layers n lo cut hi
    · obtain ⟨n, lo, cut, hi, hs⟩ := hst
      rw [lvRead_stack dbu v hs, if_pos]
      exact Classical.not_not.1 (fun hc => hno ⟨n, lo, cut, hi, hs, hc⟩)
    · have key : ∀ (n : Int) (p q r : LvLayer α), [x, y, z].Perm [p, q, r] →
          ¬ (t.num p.name = some n ∧ t.num q.name = some (n + 1) ∧ t.num r.name = some (n + 2)) := by
        intro n p q r hp ⟨h1, h2, h3⟩
        exact hst ⟨n, p, q, r, by rw [hl]; exact hp, h1, h2, h3⟩
      have k1 := key a x y z (List.Perm.refl _)
      have k2 := key a x z y ((List.Perm.swap z y []).cons x)
      have k3 := key b y x z (List.Perm.swap y x _)
      have pyzx : [x, y, z].Perm [y, z, x] := by simpa using (List.perm_append_comm (l₁ := [x]) (l₂ := [y, z]))
      have k4 := key b y z x pyzx
      have pzxy : [x, y, z].Perm [z, x, y] := by simpa using (List.perm_append_comm (l₁ := [x, y]) (l₂ := [z]))
      have k5 := key c z x y pzxy
      have k6 := key c z y x (pzxy.trans ((List.Perm.swap y x []).cons z))
      simp only [hx, hy, hz, Option.some.injEq, true_and] at k1 k2 k3 k4 k5 k6
      obtain ⟨d1, d2, d3⟩ := hd
      have e : lvMap t v.layers 0 [] = some (lvPut c 2 (lvPut b 1 (lvPut a 0 []))) := by
        rw [hl]; simp [lvMap, hx, hy, hz]
      rw [lvRead, if_neg (by simp [hl]), e]
      simp only [lvPut]
      by_cases hba : b < a
      · rw [if_pos hba]
        simp only [lvPut]
        by_cases hcb : c < b
        · rw [if_pos hcb]; simp only [List.head?_cons, List.getLast?_cons_cons, List.getLast?_singleton]
          rw [if_pos (by omega)]
        · rw [if_neg hcb, if_neg (by omega)]
          by_cases hca : c < a
          · rw [if_pos hca]; simp only [List.head?_cons, List.getLast?_cons_cons, List.getLast?_singleton]
            rw [if_pos (by omega)]
          · rw [if_neg hca, if_neg (by omega)]; simp only [List.head?_cons, List.getLast?_cons_cons, List.getLast?_singleton]
            rw [if_pos (by omega)]
      · rw [if_neg hba, if_neg (by omega)]
        simp only [lvPut]
        by_cases hca : c < a
        · rw [if_pos hca]; simp only [List.head?_cons, List.getLast?_cons_cons, List.getLast?_singleton]
          rw [if_pos (by omega)]
        · rw [if_neg hca, if_neg (by omega)]
          by_cases hcb : c < b
          · rw [if_pos hcb]; simp only [List.head?_cons, List.getLast?_cons_cons, List.getLast?_singleton]
            rw [if_pos (by omega)]
          · rw [if_neg hcb, if_neg (by omega)]; simp only [List.head?_cons, List.getLast?_cons_cons, List.getLast?_singleton]
            rw [if_pos (by omega)]

/-- the technology of the examples: three metals and the cuts between them; cuts of 2 by 2 are of class 0, cuts of 2 by 4 of class 1 -/
def lvTech : LvTech where
  num s := if s = "M1" then some 2 else if s = "V1" then some 3 else if s = "M2" then some 4 else if s = "V2" then some 5 else if s = "M3" then some 6 else none
  classes n := if n = 3 then [(2, 2), (2, 4)] else []

def lvM1 : LvLayer Int := ⟨"M1", [(-3, -2, 3, 2)], []⟩
def lvV1 : LvLayer Int := ⟨"V1", [(5, 5, 8, 8), (1, 2, -1, -2)], [[(0, 0), (1, 0), (1, 1)]]⟩
def lvM2 : LvLayer Int := ⟨"M2", [(-2, -3, 2, 3)], []⟩

/-- **C173 (finding).** A VIA with two LAYER statements for its upper metal is not refused: the shapes of the second one are stored as its cuts, those of the first one
are lost, and there is no shape for the upper metal. -/
theorem c173_twice_accepted : lvRead lvTech id ⟨"X", false, [lvM1, ⟨"M2", [(7, 7, 9, 9)], []⟩, lvM2]⟩ =
    .stored ⟨"X", false, [(2, .rect ⟨⟨-3, -2⟩, ⟨3, 2⟩⟩)], [(4, .rect ⟨⟨-2, -3⟩, ⟨2, 3⟩⟩)], [], none⟩ := by decide +kernel

/-- the hypotheses of the theorems above are met by a via with its layers in the order M2, V1, M1 -/
example : LvStack lvTech [lvM2, lvV1, lvM1] 2 lvM1 lvV1 lvM2 ∧
    lvRead lvTech id ⟨"A", true, [lvM2, lvV1, lvM1]⟩ = .stored ⟨"A", true, [(2, .rect ⟨⟨-3, -2⟩, ⟨3, 2⟩⟩)],
      [(3, .rect ⟨⟨5, 5⟩, ⟨8, 8⟩⟩), (3, .rect ⟨⟨-1, -2⟩, ⟨1, 2⟩⟩), (3, .poly [⟨0, 0⟩, ⟨1, 0⟩, ⟨1, 1⟩])], [(4, .rect ⟨⟨-2, -3⟩, ⟨2, 3⟩⟩)], some 1⟩ := by
  refine ⟨⟨?_, by decide, by decide, by decide⟩, by decide +kernel⟩
  have := List.perm_append_comm (l₁ := [lvM2, lvV1]) (l₂ := [lvM1])
  exact this.trans ((List.Perm.swap lvV1 lvM2 []).cons lvM1)

/-! ### all vias of a file -/

/-- **C173 (the file).** When the program gets through the VIAs of a file, what it adds to the technology is, in the order of the file, what it stores for each of them. -/
theorem c173_file {α : Type} (t : LvTech) (dbu : α → Int) : ∀ (vs : List (LvVia α)) (s s' : LvDb), lvReadAll t dbu vs s = some s' →
    (∀ v ∈ vs, lvRead t dbu v ≠ .exits) ∧
    s'.vias = s.vias ++ vs.filterMap (fun v => match lvRead t dbu v with | .stored d => some d | _ => none)
  | [], s, s', h => by
    simp only [lvReadAll, Option.some.injEq] at h
    subst h; simp
  | v :: vs, s, s', h => by
    rw [lvReadAll] at h
    cases hr : lvRead t dbu v with
    | exits => rw [hr] at h; cases h
    | skipped =>
      rw [hr] at h
      obtain ⟨h1, h2⟩ := c173_file t dbu vs s s' h
      refine ⟨?_, ?_⟩
      · intro w hw
        rcases List.mem_cons.1 hw with rfl | hw
        · rw [hr]; simp
        · exact h1 w hw
      · rw [h2, List.filterMap_cons, hr]
    | stored d =>
      rw [hr] at h
      obtain ⟨h1, h2⟩ := c173_file t dbu vs (s.add d) s' h
      refine ⟨?_, ?_⟩
      · intro w hw
        rcases List.mem_cons.1 hw with rfl | hw
        · rw [hr]; simp
        · exact h1 w hw
      · rw [h2, List.filterMap_cons, hr]
        simp [LvDb.add]

/-- each name stands for the last via that has it -/
def LvDb.Named (s : LvDb) : Prop := ∀ (name : String) (d : LvDef), s.find name = some d ↔ LastWith (fun e => e.name = name) s.vias d

/-- the entries of the name table stand for vias that are there -/
def LvDb.In (s : LvDb) : Prop := ∀ p ∈ s.byName, p.2 < s.vias.length

theorem lvdb_add (s : LvDb) (d : LvDef) (hin : s.In) (hn : s.Named) : (s.add d).In ∧ (s.add d).Named := by
  constructor
  · intro p hp
    simp only [LvDb.add, List.mem_cons, List.mem_filter] at hp
    simp only [LvDb.add, List.length_append, List.length_singleton]
    rcases hp with rfl | ⟨hp, _⟩
    · simp
    · have := hin p hp; omega
  · intro name e
    show (s.add d).find name = some e ↔ LastWith _ (s.vias ++ [d]) e
    rw [lastWith_snoc, ← hn name e]
    by_cases hd : d.name = name
    · have : (s.add d).find name = some d := by
        simp [LvDb.find, LvDb.add, hd]
      rw [this]
      simp [hd, eq_comm]
    · have hf : (s.byName.filter (fun p => decide (p.1 ≠ d.name))).find? (fun p => p.1 == name) = s.byName.find? (fun p => p.1 == name) := by
        rw [List.find?_filter]
        congr 1
        funext p
        by_cases hp : p.1 = name
        · simp [hp]
          exact fun h => hd h.symm
        · simp [hp]
      have : (s.add d).find name = s.find name := by
        rw [LvDb.find, LvDb.find]
        simp only [LvDb.add]
        rw [List.find?_cons_of_neg (by simpa using hd), hf]
        cases hs : s.byName.find? (fun p => p.1 == name) with
        | none => rfl
        | some p =>
          simp only
          exact List.getElem?_append_left (hin p (List.mem_of_find?_eq_some hs))
      rw [this]
      simp [hd]

theorem lvReadAll_named {α : Type} (t : LvTech) (dbu : α → Int) : ∀ (vs : List (LvVia α)) (s s' : LvDb), lvReadAll t dbu vs s = some s' →
    s.In → s.Named → s'.Named
  | [], s, s', h, _, hn => by
    simp only [lvReadAll, Option.some.injEq] at h
    subst h; exact hn
  | v :: vs, s, s', h, hin, hn => by
    rw [lvReadAll] at h
    cases hr : lvRead t dbu v with
    | exits => rw [hr] at h; cases h
    | skipped => rw [hr] at h; exact lvReadAll_named t dbu vs s s' h hin hn
    | stored d =>
      rw [hr] at h
      obtain ⟨h1, h2⟩ := lvdb_add s d hin hn
      exact lvReadAll_named t dbu vs (s.add d) s' h h1 h2

/-- **C173 (names).** After the file is read, a name stands for the last via stored under it; earlier ones of the same name are still in the list of vias. -/
theorem c173_names {α : Type} (t : LvTech) (dbu : α → Int) (vs : List (LvVia α)) (s : LvDb) (h : lvReadAll t dbu vs ⟨[], []⟩ = some s)
    (name : String) (d : LvDef) : s.find name = some d ↔ LastWith (fun e => e.name = name) s.vias d := by
  refine lvReadAll_named t dbu vs ⟨[], []⟩ s h ?_ ?_ name d
  · intro p hp; cases hp
  · intro name d
    simp [LvDb.find, LastWith]

/-- two vias of the same name are both stored -/
example : (lvReadAll lvTech id [⟨"A", true, [lvM2, lvV1, lvM1]⟩, ⟨"U", false, [lvM1, lvV1, ⟨"Q", [], []⟩]⟩, ⟨"A", false, [lvM1, lvV1, lvM2]⟩] ⟨[], []⟩).map
    (fun s => (s.vias.map (fun d => d.isDefault), (s.find "A").map (fun d => d.isDefault), s.find "U")) = some ([true, false], some false, none) := by
  decide +kernel

end TR
