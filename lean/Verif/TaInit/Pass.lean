import Verif.TaInit.Runs
/-! # One pass over the panels of a direction -/
namespace TR

theorem ptAC_a' (h : Bool) (a c : Int) : (ptAC h a c).a h = a := by cases h <;> rfl
theorem ptAC_c' (h : Bool) (a c : Int) : (ptAC h a c).c h = c := by cases h <;> rfl
theorem point_a_not (p : Point) (h : Bool) : p.a (!h) = p.c h := by cases h <;> rfl
theorem point_c_not (p : Point) (h : Bool) : p.c (!h) = p.a h := by cases h <;> rfl

theorem passes_c {n : TGuide} {p : Point} {h : Bool} (hp : n.Passes p) (hs : n.b.c h = n.e.c h) : n.b.c h = p.c h := by
  obtain ⟨h1, h2, h3, h4⟩ := hp
  cases h <;> simp only [Point.c, Bool.false_eq_true, if_false, if_true] at hs ⊢ <;> omega

theorem accLoop_some {t : GrPin} {ok : Point → Int → Bool} {q : Point} : ∀ {ps : List Bool} {k : Nat}, accLoop t ok ps k = some q →
    t.inst = true ∧ ∃ ap, some ap ∈ t.aps ∧ q = ⟨ap.1.x + t.shift.x, ap.1.y + t.shift.y⟩ ∧ ok q ap.2 = true := by
  intro ps
  induction ps with
  | nil => intro k h; cases h
  | cons has ps ih =>
    intro k h
    unfold accLoop at h
    cases hap : (if t.inst then (t.aps[k]?).join else none) with
    | none => rw [hap] at h; exact ih h
    | some ap =>
      rw [hap] at h
      dsimp only at h
      have hi : t.inst = true := by
        cases hi : t.inst with
        | true => rfl
        | false => rw [hi] at hap; cases hap
      by_cases hc : has = false ∨ (if t.inst then t.accIdx else -1) = -1
      · rw [if_pos hc] at h; exact ih h
      · rw [if_neg hc] at h
        by_cases hok : ok ⟨ap.1.x + t.shift.x, ap.1.y + t.shift.y⟩ ap.2 = true
        · rw [if_pos hok] at h
          cases h
          refine ⟨hi, ap, ?_, rfl, hok⟩
          rw [if_pos hi, Option.join_eq_some_iff] at hap
          exact List.mem_of_getElem? hap
        · rw [if_neg hok] at h; exact ih h

theorem pinWire_none {E : TaEnv} {h : Bool} {rb : Box} {gs : List TGuide} {g : TGuide} (hn : ¬ AtPin E g) : pinWire E h rb gs g = none := by
  unfold pinWire
  split
  · rfl
  · rename_i hb
    have hb : g.b = g.e := Classical.not_not.1 hb
    dsimp only
    rw [Option.map_eq_none_iff, List.findSome?_eq_none_iff]
    intro t ht
    cases hq : accLoop t (fun q l => decide (l = g.layer) && rb.meets ⟨q, q⟩) t.pins 0 with
    | none => rfl
    | some q =>
      exfalso
      obtain ⟨hi, ap, ha, _, hok⟩ := accLoop_some hq
      unfold pinsAt at ht
      rw [List.mem_filter, Bool.and_eq_true, decide_eq_true_eq, decide_eq_true_eq] at ht
      rw [Bool.and_eq_true, decide_eq_true_eq] at hok
      exact hn ⟨hb, t, ht.1, ht.2.1, ht.2.2, hi, ap, ha, hok.1⟩

/-- the wire of a guide from the wires of its neighbours: every neighbour has one wire, crossing at `x`, in the row of the end of the guide -/
theorem genericWire_laid {E : TaEnv} {h : Bool} {rb : Box} {gs : List TGuide} {g : TGuide} {row : Int → Int × Int} {C : Int → Prop} (hr : TaRows C row)
    (hcb : C (g.b.a h)) (hce : C (g.e.a h)) (hle : g.b.a h ≤ g.e.a h) (hbe : g.b.a h = g.e.a h → g.b = g.e) (x : TGuide → Int)
    (hx : ∀ p n, p = g.b ∨ p = g.e → n ∈ nbrGuides E gs g p →
      (∃ p' q', n.routes = [(n.layer, p', q')] ∧ p'.a h = x n) ∧ (row (p.a h)).1 ≤ x n ∧ x n ≤ (row (p.a h)).2) :
    let w := genericWire E h rb gs g
    w.a1 < w.a2 ∧
    (∀ p n, p = g.b ∨ p = g.e → n ∈ nbrGuides E gs g p → w.a1 ≤ x n ∧ x n ≤ w.a2) ∧
    ((∃ n ∈ nbrGuides E gs g g.b, w.a1 = x n) ∨ (nbrGuides E gs g g.b = [] ∧ w.a1 = g.b.a h)) ∧
    (((∃ n ∈ nbrGuides E gs g g.e, w.a2 = max (x n) (w.a1 + 1)) ∨ (nbrGuides E gs g g.e = [] ∧ w.a2 = max (g.e.a h) (w.a1 + 1)))) ∧
    (∀ y, y ∈ w.down ↔ ∃ n, n ∈ nbrGuides E gs g g.b ++ nbrGuides E gs g g.e ∧ n.layer = g.layer - 2 ∧ y = x n) ∧
    (∀ y, y ∈ w.up ↔ ∃ n, n ∈ nbrGuides E gs g g.b ++ nbrGuides E gs g g.e ∧ n.layer ≠ g.layer - 2 ∧ y = x n) := by
  have e0 : EndAcc h g.layer x [] [] {} := ⟨by simp, by simp, by simp, by simp, by simp, by simp⟩
  have e1 := endAcc_first (cp := g.b) (L := nbrGuides E gs g g.b) (fun n hn => (hx g.b n (.inl rfl) hn).1) e0
  have e2 := endAcc_last (cp := g.e) (L := nbrGuides E gs g g.e) (fun n hn => (hx g.e n (.inr rfl) hn).1) e1
  rw [List.nil_append, List.nil_append] at e2
  unfold genericWire
  dsimp only
  generalize List.foldl (nbrStep h g.layer true g.e) (List.foldl (nbrStep h g.layer false g.b) {} (nbrGuides E gs g g.b)) (nbrGuides E gs g g.e) = a at e2 ⊢
  obtain ⟨l1, l2, l3, l4, l5, l6⟩ := e2
  have hlo : ∃ lo, a.lo.getD (g.b.a h) = lo ∧ (∀ n ∈ nbrGuides E gs g g.b, lo ≤ x n) ∧
      ((∃ n ∈ nbrGuides E gs g g.b, lo = x n) ∨ (nbrGuides E gs g g.b = [] ∧ lo = g.b.a h)) ∧ (row (g.b.a h)).1 ≤ lo ∧ lo ≤ (row (g.b.a h)).2 := by
    cases hl : a.lo with
    | none =>
      have := l1.1 hl
      refine ⟨g.b.a h, rfl, fun n hn => absurd hn (by simp [this]), .inr ⟨this, rfl⟩, hr.mem _ hcb⟩
    | some v =>
      obtain ⟨k1, n, k2, k3⟩ := l2 v hl
      refine ⟨v, rfl, k1, .inl ⟨n, k2, k3⟩, ?_⟩
      rw [k3]; exact (hx g.b n (.inl rfl) k2).2
  have hhi : ∃ hi, a.hi.getD (g.e.a h) = hi ∧ (∀ n ∈ nbrGuides E gs g g.e, x n ≤ hi) ∧
      ((∃ n ∈ nbrGuides E gs g g.e, hi = x n) ∨ (nbrGuides E gs g g.e = [] ∧ hi = g.e.a h)) ∧ (row (g.e.a h)).1 ≤ hi ∧ hi ≤ (row (g.e.a h)).2 := by
    cases hl : a.hi with
    | none =>
      have := l3.1 hl
      refine ⟨g.e.a h, rfl, fun n hn => absurd hn (by simp [this]), .inr ⟨this, rfl⟩, hr.mem _ hce⟩
    | some v =>
      obtain ⟨k1, n, k2, k3⟩ := l4 v hl
      refine ⟨v, rfl, k1, .inl ⟨n, k2, k3⟩, ?_⟩
      rw [k3]; exact (hx g.e n (.inr rfl) k2).2
  obtain ⟨lo, q1, q2, q3, q4⟩ := hlo
  obtain ⟨hi, r1, r2, r3, r4⟩ := hhi
  rw [q1, r1]
  have hlh : lo ≤ hi ∧ (∀ n ∈ nbrGuides E gs g g.b, x n ≤ hi) ∧ ∀ n ∈ nbrGuides E gs g g.e, lo ≤ x n := by
    rcases Int.lt_or_eq_of_le hle with hlt | heq
    · have hap := hr.apart _ _ hcb hce hlt
      refine ⟨by omega, fun n hn => ?_, fun n hn => ?_⟩
      · have := (hx g.b n (.inl rfl) hn).2.2; omega
      · have := (hx g.e n (.inr rfl) hn).2.1; omega
    · have hb := hbe heq
      rw [hb] at q2 q3
      refine ⟨?_, by rw [hb]; exact r2, q2⟩
      rcases q3 with ⟨n, hn, hv⟩ | ⟨h0, hv⟩
      · have := r2 n hn; omega
      · rcases r3 with ⟨n, hn, _⟩ | ⟨_, hv'⟩
        · rw [h0] at hn; cases hn
        · omega
  obtain ⟨s1, s2, s3⟩ := hlh
  have hspan : wireSpan lo hi = (lo, max hi (lo + 1)) := by
    unfold wireSpan
    dsimp only
    rw [if_neg (show ¬ lo > hi by omega)]
    dsimp only
    split
    · rw [show max hi (lo + 1) = hi + 1 by omega]
    · rw [show max hi (lo + 1) = hi by omega]
  rw [hspan]
  dsimp only
  refine ⟨by omega, ?_, q3, ?_, l5, l6⟩
  · rintro p n (rfl | rfl) hn
    · have := q2 n hn; have := s2 n hn; omega
    · have := r2 n hn; have := s3 n hn; omega
  · rcases r3 with ⟨n, hn, hv⟩ | ⟨h0, hv⟩
    · exact .inl ⟨n, hn, by rw [hv]⟩
    · exact .inr ⟨h0, by rw [hv]⟩

/-- neighbours without wires: the wire goes from centre to centre, with vias at the ends -/
theorem freshAcc {h : Bool} {l : Int} {last : Bool} {cp : Point} : ∀ {L : List TGuide} {a : WireAcc}, (∀ n ∈ L, n.routes = []) →
    (L.foldl (nbrStep h l last cp) a).lo = a.lo ∧ (L.foldl (nbrStep h l last cp) a).hi = a.hi ∧
    (∀ y, y ∈ (L.foldl (nbrStep h l last cp) a).down ↔ y ∈ a.down ∨ ∃ n ∈ L, n.layer = l - 2 ∧ y = n.b.a h) ∧
    (∀ y, y ∈ (L.foldl (nbrStep h l last cp) a).up ↔ y ∈ a.up ∨ ∃ n ∈ L, n.layer ≠ l - 2 ∧ y = n.b.a h) := by
  intro L
  induction L with
  | nil => intro a _; simp
  | cons n L ih =>
    intro a hL
    rw [List.foldl_cons]
    obtain ⟨i1, i2, i3, i4⟩ := ih (a := nbrStep h l last cp a n) (fun m hm => hL m (List.mem_cons_of_mem _ hm))
    have hn := hL n List.mem_cons_self
    have hstep : nbrStep h l last cp a n = { (if n.layer = l - 2 then { a with down := coordIns (n.b.a h) a.down } else { a with up := coordIns (n.b.a h) a.up } : WireAcc) with
        wlen := (if n.layer = l - 2 then { a with down := coordIns (n.b.a h) a.down } else { a with up := coordIns (n.b.a h) a.up } : WireAcc).wlen -
          (if cp = n.e then 1 else 0) + (if cp = n.b then 1 else 0) } := by
      unfold nbrStep; rw [if_pos hn]
    by_cases hl : n.layer = l - 2
    · rw [if_pos hl] at hstep
      rw [i1, i2]
      refine ⟨by rw [hstep], by rw [hstep], fun y => ?_, fun y => ?_⟩
      · rw [i3, hstep]; dsimp only; rw [mem_coordIns]
        constructor
        · rintro ((h | h) | ⟨m, h1, h2⟩)
          · exact .inr ⟨n, List.mem_cons_self, hl, h⟩
          · exact .inl h
          · exact .inr ⟨m, List.mem_cons_of_mem _ h1, h2⟩
        · rintro (h | ⟨m, h1, h2, h3⟩)
          · exact .inl (.inr h)
          · rcases List.mem_cons.1 h1 with rfl | h1
            · exact .inl (.inl h3)
            · exact .inr ⟨m, h1, h2, h3⟩
      · rw [i4, hstep]; dsimp only
        constructor
        · rintro (h | ⟨m, h1, h2⟩)
          · exact .inl h
          · exact .inr ⟨m, List.mem_cons_of_mem _ h1, h2⟩
        · rintro (h | ⟨m, h1, h2, h3⟩)
          · exact .inl h
          · rcases List.mem_cons.1 h1 with rfl | h1
            · exact absurd hl h2
            · exact .inr ⟨m, h1, h2, h3⟩
    · rw [if_neg hl] at hstep
      rw [i1, i2]
      refine ⟨by rw [hstep], by rw [hstep], fun y => ?_, fun y => ?_⟩
      · rw [i3, hstep]; dsimp only
        constructor
        · rintro (h | ⟨m, h1, h2⟩)
          · exact .inl h
          · exact .inr ⟨m, List.mem_cons_of_mem _ h1, h2⟩
        · rintro (h | ⟨m, h1, h2, h3⟩)
          · exact .inl h
          · rcases List.mem_cons.1 h1 with rfl | h1
            · exact absurd h2 hl
            · exact .inr ⟨m, h1, h2, h3⟩
      · rw [i4, hstep]; dsimp only; rw [mem_coordIns]
        constructor
        · rintro ((h | h) | ⟨m, h1, h2⟩)
          · exact .inr ⟨n, List.mem_cons_self, hl, h⟩
          · exact .inl h
          · exact .inr ⟨m, List.mem_cons_of_mem _ h1, h2⟩
        · rintro (h | ⟨m, h1, h2, h3⟩)
          · exact .inl (.inr h)
          · rcases List.mem_cons.1 h1 with rfl | h1
            · exact .inl (.inl h3)
            · exact .inr ⟨m, h1, h2, h3⟩

end TR
