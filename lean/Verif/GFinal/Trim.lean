import Verif.GFinal.Tree
/-! Places of pins, the map of ends, and cutting off free ends. -/
namespace TR
variable {T : GuideTech} {segs : List GSeg} {pins : List (List Node)} {st : NS}

theorem finalCell_some {s : GSeg} {ns : List Node} {c : Node} (h : finalCell T s ns = some c) : c ∈ s.ends T ∧ c ∈ ns := by
  unfold finalCell at h
  split at h
  · cases h; rename_i hc; exact ⟨by simp [GSeg.ends], hc⟩
  · split at h
    · cases h; rename_i hc; exact ⟨by simp [GSeg.ends], hc⟩
    · cases h

theorem finalCell_exists {s : GSeg} {ns : List Node} {n : Node} (h1 : n ∈ s.ends T) (h2 : n ∈ ns) : ∃ c, finalCell T s ns = some c := by
  unfold finalCell
  split
  · exact ⟨_, rfl⟩
  · rename_i hb
    split
    · exact ⟨_, rfl⟩
    · rename_i he
      simp only [GSeg.ends, List.mem_cons, List.not_mem_nil, or_false] at h1
      rcases h1 with rfl | rfl
      · exact absurd h2 hb
      · exact absurd h2 he

theorem mem_finalPlaces (k : Nat) (n : Node) : (k, n) ∈ finalPlaces T segs pins st ↔
    ∃ i s ns, segs[i]? = some s ∧ pins[k]? = some ns ∧ finalCell T s ns = some n ∧
      ((st.vis i = true ∧ st.prev i = some (segs.length + k)) ∨ (st.vis (segs.length + k) = true ∧ st.prev (segs.length + k) = some i)) := by
  unfold finalPlaces
  rw [List.mem_filterMap]
  constructor
  · rintro ⟨i, hi, h⟩
    by_cases hv : st.vis i = false
    · rw [if_pos hv] at h; cases h
    · rw [if_neg hv] at h
      have hv' : st.vis i = true := by simpa using hv
      cases hp : st.prev i with
      | none => rw [hp] at h; cases h
      | some p =>
        rw [hp] at h
        dsimp only at h
        by_cases c1 : i < segs.length ∧ segs.length ≤ p
        · rw [if_pos c1] at h
          cases hs : segs[i]? with
          | none => rw [hs] at h; cases h
          | some s =>
            cases hq : pins[p - segs.length]? with
            | none => rw [hs, hq] at h; cases h
            | some ns =>
              rw [hs, hq] at h
              dsimp only at h
              rw [Option.map_eq_some_iff] at h
              obtain ⟨c, hc, he⟩ := h
              cases he
              refine ⟨i, s, ns, hs, hq, hc, .inl ⟨hv', ?_⟩⟩
              rw [hp]; congr 1; omega
        · rw [if_neg c1] at h
          by_cases c2 : segs.length ≤ i ∧ p < segs.length
          · rw [if_pos c2] at h
            cases hs : segs[p]? with
            | none => rw [hs] at h; cases h
            | some s =>
              cases hq : pins[i - segs.length]? with
              | none => rw [hs, hq] at h; cases h
              | some ns =>
                rw [hs, hq] at h
                dsimp only at h
                rw [Option.map_eq_some_iff] at h
                obtain ⟨c, hc, he⟩ := h
                cases he
                have e : segs.length + (i - segs.length) = i := by omega
                exact ⟨p, s, ns, hs, hq, hc, .inr ⟨by rw [e]; exact hv', by rw [e]; exact hp⟩⟩
          · rw [if_neg c2] at h; cases h
  · rintro ⟨i, s, ns, hs, hq, hc, h⟩
    have l1 := (List.getElem?_eq_some_iff.1 hs).1
    have l2 := (List.getElem?_eq_some_iff.1 hq).1
    have e : segs.length + k - segs.length = k := by omega
    rcases h with ⟨h1, h2⟩ | ⟨h1, h2⟩
    · refine ⟨i, List.mem_range.2 (by omega), ?_⟩
      rw [if_neg (by rw [h1]; decide), h2]
      dsimp only
      rw [if_pos ⟨l1, by omega⟩, e, hs, hq]
      dsimp only
      rw [hc]; rfl
    · refine ⟨segs.length + k, List.mem_range.2 (by omega), ?_⟩
      rw [if_neg (by rw [h1]; decide), h2]
      dsimp only
      rw [if_neg (by omega), if_pos ⟨by omega, l1⟩, e, hs, hq]
      dsimp only
      rw [hc]; rfl

theorem guideEndMap_sorted : (guideEndMap T segs pins st).Sorted := (foldl_ins _ [] List.Pairwise.nil).1

theorem guideEndMap_has (n : Node) (i : Nat) : (guideEndMap T segs pins st).Has n i ↔
    (∃ k, i = k + segs.length ∧ (k, n) ∈ finalPlaces T segs pins st) ∨ ∃ s, segs[i]? = some s ∧ st.vis i = true ∧ n ∈ s.ends T := by
  unfold guideEndMap
  rw [(foldl_ins _ [] List.Pairwise.nil).2]
  unfold finalInserts
  rw [List.mem_append, List.mem_map, List.mem_flatMap]
  constructor
  · rintro (h | (⟨⟨k, c⟩, h1, h2⟩ | ⟨⟨s, j⟩, h1, h2⟩))
    · obtain ⟨S, h, _⟩ := h; simp at h
    · simp only [Prod.mk.injEq] at h2
      obtain ⟨rfl, rfl⟩ := h2
      exact .inl ⟨k, rfl, h1⟩
    · rw [List.mem_zipIdx_iff_getElem?] at h1
      dsimp only at h1 h2
      by_cases hv : st.vis j = true
      · rw [if_pos hv, List.mem_map] at h2
        obtain ⟨c, hc, he⟩ := h2
        simp only [Prod.mk.injEq] at he
        obtain ⟨rfl, rfl⟩ := he
        exact .inr ⟨s, h1, hv, hc⟩
      · rw [if_neg hv] at h2; cases h2
  · rintro (⟨k, rfl, h⟩ | ⟨s, h1, h2, h3⟩)
    · exact .inr (.inl ⟨(k, n), h, rfl⟩)
    · refine .inr (.inr ⟨(s, i), by rw [List.mem_zipIdx_iff_getElem?]; exact h1, ?_⟩)
      dsimp only
      rw [if_pos h2, List.mem_map]
      exact ⟨n, h3, rfl⟩

/-- an end of guide `j` where nothing else is -/
def FreeEnd (m : NodeMap) (j : Nat) (n : Node) : Prop :=
  (n, [j]) ∈ m ∧ (∀ k, ¬ m.Has ⟨n.pt, n.layer + 2⟩ k) ∧ ∀ k, ¬ m.Has ⟨n.pt, n.layer - 2⟩ k

theorem at_nil {m : NodeMap} (hs : m.Sorted) (n : Node) : m.at n = [] ↔ ∀ k, ¬ m.Has n k := by
  rw [List.eq_nil_iff_forall_not_mem]
  constructor
  · intro h k hk; exact h k ((mem_at hs n k).2 hk)
  · intro h k hk; exact h k ((mem_at hs n k).1 hk)

/-- `s'` is what cutting the ends in `F` leaves of `s` -/
structure CutBy (T : GuideTech) (F : Node → Prop) (s s' : GSeg) : Prop where
  l : s'.l = s.l
  t : s'.t = s.t
  be : (s'.b = s.b ∧ s'.e = s.e) ∨ (s'.b = s.e ∧ s'.e = s.e) ∨ (s'.b = s.b ∧ s'.e = s.b)
  lost : ∀ n ∈ s.ends T, n ∉ s'.ends T → F n
  point : ∀ n ∈ s.ends T, F n → s'.b = s'.e

theorem cell_pt {l t x y : Int} (h : (T.cell l t x).pt = (T.cell l t y).pt) : x = y := by
  unfold GuideTech.cell at h
  split at h <;> · simp only [Point.mk.injEq] at h; omega

theorem cutBy_step {F : Node → Prop} {s s' : GSeg} (h : CutBy T F s s') {n : Node} (hn : n ∈ s.ends T) :
    CutBy T (fun x => F x ∨ x = n) s (s'.cutEnd T n) := by
  obtain ⟨l, t, b, e⟩ := s
  obtain ⟨l', t', b', e'⟩ := s'
  obtain ⟨h1, h2, h3, h4, h5⟩ := h
  dsimp only at h1 h2 h3 h5
  subst h1 h2
  simp only [GSeg.ends, List.mem_cons, List.not_mem_nil, or_false, forall_eq_or_imp, forall_eq] at hn h4 h5
  unfold GSeg.cutEnd
  dsimp only
  split
  · rename_i hc
    refine ⟨rfl, rfl, by dsimp only; omega, ?_, fun _ _ _ => rfl⟩
    simp only [GSeg.ends, List.mem_cons, List.not_mem_nil, or_false, forall_eq_or_imp, forall_eq, or_self]
    rcases h3 with ⟨rfl, rfl⟩ | ⟨rfl, rfl⟩ | ⟨rfl, rfl⟩
    · rcases hn with rfl | rfl
      · exact ⟨fun _ => .inr rfl, fun h => absurd rfl h⟩
      · have := cell_pt hc
        subst this
        exact ⟨fun h => absurd rfl h, fun h => absurd rfl h⟩
    · exact ⟨fun h => .inl (h4.1 (by simpa using h)), fun h => absurd rfl h⟩
    · exact ⟨fun h => absurd rfl h, fun h => .inl (h4.2 (by simpa using h))⟩
  · rename_i hc
    refine ⟨rfl, rfl, by dsimp only; omega, ?_, fun _ _ _ => rfl⟩
    simp only [GSeg.ends, List.mem_cons, List.not_mem_nil, or_false, forall_eq_or_imp, forall_eq, or_self]
    rcases h3 with ⟨rfl, rfl⟩ | ⟨rfl, rfl⟩ | ⟨rfl, rfl⟩
    · rcases hn with rfl | rfl
      · exact absurd rfl hc
      · exact ⟨fun h => absurd rfl h, fun _ => .inr rfl⟩
    · exact ⟨fun h => .inl (h4.1 (by simpa using h)), fun h => absurd rfl h⟩
    · exact ⟨fun h => absurd rfl h, fun h => .inl (h4.2 (by simpa using h))⟩

theorem CutBy.congr {F G : Node → Prop} {s s' : GSeg} (h : CutBy T F s s') (hFG : ∀ n ∈ s.ends T, (F n ↔ G n)) : CutBy T G s s' :=
  ⟨h.l, h.t, h.be, fun n h1 h2 => (hFG n h1).1 (h.lost n h1 h2), fun n h1 h2 => h.point n h1 ((hFG n h1).2 h2)⟩

/-- state of the loop over the map after the entries `L` -/
def TrimSt (T : GuideTech) (m : NodeMap) (segs : List GSeg) (L : List (Node × List Nat)) (out : List GSeg) : Prop :=
  out.length = segs.length ∧ ∀ (j : Nat) (s s' : GSeg), segs[j]? = some s → out[j]? = some s' →
    CutBy T (fun n => (n, [j]) ∈ L ∧ FreeEnd m j n) s s'

theorem trim_step {m : NodeMap} (hs : m.Sorted) {L : List (Node × List Nat)} {out : List GSeg} (h : TrimSt T m segs L out)
    {x : Node × List Nat} (hx : x ∈ m) (hown : ∀ i, x.2 = [i] → i < segs.length ∧ ∀ s, segs[i]? = some s → x.1 ∈ s.ends T) :
    ∃ out', finalTrim T segs.length m (some out) x = some out' ∧ TrimSt T m segs (L ++ [x]) out' := by
  obtain ⟨n, S⟩ := x
  have hsame : (¬ ∃ j, FreeEnd m j n ∧ S = [j]) → TrimSt T m segs (L ++ [(n, S)]) out := by
    intro hno
    refine ⟨h.1, fun j s s' h1 h2 => (h.2 j s s' h1 h2).congr fun c hc => ?_⟩
    rw [List.mem_append, List.mem_singleton]
    constructor
    · rintro ⟨a, b⟩; exact ⟨.inl a, b⟩
    · rintro ⟨a | a, b⟩
      · exact ⟨a, b⟩
      · simp only [Prod.mk.injEq] at a
        obtain ⟨rfl, rfl⟩ := a
        exact absurd ⟨j, b, rfl⟩ hno
  unfold finalTrim
  dsimp only
  match S, hx, hown, hsame with
  | [], _, _, hsame => exact ⟨out, rfl, hsame (by rintro ⟨j, _, h⟩; cases h)⟩
  | _ :: _ :: _, _, _, hsame => exact ⟨out, rfl, hsame (by rintro ⟨j, _, h⟩; cases h)⟩
  | [i], hx, hown, hsame =>
    dsimp only
    obtain ⟨hi, he⟩ := hown i rfl
    rw [if_pos hi]
    by_cases hc : m.at ⟨n.pt, n.layer + 2⟩ = [] ∧ m.at ⟨n.pt, n.layer - 2⟩ = []
    · rw [if_pos hc]
      refine ⟨_, rfl, by rw [List.length_mapIdx]; exact h.1, fun j s s' h1 h2 => ?_⟩
      rw [List.getElem?_mapIdx, Option.map_eq_some_iff] at h2
      obtain ⟨s1, h2, h3⟩ := h2
      have hfree : FreeEnd m i n := ⟨hx, (at_nil hs _).1 hc.1, (at_nil hs _).1 hc.2⟩
      by_cases hj : j = i
      · subst hj
        rw [if_pos rfl] at h3
        subst h3
        refine (cutBy_step (h.2 j s s1 h1 h2) (he s h1)).congr fun c hc => ?_
        rw [List.mem_append, List.mem_singleton]
        constructor
        · rintro (⟨a, b⟩ | rfl)
          · exact ⟨.inl a, b⟩
          · exact ⟨.inr rfl, hfree⟩
        · rintro ⟨a | a, b⟩
          · exact .inl ⟨a, b⟩
          · simp only [Prod.mk.injEq] at a
            exact .inr a.1
      · rw [if_neg hj] at h3
        subst h3
        refine (h.2 j s s1 h1 h2).congr fun c hc => ?_
        rw [List.mem_append, List.mem_singleton]
        constructor
        · rintro ⟨a, b⟩; exact ⟨.inl a, b⟩
        · rintro ⟨a | a, b⟩
          · exact ⟨a, b⟩
          · simp only [Prod.mk.injEq, List.cons.injEq, and_true] at a
            exact absurd a.2 hj
    · rw [if_neg hc]
      refine ⟨out, rfl, hsame ?_⟩
      rintro ⟨j, ⟨_, f2, f3⟩, _⟩
      exact hc ⟨(at_nil hs _).2 f2, (at_nil hs _).2 f3⟩

theorem trim_fold {m : NodeMap} (hs : m.Sorted)
    (hown : ∀ x ∈ m, ∀ i, x.2 = [i] → i < segs.length ∧ ∀ s, segs[i]? = some s → x.1 ∈ s.ends T) :
    ∀ (R L : List (Node × List Nat)) (out : List GSeg), (∀ x ∈ R, x ∈ m) → TrimSt T m segs L out →
      ∃ out', R.foldl (finalTrim T segs.length m) (some out) = some out' ∧ TrimSt T m segs (L ++ R) out'
  | [], L, out => by
    intro _ h
    exact ⟨out, rfl, by rw [List.append_nil]; exact h⟩
  | x :: R, L, out => by
    intro hR h
    obtain ⟨o1, h1, h2⟩ := trim_step hs h (hR x (.head _)) (hown x (hR x (.head _)))
    rw [List.foldl_cons, h1]
    obtain ⟨o2, h3, h4⟩ := trim_fold hs hown R (L ++ [x]) o1 (fun y hy => hR y (.tail _ hy)) h2
    exact ⟨o2, h3, by rw [List.append_assoc] at h4; exact h4⟩

/-- the whole loop -/
theorem trim_all {m : NodeMap} (hs : m.Sorted)
    (hown : ∀ x ∈ m, ∀ i, x.2 = [i] → i < segs.length ∧ ∀ s, segs[i]? = some s → x.1 ∈ s.ends T) :
    ∃ out, m.foldl (finalTrim T segs.length m) (some segs) = some out ∧ out.length = segs.length ∧
      ∀ (j : Nat) (s s' : GSeg), segs[j]? = some s → out[j]? = some s' → CutBy T (FreeEnd m j) s s' := by
  obtain ⟨out, h1, h2, h3⟩ := trim_fold hs hown m [] segs (fun _ h => h) (by
    refine ⟨rfl, fun j s s' a b => ?_⟩
    rw [a] at b; cases b
    exact ⟨rfl, rfl, .inl ⟨rfl, rfl⟩, fun n h1 h2 => absurd h1 h2, fun n _ h => (by cases h.1)⟩)
  refine ⟨out, h1, h2, fun j s s' a b => (h3 j s s' a b).congr fun n _ => ?_⟩
  rw [List.nil_append]
  exact ⟨fun h => h.2, fun h => ⟨h.1, h⟩⟩

end TR
