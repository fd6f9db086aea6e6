import Verif.GFinal.Trim
/-! The guides that are kept connect the pins. -/
namespace TR
variable {T : GuideTech} {segs : List GSeg} {pins : List (List Node)} {ft : Bool} {st : NS}

/-- what the search leaves: a tree over the kept guides and pins -/
structure SearchOk (T : GuideTech) (segs : List GSeg) (pins : List (List Node)) (ft : Bool) (st : NS) : Prop where
  tree : PrevTree (guideAdj T segs.length ft (guideMap T segs pins)) segs.length st.prev st.vis
  all : ∀ k, k < pins.length → st.vis (segs.length + k) = true
  two : 2 ≤ pins.length
  order : ∀ s ∈ segs, s.b ≤ s.e

/-- edges of the graph -/
inductive GuideArc (T : GuideTech) (segs : List GSeg) (pins : List (List Node)) (ft : Bool) (p x : Nat) : Prop where
  | same (s s' : GSeg) (n : Node) (hp : segs[p]? = some s) (hx : segs[x]? = some s') (h1 : n ∈ s.ends T) (h2 : n ∈ s'.ends T) (hne : x ≠ p)
  | via (s s' : GSeg) (n n' : Node) (hp : segs[p]? = some s) (hx : segs[x]? = some s') (h1 : n ∈ s.ends T) (h2 : n' ∈ s'.ends T)
      (hpt : n.pt = n'.pt) (hl : n'.layer = n.layer + 2 ∨ n.layer = n'.layer + 2)
  | out (k : Nat) (ns : List Node) (s' : GSeg) (n : Node) (hp : p = segs.length + k) (hk : pins[k]? = some ns) (hx : segs[x]? = some s')
      (h1 : n ∈ ns) (h2 : n ∈ s'.ends T) (hthr : k = 0 ∨ ft = true)
  | into (k : Nat) (ns : List Node) (s : GSeg) (n : Node) (hp : segs[p]? = some s) (hx : x = segs.length + k) (hk : pins[k]? = some ns)
      (h1 : n ∈ s.ends T) (h2 : n ∈ ns)

theorem guideArc_of {p x : Nat} (h : x ∈ guideAdj T segs.length ft (guideMap T segs pins) p) : GuideArc T segs pins ft p x := by
  rcases (mem_guideAdj (guideMap_sorted segs pins) _ _ _ _).1 h with ⟨hne, n, h1, h2, h3⟩ | ⟨l1, l2, n, n', h1, h2, h3, h4⟩
  · rcases (guideMap_has segs pins n p).1 h1 with ⟨s, a1, a2⟩ | ⟨k, ns, rfl, a1, a2⟩
    · rcases (guideMap_has segs pins n x).1 h2 with ⟨s', b1, b2⟩ | ⟨k', ns', rfl, b1, b2⟩
      · exact .same s s' n a1 b1 a2 b2 hne
      · exact .into k' ns' s n a1 rfl b1 a2 b2
    · rcases (guideMap_has segs pins n x).1 h2 with ⟨s', b1, b2⟩ | ⟨k', ns', rfl, b1, b2⟩
      · refine .out k ns s' n rfl a1 b1 a2 b2 ?_
        have l := (List.getElem?_eq_some_iff.1 b1).1
        unfold guideEdge at h3
        rw [if_neg (by omega), if_neg (by omega)] at h3
        cases hft : ft with
        | true => exact .inr rfl
        | false =>
          rw [hft, if_neg (by decide)] at h3
          by_cases hk : segs.length + k = segs.length
          · exact .inl (by omega)
          · rw [if_neg hk, if_neg (by omega)] at h3
            simp only [decide_eq_true_eq] at h3
            omega
      · unfold guideEdge at h3
        rw [if_pos ⟨by omega, by omega⟩] at h3
        cases h3
  · rcases (guideMap_has segs pins n p).1 h1 with ⟨s, a1, a2⟩ | ⟨k, ns, rfl, a1, a2⟩
    · rcases (guideMap_has segs pins n' x).1 h2 with ⟨s', b1, b2⟩ | ⟨k', ns', rfl, b1, b2⟩
      · exact .via s s' n n' a1 b1 a2 b2 h3 h4
      · omega
    · omega

theorem setIns_inc (i : Nat) : ∀ S : List Nat, S.Pairwise (· < ·) → (setIns i S).Pairwise (· < ·)
  | [], _ => by simp [setIns]
  | j :: r, h => by
    have hr := List.pairwise_cons.1 h
    rw [setIns]
    split
    · rename_i hij
      exact List.pairwise_cons.2 ⟨fun x hx => (by rcases List.mem_cons.1 hx with rfl | hx; exact hij; exact Nat.lt_trans hij (hr.1 x hx)), h⟩
    · split
      · exact h
      · rename_i h1 h2
        refine List.pairwise_cons.2 ⟨fun x hx => ?_, setIns_inc i r hr.2⟩
        rcases (mem_setIns i x r).1 hx with rfl | hx
        · omega
        · exact hr.1 x hx

theorem ins_sets (n : Node) (i : Nat) : ∀ m : NodeMap, (∀ x ∈ m, x.2.Pairwise (· < ·)) → ∀ x ∈ NodeMap.ins n i m, x.2.Pairwise (· < ·)
  | [], _ => by simp [NodeMap.ins]
  | (c, S) :: r, h => by
    have h1 := List.forall_mem_cons.1 h
    rw [NodeMap.ins]
    split
    · exact List.forall_mem_cons.2 ⟨by simp, h⟩
    · split
      · exact List.forall_mem_cons.2 ⟨setIns_inc i S h1.1, h1.2⟩
      · exact List.forall_mem_cons.2 ⟨h1.1, ins_sets n i r h1.2⟩

theorem foldl_sets (L : List (Node × Nat)) : ∀ m : NodeMap, (∀ x ∈ m, x.2.Pairwise (· < ·)) →
    ∀ x ∈ L.foldl (fun m x => NodeMap.ins x.1 x.2 m) m, x.2.Pairwise (· < ·) := by
  induction L with
  | nil => exact fun _ h => h
  | cons a r ih => intro m h; rw [List.foldl_cons]; exact ih _ (ins_sets a.1 a.2 m h)

theorem guideEndMap_sets (n : Node) (S : List Nat) (h : (n, S) ∈ guideEndMap T segs pins st) : S.Nodup :=
  (foldl_sets _ [] (by simp) _ h).imp (fun h => Nat.ne_of_lt h)

namespace SearchOk
variable (ok : SearchOk T segs pins ft st)
include ok

theorem edge {x : Nat} (hx : st.vis x = true) : (x = segs.length ∧ st.prev x = none) ∨
    ∃ p, st.prev x = some p ∧ st.vis p = true ∧ GuideArc T segs pins ft p x := by
  obtain ⟨ρ, B, h⟩ := ok.tree
  rcases (h x hx).2 with h | ⟨p, h1, h2, h3, _⟩
  · exact .inl h
  · exact .inr ⟨p, h1, h2, guideArc_of h3⟩

/-- a place of a pin lies in a GCell of the pin and at the end of a kept guide -/
theorem place {k : Nat} {n : Node} (h : (k, n) ∈ finalPlaces T segs pins st) :
    (∃ ns, pins[k]? = some ns ∧ n ∈ ns) ∧ ∃ i s, segs[i]? = some s ∧ st.vis i = true ∧ n ∈ s.ends T := by
  obtain ⟨i, s, ns, h1, h2, h3, h4⟩ := (mem_finalPlaces k n).1 h
  obtain ⟨c1, c2⟩ := finalCell_some h3
  refine ⟨⟨ns, h2, c2⟩, i, s, h1, ?_, c1⟩
  rcases h4 with ⟨h4, _⟩ | ⟨h4, h5⟩
  · exact h4
  · rcases ok.edge h4 with ⟨_, h6⟩ | ⟨p, h6, h7, _⟩
    · rw [h5] at h6; cases h6
    · rw [h5] at h6; cases h6; exact h7

theorem place_has {k : Nat} {n : Node} (h : (k, n) ∈ finalPlaces T segs pins st) : (guideEndMap T segs pins st).Has n (k + segs.length) :=
  (guideEndMap_has n _).2 (.inl ⟨k, rfl, h⟩)

omit ok in
theorem guide_has {i : Nat} {s : GSeg} {n : Node} (h1 : segs[i]? = some s) (h2 : st.vis i = true) (h3 : n ∈ s.ends T) :
    (guideEndMap T segs pins st).Has n i := (guideEndMap_has n i).2 (.inr ⟨s, h1, h2, h3⟩)

/-- wherever something is, a kept guide ends -/
theorem has_guide {i : Nat} {n : Node} (h : (guideEndMap T segs pins st).Has n i) : ∃ j s, segs[j]? = some s ∧ st.vis j = true ∧ n ∈ s.ends T := by
  rcases (guideEndMap_has n i).1 h with ⟨k, _, h⟩ | ⟨s, h1, h2, h3⟩
  · exact (ok.place h).2
  · exact ⟨i, s, h1, h2, h3⟩

omit ok in
theorem single {m : NodeMap} (hs : m.Sorted) {n : Node} {i j : Nat} (h1 : (n, [i]) ∈ m) (h2 : m.Has n j) : j = i := by
  obtain ⟨S, h3, h4⟩ := h2
  rw [← sorted_unique hs h1 h3] at h4
  simpa using h4

theorem own : ∀ x ∈ guideEndMap T segs pins st, ∀ i, x.2 = [i] → i < segs.length ∧ ∀ s, segs[i]? = some s → x.1 ∈ s.ends T := by
  rintro ⟨n, S⟩ hx i rfl
  have hhas : (guideEndMap T segs pins st).Has n i := ⟨[i], hx, by simp⟩
  obtain ⟨j, s, h1, h2, h3⟩ := ok.has_guide hhas
  have := single guideEndMap_sorted hx (guide_has (pins := pins) h1 h2 h3)
  subst this
  refine ⟨(List.getElem?_eq_some_iff.1 h1).1, fun s' hs' => ?_⟩
  rw [h1] at hs'; cases hs'; exact h3

/-- an end is not free: something else is there, or something is above or below -/
theorem not_free {j : Nat} {n : Node} (hj : (guideEndMap T segs pins st).Has n j) (h : ¬ FreeEnd (guideEndMap T segs pins st) j n) :
    (∃ k, k ≠ j ∧ (guideEndMap T segs pins st).Has n k) ∨
    ∃ k n', (guideEndMap T segs pins st).Has n' k ∧ n'.pt = n.pt ∧ (n'.layer = n.layer + 2 ∨ n.layer = n'.layer + 2) := by
  apply Classical.byContradiction
  intro hno
  rw [not_or, not_exists, not_exists] at hno
  obtain ⟨h1, h2⟩ := hno
  apply h
  refine ⟨?_, ?_, ?_⟩
  · obtain ⟨S, hS, hjS⟩ := hj
    have hall : ∀ k ∈ S, k = j := fun k hk => Classical.byContradiction fun hne => h1 k ⟨hne, S, hS, hk⟩
    match S, hS, hjS, hall, guideEndMap_sets (T := T) (segs := segs) (pins := pins) (st := st) n S hS with
    | [a], hS, _, hall, _ => rw [hall a (by simp)] at hS; exact hS
    | a :: b :: r, _, _, hall, hnd =>
      have ha := hall a (by simp)
      have hb := hall b (by simp)
      rw [List.nodup_cons] at hnd
      exact absurd (by rw [ha, hb]; simp) hnd.1
  · intro k hk; exact h2 k ⟨_, hk, rfl, .inl rfl⟩
  · intro k hk; exact h2 k ⟨_, hk, rfl, .inr (by dsimp only; omega)⟩

/-- every kept guide has an end that is not free -/
theorem some_used {x : Nat} {s : GSeg} (hs : segs[x]? = some s) (hx : st.vis x = true) :
    ∃ n ∈ s.ends T, ¬ FreeEnd (guideEndMap T segs pins st) x n := by
  have lx := (List.getElem?_eq_some_iff.1 hs).1
  rcases ok.edge hx with ⟨h, _⟩ | ⟨p, h1, h2, he⟩
  · omega
  · cases he with
    | same sp s' n hp hx' e1 e2 hne =>
      rw [hs] at hx'; cases hx'
      refine ⟨n, e2, fun hf => ?_⟩
      exact hne (single guideEndMap_sorted hf.1 (guide_has (pins := pins) hp h2 e1)).symm
    | via sp s' n n' hp hx' e1 e2 hpt hl =>
      rw [hs] at hx'; cases hx'
      refine ⟨n', e2, fun hf => ?_⟩
      have hn := guide_has (pins := pins) hp h2 e1
      rcases hl with hl | hl
      · exact hf.2.2 p (by rw [← hpt, hl, show n.layer + 2 - 2 = n.layer by omega]; exact hn)
      · exact hf.2.1 p (by rw [← hpt, ← hl]; exact hn)
    | out k ns s' n hp hk hx' e1 e2 hthr =>
      rw [hs] at hx'; cases hx'
      obtain ⟨c, hc⟩ := finalCell_exists e2 e1
      have hpl : (k, c) ∈ finalPlaces T segs pins st := (mem_finalPlaces k c).2 ⟨x, s, ns, hs, hk, hc, .inl ⟨hx, by rw [h1, hp]⟩⟩
      refine ⟨c, (finalCell_some hc).1, fun hf => ?_⟩
      have := single guideEndMap_sorted hf.1 (ok.place_has hpl)
      omega
    | into k ns sp n hp hx' hk e1 e2 => omega

/-- every pin has a place -/
theorem has_place {k : Nat} (hk : k < pins.length) : ∃ n, (k, n) ∈ finalPlaces T segs pins st := by
  have hpl : ∀ x p, st.vis x = true → st.prev x = some p → st.vis p = true → GuideArc T segs pins ft p x →
      ((∀ j, x = segs.length + j → ∃ n, (j, n) ∈ finalPlaces T segs pins st) ∧ ∀ j, p = segs.length + j → ∃ n, (j, n) ∈ finalPlaces T segs pins st) := by
    intro x p hx hp hvp he
    cases he with
    | same sp s' n hp' hx' e1 e2 hne =>
      have l1 := (List.getElem?_eq_some_iff.1 hp').1
      have l2 := (List.getElem?_eq_some_iff.1 hx').1
      exact ⟨fun j hj => by omega, fun j hj => by omega⟩
    | via sp s' n n' hp' hx' e1 e2 hpt hl =>
      have l1 := (List.getElem?_eq_some_iff.1 hp').1
      have l2 := (List.getElem?_eq_some_iff.1 hx').1
      exact ⟨fun j hj => by omega, fun j hj => by omega⟩
    | out k ns s' n hp' hk hx' e1 e2 hthr =>
      have l2 := (List.getElem?_eq_some_iff.1 hx').1
      obtain ⟨c, hc⟩ := finalCell_exists e2 e1
      refine ⟨fun j hj => by omega, fun j hj => ⟨c, ?_⟩⟩
      have : j = k := by omega
      subst this
      exact (mem_finalPlaces j c).2 ⟨x, s', ns, hx', hk, hc, .inl ⟨hx, by rw [hp, hj]⟩⟩
    | into k ns sp n hp' hx' hk e1 e2 =>
      have l1 := (List.getElem?_eq_some_iff.1 hp').1
      obtain ⟨c, hc⟩ := finalCell_exists e1 e2
      refine ⟨fun j hj => ⟨c, ?_⟩, fun j hj => by omega⟩
      have : j = k := by omega
      subst this
      rw [hx'] at hx hp
      exact (mem_finalPlaces j c).2 ⟨p, sp, ns, hp', hk, hc, .inr ⟨hx, hp⟩⟩
  by_cases h0 : k = 0
  · subst h0
    obtain ⟨ρ, B, ht⟩ := ok.tree
    have key : ∀ (b x : Nat), ρ x < b → st.vis x = true → x ≠ segs.length → ∃ y, st.vis y = true ∧ st.prev y = some segs.length := by
      intro b
      induction b with
      | zero => intro x h; omega
      | succ b ih =>
        intro x hb hx hne
        rcases (ht x hx).2 with h | ⟨p, h1, h2, h3, h4⟩
        · exact absurd h.1 hne
        · by_cases hpg : p = segs.length
          · exact ⟨x, hx, by rw [h1, hpg]⟩
          · exact ih p (by omega) h2 hpg
    have two := ok.two
    obtain ⟨y, hy, hy'⟩ := key (ρ (segs.length + 1) + 1) (segs.length + 1) (by omega) (ok.all 1 (by omega)) (by omega)
    rcases ok.edge hy with ⟨_, h⟩ | ⟨p, h1, h2, h3⟩
    · rw [hy'] at h; cases h
    · rw [hy'] at h1; cases h1
      exact (hpl y _ hy hy' h2 h3).2 0 rfl
  · have hv := ok.all k hk
    rcases ok.edge hv with ⟨h, _⟩ | ⟨p, h1, h2, h3⟩
    · omega
    · exact (hpl _ p hv h1 h2 h3).1 k rfl

/-- the final guides -/
theorem final : ∃ out : List GSeg, finalGuides T segs pins st = some ⟨(out.zipIdx.filter fun x => st.vis x.2).map (fun x => (x.2, x.1)), finalPlaces T segs pins st⟩ ∧
    out.length = segs.length ∧ ∀ (j : Nat) (s s' : GSeg), segs[j]? = some s → out[j]? = some s' → CutBy T (FreeEnd (guideEndMap T segs pins st) j) s s' := by
  obtain ⟨out, h1, h2, h3⟩ := trim_all (T := T) (segs := segs) guideEndMap_sorted ok.own
  refine ⟨out, ?_, h2, h3⟩
  unfold finalGuides
  rw [h1]

end SearchOk

/-- what is known of the final guides `F` -/
structure FinalOk (T : GuideTech) (segs : List GSeg) (pins : List (List Node)) (st : NS) (F : GFinal) : Prop where
  places : F.pins = finalPlaces T segs pins st
  mem : ∀ j s', (j, s') ∈ F.guides → ∃ s, segs[j]? = some s ∧ st.vis j = true ∧ CutBy T (FreeEnd (guideEndMap T segs pins st) j) s s'
  kept : ∀ j s, segs[j]? = some s → st.vis j = true → ∃ s', (j, s') ∈ F.guides
  once : (F.guides.map (·.1)).Nodup

theorem SearchOk.finalOk (ok : SearchOk T segs pins ft st) : ∃ F, finalGuides T segs pins st = some F ∧ FinalOk T segs pins st F := by
  obtain ⟨out, h1, h2, h3⟩ := ok.final
  refine ⟨_, h1, rfl, ?_, ?_, ?_⟩
  · intro j s' h
    rw [List.mem_map] at h
    obtain ⟨⟨s1, i⟩, h, he⟩ := h
    simp only [Prod.mk.injEq] at he
    obtain ⟨rfl, rfl⟩ := he
    rw [List.mem_filter, List.mem_zipIdx_iff_getElem?] at h
    dsimp only at h
    have l := (List.getElem?_eq_some_iff.1 h.1).1
    have hs : segs[i]? = some segs[i] := List.getElem?_eq_getElem (by omega)
    exact ⟨_, hs, h.2, h3 i _ _ hs h.1⟩
  · intro j s hs hv
    have l := (List.getElem?_eq_some_iff.1 hs).1
    have ho : out[j]? = some out[j] := List.getElem?_eq_getElem (by omega)
    refine ⟨out[j], ?_⟩
    rw [List.mem_map]
    exact ⟨(out[j], j), by rw [List.mem_filter, List.mem_zipIdx_iff_getElem?]; exact ⟨ho, hv⟩, rfl⟩
  · rw [List.map_map]
    have : (out.zipIdx.map (·.2)).Nodup := by
      rw [List.zipIdx_map_snd]
      exact List.nodup_range'
    refine List.Nodup.sublist ?_ this
    exact (List.filter_sublist (l := out.zipIdx)).map (·.2)

namespace FinalOk
variable {F : GFinal} (ok : SearchOk T segs pins ft st) (fo : FinalOk T segs pins st F)
include ok fo

omit ok in
/-- an end that is not free stays an end -/
theorem stays {j : Nat} {s : GSeg} {n : Node} (hs : segs[j]? = some s) (hv : st.vis j = true) (hn : n ∈ s.ends T)
    (hf : ¬ FreeEnd (guideEndMap T segs pins st) j n) : ∃ s', (j, s') ∈ F.guides ∧ n ∈ s'.ends T := by
  obtain ⟨s', h⟩ := fo.kept j s hs hv
  obtain ⟨s1, h1, _, hc⟩ := fo.mem j s' h
  rw [hs] at h1; cases h1
  exact ⟨s', h, Classical.byContradiction fun hno => hf (hc.lost n hn hno)⟩

omit ok in
theorem of_index {j : Nat} {s' s'' : GSeg} (h1 : (j, s') ∈ F.guides) (h2 : (j, s'') ∈ F.guides) : s' = s'' := by
  have hnd := fo.once
  generalize F.guides = L at *
  induction L with
  | nil => cases h1
  | cons a r ih =>
    rw [List.map_cons, List.nodup_cons] at hnd
    rcases List.mem_cons.1 h1 with rfl | h1'
    · rcases List.mem_cons.1 h2 with h2' | h2'
      · cases h2'; rfl
      · exact absurd (List.mem_map.2 ⟨_, h2', rfl⟩) hnd.1
    · rcases List.mem_cons.1 h2 with rfl | h2'
      · exact absurd (List.mem_map.2 ⟨_, h1', rfl⟩) hnd.1
      · exact ih h1' h2' hnd.2

omit ok in
theorem ends_sub {j : Nat} {s s' : GSeg} (hc : CutBy T (FreeEnd (guideEndMap T segs pins st) j) s s') {n : Node} (h : n ∈ s'.ends T) : n ∈ s.ends T := by
  obtain ⟨l, t, b, e⟩ := s
  obtain ⟨l', t', b', e'⟩ := s'
  obtain ⟨h1, h2, h3, _, _⟩ := hc
  dsimp only at h1 h2 h3
  subst h1 h2
  simp only [GSeg.ends, List.mem_cons, List.not_mem_nil, or_false] at h ⊢
  rcases h3 with ⟨rfl, rfl⟩ | ⟨rfl, rfl⟩ | ⟨rfl, rfl⟩
  · exact h
  · rw [or_self] at h; exact .inr h
  · rw [or_self] at h; exact .inl h

/-- no end of a final guide is free -/
theorem end_not_free {j : Nat} {s s' : GSeg} (hs : segs[j]? = some s) (hv : st.vis j = true) (h : (j, s') ∈ F.guides) {n : Node} (hn : n ∈ s'.ends T) :
    ¬ FreeEnd (guideEndMap T segs pins st) j n := by
  intro hf
  obtain ⟨n0, h0, hnf⟩ := ok.some_used hs hv
  obtain ⟨s1, g1, e1⟩ := fo.stays hs hv h0 hnf
  have := fo.of_index h g1
  subst this
  obtain ⟨s2, g2, _, hc⟩ := fo.mem j s' h
  rw [hs] at g2; cases g2
  have hp := hc.point n (ends_sub fo hc hn) hf
  simp only [GSeg.ends, List.mem_cons, List.not_mem_nil, or_false] at hn e1
  rw [hp, or_self] at hn e1
  rw [hn, ← e1] at hf
  exact hnf hf

omit fo in
theorem not_free_of {j k : Nat} {n : Node} (hk : (guideEndMap T segs pins st).Has n k) (hne : k ≠ j) : ¬ FreeEnd (guideEndMap T segs pins st) j n :=
  fun hf => hne (SearchOk.single guideEndMap_sorted hf.1 hk)

omit ok fo in
theorem not_free_via {j k : Nat} {n n' : Node} (hk : (guideEndMap T segs pins st).Has n' k) (hpt : n'.pt = n.pt)
    (hl : n'.layer = n.layer + 2 ∨ n.layer = n'.layer + 2) : ¬ FreeEnd (guideEndMap T segs pins st) j n := by
  intro hf
  rcases hl with hl | hl
  · exact hf.2.1 k (by rw [← hpt, ← hl]; exact hk)
  · exact hf.2.2 k (by rw [← hpt, hl, show n'.layer + 2 - 2 = n'.layer by omega]; exact hk)

/-- a place of a pin is an end of a final guide -/
theorem place_end {k : Nat} {n : Node} (h : (k, n) ∈ F.pins) : F.End T n := by
  rw [fo.places] at h
  obtain ⟨_, i, s, h1, h2, h3⟩ := ok.place h
  have l := (List.getElem?_eq_some_iff.1 h1).1
  obtain ⟨s', h4, h5⟩ := fo.stays h1 h2 h3 (not_free_of ok (ok.place_has h) (by omega))
  exact ⟨i, s', h4, h5⟩

/-- every end of a final guide is used -/
theorem used {j : Nat} {s' : GSeg} (h : (j, s') ∈ F.guides) {n : Node} (hn : n ∈ s'.ends T) : F.Used T j n := by
  obtain ⟨s, hs, hv, hc⟩ := fo.mem j s' h
  have hnf := fo.end_not_free ok hs hv h hn
  have hj := SearchOk.guide_has (pins := pins) hs hv (ends_sub fo hc hn)
  rcases ok.not_free hj hnf with ⟨k, hne, hk⟩ | ⟨k, n', hk, hpt, hl⟩
  · rcases (guideEndMap_has n k).1 hk with ⟨k', rfl, hp⟩ | ⟨s1, h1, h2, h3⟩
    · exact .inl ⟨k', by rw [fo.places]; exact hp⟩
    · obtain ⟨s2, g1, g2⟩ := fo.stays h1 h2 h3 (not_free_of ok hj (Ne.symm hne))
      exact .inr ⟨k, s2, n, g1, g2, rfl, .inl ⟨hne, rfl⟩⟩
  · obtain ⟨i, s1, h1, h2, h3⟩ := ok.has_guide hk
    obtain ⟨s2, g1, g2⟩ := fo.stays h1 h2 h3 (not_free_via hj hpt.symm hl.symm)
    exact .inr ⟨i, s2, n', g1, g2, hpt, .inr hl⟩

/-- a final guide is a part of a kept guide -/
theorem order {j : Nat} {s' : GSeg} (h : (j, s') ∈ F.guides) : ∃ s, segs[j]? = some s ∧ st.vis j = true ∧ s'.b ≤ s'.e ∧ s'.l = s.l ∧ s'.t = s.t ∧ s.b ≤ s'.b ∧ s'.e ≤ s.e := by
  obtain ⟨s, hs, hv, hc⟩ := fo.mem j s' h
  have := ok.order s (List.mem_of_getElem? hs)
  refine ⟨s, hs, hv, ?_, hc.l, hc.t, ?_, ?_⟩ <;> rcases hc.be with h | h | h <;> omega

theorem end_on {n : Node} (h : F.End T n) : F.On T n := by
  obtain ⟨i, s', h1, h2⟩ := h
  obtain ⟨_, _, _, h3, _⟩ := fo.order ok h1
  exact ⟨i, s', h1, ends_has h3 h2⟩

/-- the final guides and places are connected -/
theorem connected {a : Node} (ha : (0, a) ∈ F.pins) :
    (∀ n, F.On T n → Chain (F.Link T fun k => k = 0 ∨ ft = true) (F.On T) a n) := by
  obtain ⟨ρ, B, ht⟩ := ok.tree
  have hon : ∀ k n, (k, n) ∈ F.pins → F.On T n := fun k n h => fo.end_on ok (fo.place_end ok h)
  have key : ∀ (b x : Nat), ρ x < b → st.vis x = true →
      (∀ s', (x, s') ∈ F.guides → ∀ n, s'.Has T n → Chain (F.Link T fun k => k = 0 ∨ ft = true) (F.On T) a n) ∧
      (∀ k n, x = segs.length + k → (k, n) ∈ F.pins → Chain (F.Link T fun k => k = 0 ∨ ft = true) (F.On T) a n) := by
    intro b
    induction b with
    | zero => intro x h; omega
    | succ b ih =>
      intro x hb hx
      have hpin0 : ∀ n, (0, n) ∈ F.pins → Chain (F.Link T fun k => k = 0 ∨ ft = true) (F.On T) a n := fun n hn =>
        .step (.refl (hon 0 a ha)) (.inr (.inr ⟨0, .inl rfl, ha, hn⟩)) (hon 0 n hn)
      rcases (ht x hx).2 with ⟨rfl, _⟩ | ⟨p, h1, h2, h3, h4⟩
      · refine ⟨?_, ?_⟩
        · intro s' hs'
          obtain ⟨s, hs, _⟩ := fo.mem _ s' hs'
          have := (List.getElem?_eq_some_iff.1 hs).1
          omega
        · intro k n hk hn
          have : k = 0 := by omega
          subst this
          exact hpin0 n hn
      · obtain ⟨ig, ip⟩ := ih p (by omega) h2
        have he := guideArc_of h3
        -- from one node of a final guide to all
        have spread : ∀ s' c, (x, s') ∈ F.guides → c ∈ s'.ends T → Chain (F.Link T fun k => k = 0 ∨ ft = true) (F.On T) a c →
            ∀ s'', (x, s'') ∈ F.guides → ∀ n, s''.Has T n → Chain (F.Link T fun k => k = 0 ∨ ft = true) (F.On T) a n := by
          intro s' c g1 g2 hch s'' g3 n hn
          have := fo.of_index g1 g3
          subst this
          obtain ⟨_, _, _, ho, _⟩ := fo.order ok g1
          exact .step hch (.inl ⟨x, s', g1, ends_has ho g2, hn⟩) ⟨x, s', g1, hn⟩
        cases he with
        | same sp sx n hp hx' e1 e2 hne =>
          have lx := (List.getElem?_eq_some_iff.1 hx').1
          obtain ⟨s1, g1, g2⟩ := fo.stays hp h2 e1 (not_free_of ok (SearchOk.guide_has (pins := pins) hx' hx e2) hne)
          obtain ⟨s2, g3, g4⟩ := fo.stays hx' hx e2 (not_free_of ok (SearchOk.guide_has (pins := pins) hp h2 e1) (Ne.symm hne))
          obtain ⟨_, _, _, ho, _⟩ := fo.order ok g1
          exact ⟨spread s2 n g3 g4 (ig s1 g1 n (ends_has ho g2)), fun k _ hk => by omega⟩
        | via sp sx n n' hp hx' e1 e2 hpt hl =>
          have lx := (List.getElem?_eq_some_iff.1 hx').1
          obtain ⟨s1, g1, g2⟩ := fo.stays hp h2 e1 (not_free_via (SearchOk.guide_has (pins := pins) hx' hx e2) hpt.symm hl)
          obtain ⟨s2, g3, g4⟩ := fo.stays hx' hx e2 (not_free_via (SearchOk.guide_has (pins := pins) hp h2 e1) hpt hl.symm)
          obtain ⟨_, _, _, ho, _⟩ := fo.order ok g1
          refine ⟨spread s2 n' g3 g4 ?_, fun k _ hk => by omega⟩
          exact .step (ig s1 g1 n (ends_has ho g2)) (.inr (.inl ⟨hpt, hl, ⟨p, s1, g1, g2⟩, ⟨x, s2, g3, g4⟩⟩)) (fo.end_on ok ⟨x, s2, g3, g4⟩)
        | out k ns sx n hp hk hx' e1 e2 hthr =>
          have lx := (List.getElem?_eq_some_iff.1 hx').1
          obtain ⟨c, hc⟩ := finalCell_exists e2 e1
          have hpl : (k, c) ∈ finalPlaces T segs pins st := (mem_finalPlaces k c).2 ⟨x, sx, ns, hx', hk, hc, .inl ⟨hx, by rw [h1, hp]⟩⟩
          obtain ⟨s2, g3, g4⟩ := fo.stays hx' hx (finalCell_some hc).1 (not_free_of ok (ok.place_has hpl) (by omega))
          exact ⟨spread s2 c g3 g4 (ip k c hp (by rw [fo.places]; exact hpl)), fun k _ hk => by omega⟩
        | into k ns sp n hp hx' hk e1 e2 =>
          have lp := (List.getElem?_eq_some_iff.1 hp).1
          obtain ⟨c, hc⟩ := finalCell_exists e1 e2
          subst hx'
          have hpl : (k, c) ∈ finalPlaces T segs pins st := (mem_finalPlaces k c).2 ⟨p, sp, ns, hp, hk, hc, .inr ⟨hx, h1⟩⟩
          obtain ⟨s2, g3, g4⟩ := fo.stays hp h2 (finalCell_some hc).1 (not_free_of ok (ok.place_has hpl) (by omega))
          obtain ⟨_, _, _, ho, _⟩ := fo.order ok g3
          have hch := ig s2 g3 c (ends_has ho g4)
          refine ⟨?_, ?_⟩
          · intro s' hs'
            obtain ⟨s, hs, _⟩ := fo.mem _ s' hs'
            have := (List.getElem?_eq_some_iff.1 hs).1
            omega
          · intro k' m hk' hm
            have : k' = k := by omega
            subst this
            rw [fo.places] at hm
            obtain ⟨i, s, ns', i1, i2, i3, i4⟩ := (mem_finalPlaces k' m).1 hm
            rcases i4 with ⟨i4, i5⟩ | ⟨i4, i5⟩
            · rcases ok.edge i4 with ⟨_, hn⟩ | ⟨q, q1, q2, q3⟩
              · rw [i5] at hn; cases hn
              · rw [i5] at q1; cases q1
                cases q3 with
                | same a b c' hp' => have := (List.getElem?_eq_some_iff.1 hp').1; omega
                | via a b c' d hp' => have := (List.getElem?_eq_some_iff.1 hp').1; omega
                | into a b c' d hp' => have := (List.getElem?_eq_some_iff.1 hp').1; omega
                | out k2 ns2 s4 n4 hp' _ _ _ _ hthr =>
                  have : k2 = k' := by omega
                  subst this
                  exact .step hch (.inr (.inr ⟨k2, hthr, by rw [fo.places]; exact hpl, by rw [fo.places]; exact hm⟩)) (hon k2 m (by rw [fo.places]; exact hm))
            · rw [h1] at i5; cases i5
              rw [hp] at i1; cases i1
              rw [hk] at i2; cases i2
              rw [hc] at i3; cases i3
              exact hch
  intro n hn
  obtain ⟨i, s', h1, h2⟩ := hn
  obtain ⟨s, _, hv, _⟩ := fo.mem i s' h1
  exact (key (ρ i + 1) i (by omega) hv).1 s' h1 n h2

end FinalOk
end TR
