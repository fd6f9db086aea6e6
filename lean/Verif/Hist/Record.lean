import Verif.Hist.Nodes
import Verif.WB.End
/-! What recording a marker and fading do to the counters. -/
namespace TR

theorem placed_nodes {g : Grid} (hs : g.Sorted) {mk : Box} (hmk : mk.Proper) {z : Int} {f : HFig} (h : f.Placed g z) :
    ∀ n ∈ f.nodes g mk z, g.On n := by
  cases f with
  | wire bp ep m1 m2 w => exact fun n hn => ((c144_wire_nodes g hs mk hmk bp ep m1 m2 w z h).2.1 n hn).1
  | via o net m => exact fun n hn => by cases hn
  | patch o box => exact fun n hn => ((c144_patch_nodes g hs mk o box z h n).1 hn).1

theorem sameGrid_sorted {g g' : Grid} (h : SameGrid g g') (hs : g.Sorted) : g'.Sorted := by
  unfold Grid.Sorted; rw [h.1, h.2.1, h.2.2]; exact hs

theorem sameGrid_nodes {g g' : Grid} (h : SameGrid g g') (mk : Box) (z : Int) (f : HFig) : f.nodes g' mk z = f.nodes g mk z := by
  cases f with
  | wire bp ep m1 m2 w => exact sameGrid_wireNodes h mk m1 m2 w
  | via o net m => rfl
  | patch o box => exact sameGrid_patchNodes h box z

theorem sameGrid_placed {g g' : Grid} (h : SameGrid g g') {z : Int} {f : HFig} (hp : f.Placed g z) : f.Placed g' z := by
  cases f with
  | wire bp ep m1 m2 w => exact ⟨(sameGrid_on h _).2 hp.1, (sameGrid_on h _).2 hp.2.1, hp.2.2⟩
  | via o net m => exact (sameGrid_on h _).2 hp
  | patch o box => unfold HFig.Placed at *; simp only [h.1, h.2.1, h.2.2]; exact hp

theorem count_nodup {l : List MIdx} (h : l.Nodup) (m : MIdx) : l.count m = if m ∈ l then 1 else 0 := by
  by_cases hm : m ∈ l
  · rw [if_pos hm]
    have h1 := List.nodup_iff_count.1 h m
    have h2 := List.count_pos_iff.2 hm
    omega
  · rw [if_neg hm]; exact List.count_eq_zero.2 hm

/-- effect of one shape on the counters of the wires -/
theorem markFig_wires {R mk : Box} {z : Int} {s : HState} {vio : List Nat} {f : HFig} (hs : s.grid.Sorted) (hmk : mk.Proper)
    (hp : f.Placed s.grid z) :
    SameGrid s.grid (markFig R mk z (s, vio) f).1.grid ∧
    (∀ m, m ∈ (markFig R mk z (s, vio) f).1.planar ↔ m ∈ s.planar ∨ f.Hits R s.grid mk z m) ∧
    (s.planar.Nodup → (markFig R mk z (s, vio) f).1.planar.Nodup) ∧
    ∀ m, s.grid.On m → (markFig R mk z (s, vio) f).1.grid.attr m .markP =
      raiseN (if f.Hits R s.grid mk z m then 1 else 0) (s.grid.attr m .markP) := by
  have hon := placed_nodes hs hmk hp
  have stay : (¬ f.Movable R ∨ ∀ m, m ∉ f.nodes s.grid mk z) → ∀ t : HState, SameGrid s.grid t.grid → t.planar = s.planar →
      (∀ m, s.grid.On m → t.grid.attr m .markP = s.grid.attr m .markP) →
      SameGrid s.grid t.grid ∧ (∀ m, m ∈ t.planar ↔ m ∈ s.planar ∨ f.Hits R s.grid mk z m) ∧
      (s.planar.Nodup → t.planar.Nodup) ∧
      ∀ m, s.grid.On m → t.grid.attr m .markP = raiseN (if f.Hits R s.grid mk z m then 1 else 0) (s.grid.attr m .markP) := by
    intro hno t h1 h2 h3
    have hn : ∀ m, ¬ f.Hits R s.grid mk z m := by
      rintro m ⟨a, b⟩
      rcases hno with h | h
      · exact h a
      · exact h m b
    refine ⟨h1, fun m => ?_, fun h => h2 ▸ h, fun m hm => ?_⟩
    · rw [h2]; exact ⟨Or.inl, fun h => h.elim id fun h => absurd h (hn m)⟩
    · rw [h3 m hm, if_neg (hn m)]; rfl
  cases f with
  | wire bp ep m1 m2 w =>
    simp only [markFig]
    by_cases hR : (R.containsPt bp && R.containsPt ep) = true
    · rw [if_pos hR]
      have hmv : (HFig.wire bp ep m1 m2 w).Movable R := by
        rw [Bool.and_eq_true, containsPt_has, containsPt_has] at hR; exact hR
      obtain ⟨a, _, b, c, d⟩ := markWires (wireNodes s.grid mk m1 m2 w) s hon
      refine ⟨a, fun m => ?_, c, fun m hm => ?_⟩
      · rw [b]; exact or_congr_right ⟨fun h => ⟨hmv, h⟩, fun h => h.2⟩
      · rw [d m _ hm, if_pos rfl, count_nodup (wireNodes_nodup _ _ _ _ _)]
        congr 1
        by_cases q : m ∈ wireNodes s.grid mk m1 m2 w
        · rw [if_pos q, if_pos ⟨hmv, q⟩]
        · rw [if_neg q, if_neg (fun h => q h.2)]
    · rw [if_neg hR]
      refine stay (Or.inl fun h => hR ?_) s (hgrid_refl _) rfl (fun _ _ => rfl)
      rw [Bool.and_eq_true, containsPt_has, containsPt_has]; exact h
  | via o net n =>
    have nov : ∀ m, m ∉ (HFig.via o net n).nodes s.grid mk z := fun m h => by cases h
    simp only [markFig]
    by_cases hR : R.containsPt o = true
    · rw [if_pos hR]
      by_cases h1 : net ∈ vio
      · rw [if_pos h1]; exact stay (Or.inr nov) s (hgrid_refl _) rfl (fun _ _ => rfl)
      · rw [if_neg h1]
        by_cases h2 : n ∈ s.via
        · rw [if_pos h2]; exact stay (Or.inr nov) s (hgrid_refl _) rfl (fun _ _ => rfl)
        · rw [if_neg h2]
          refine stay (Or.inr nov) (s.markVia n) ⟨rfl, rfl, rfl⟩ rfl (fun m hm => ?_)
          exact (addV_attr _ _ _ _ hp hm).trans (if_neg (fun e => by simp at e))
    · rw [if_neg hR]; exact stay (Or.inr nov) s (hgrid_refl _) rfl (fun _ _ => rfl)
  | patch o box =>
    simp only [markFig]
    by_cases hR : R.containsPt o = true
    · rw [if_pos hR]
      have hmv : (HFig.patch o box).Movable R := containsPt_has.1 hR
      obtain ⟨a, _, b, c, d⟩ := markPatches (patchNodes s.grid box z) s hon
      refine ⟨a, fun m => ?_, c, fun m hm => ?_⟩
      · rw [b]; exact or_congr_right ⟨fun h => ⟨hmv, h⟩, fun h => h.2⟩
      · rw [d m _ hm, if_pos rfl, count_nodup (patchNodes_nodup _ _ _)]
        congr 1
        by_cases q : m ∈ patchNodes s.grid box z
        · rw [if_pos q, if_pos ⟨hmv, q⟩]
        · rw [if_neg q, if_neg (fun h => q h.2)]
    · rw [if_neg hR]
      refine stay (Or.inl fun h => hR (containsPt_has.2 h)) s (hgrid_refl _) rfl (fun _ _ => rfl)

theorem hits_same {g g' : Grid} (h : SameGrid g g') (R mk : Box) (z : Int) (m : MIdx) (f : HFig) :
    f.Hits R g' mk z m ↔ f.Hits R g mk z m := by
  unfold HFig.Hits; rw [sameGrid_nodes h]

theorem markFigs_wires {R mk : Box} {z : Int} (hmk : mk.Proper) (l : List HFig) : ∀ (st : HState × List Nat), st.1.grid.Sorted →
    (∀ f ∈ l, f.Placed st.1.grid z) →
    SameGrid st.1.grid (l.foldl (markFig R mk z) st).1.grid ∧
    (∀ m, m ∈ (l.foldl (markFig R mk z) st).1.planar ↔ m ∈ st.1.planar ∨ ∃ f ∈ l, f.Hits R st.1.grid mk z m) ∧
    (st.1.planar.Nodup → (l.foldl (markFig R mk z) st).1.planar.Nodup) ∧
    ∀ m, st.1.grid.On m → (l.foldl (markFig R mk z) st).1.grid.attr m .markP =
      raiseN (l.countP fun f => decide (f.Hits R st.1.grid mk z m)) (st.1.grid.attr m .markP) := by
  induction l with
  | nil =>
    intro st _ _
    exact ⟨hgrid_refl _, fun m => by simp, id, fun m _ => rfl⟩
  | cons f l ih =>
    intro st hs hp
    rcases st with ⟨s, vio⟩
    obtain ⟨a1, a2, a3, a4⟩ := markFig_wires (R := R) (vio := vio) hs hmk (hp f (by simp))
    obtain ⟨b1, b2, b3, b4⟩ := ih (markFig R mk z (s, vio) f) (sameGrid_sorted a1 hs)
      (fun k hk => sameGrid_placed a1 (hp k (by simp [hk])))
    rw [List.foldl_cons]
    refine ⟨hgrid_trans a1 b1, fun m => ?_, fun h => b3 (a3 h), fun m hm => ?_⟩
    · rw [b2, a2, or_assoc]
      refine or_congr_right ?_
      simp only [List.mem_cons, exists_eq_or_imp]
      refine or_congr_right (exists_congr fun k => and_congr_right fun _ => hits_same a1 R mk z m k)
    · rw [b4 m ((sameGrid_on a1 m).2 hm), a4 m hm, ← raiseN_add, List.countP_cons]
      congr 1
      rw [Nat.add_comm]
      congr 1
      · congr 1; funext k
        exact decide_eq_decide.2 (hits_same a1 R mk z m k)
      · by_cases q : f.Hits R s.grid mk z m <;> simp [q]

/-! ### vias -/

/-- some movable via of the net among `L` is remembered -/
def NetRemembered (R : Box) (L : List HFig) (s : HState) (net : Nat) : Prop :=
  ∃ o m, HFig.via o net m ∈ L ∧ R.Has o ∧ m ∈ s.via

theorem foldl_via (f : HState → MIdx → HState) (h : ∀ s n, (f s n).via = s.via) (l : List MIdx) : ∀ s, (l.foldl f s).via = s.via := by
  induction l with
  | nil => intro s; rfl
  | cons n l ih => intro s; rw [List.foldl_cons, ih, h]

theorem markFig_via {R mk : Box} {z : Int} (L : List HFig) (st : HState × List Nat) (f : HFig) (hf : f ∈ L)
    (h : ∀ net ∈ st.2, NetRemembered R L st.1 net) :
    (∀ net ∈ (markFig R mk z st f).2, NetRemembered R L (markFig R mk z st f).1 net) ∧
    (∀ m ∈ st.1.via, m ∈ (markFig R mk z st f).1.via) ∧
    (∀ o net m, f = .via o net m → R.Has o → NetRemembered R L (markFig R mk z st f).1 net) ∧
    (∀ m ∈ (markFig R mk z st f).1.via, m ∈ st.1.via ∨ ∃ o net, HFig.via o net m ∈ L ∧ R.Has o) ∧
    (st.1.via.Nodup → (markFig R mk z st f).1.via.Nodup) := by
  cases f with
  | wire bp ep m1 m2 w =>
    simp only [markFig]
    by_cases hR : (R.containsPt bp && R.containsPt ep) = true
    · rw [if_pos hR]
      have e := foldl_via HState.markWire (fun _ _ => rfl) (wireNodes st.1.grid mk m1 m2 w) st.1
      refine ⟨fun net hn => ?_, fun m hm => by rw [e]; exact hm, fun _ _ _ q => (by cases q), fun m hm => Or.inl (by rw [e] at hm; exact hm),
        fun hn => by rw [e]; exact hn⟩
      obtain ⟨o, m, a, b, c⟩ := h net hn
      exact ⟨o, m, a, b, by rw [e]; exact c⟩
    · rw [if_neg hR]
      exact ⟨h, fun m hm => hm, fun _ _ _ q => (by cases q), fun m hm => Or.inl hm, id⟩
  | via o net n =>
    simp only [markFig]
    by_cases hR : R.containsPt o = true
    · rw [if_pos hR]
      have hR' := containsPt_has.1 hR
      by_cases h1 : net ∈ st.2
      · rw [if_pos h1]
        refine ⟨h, fun m hm => hm, fun o' net' m' q _ => ?_, fun m hm => Or.inl hm, id⟩
        cases q
        exact h net h1
      · rw [if_neg h1]
        by_cases h2 : n ∈ st.1.via
        · rw [if_pos h2]
          refine ⟨h, fun m hm => hm, fun o' net' m' q _ => ?_, fun m hm => Or.inl hm, id⟩
          cases q
          exact ⟨o, n, hf, hR', h2⟩
        · rw [if_neg h2]
          have hin : n ∈ (st.1.markVia n).via := (mem_insNode _ _ _).2 (Or.inr rfl)
          have up : ∀ m ∈ st.1.via, m ∈ (st.1.markVia n).via := fun m hm => (mem_insNode _ _ _).2 (Or.inl hm)
          refine ⟨fun k hk => ?_, up, fun o' net' m' q _ => ?_, fun m hm => ?_, fun hn => insNode_nodup hn n⟩
          · rcases List.mem_cons.1 hk with rfl | hk
            · exact ⟨o, n, hf, hR', hin⟩
            · obtain ⟨o', m', a, b, c⟩ := h k hk
              exact ⟨o', m', a, b, up _ c⟩
          · cases q
            exact ⟨o, n, hf, hR', hin⟩
          · rcases (mem_insNode _ _ _).1 hm with hm | rfl
            · exact Or.inl hm
            · exact Or.inr ⟨o, net, hf, hR'⟩
    · rw [if_neg hR]
      refine ⟨h, fun m hm => hm, fun o' net' m' q hR' => ?_, fun m hm => Or.inl hm, id⟩
      cases q
      exact absurd (containsPt_has.2 hR') hR
  | patch o box =>
    simp only [markFig]
    by_cases hR : R.containsPt o = true
    · rw [if_pos hR]
      have e := foldl_via HState.markPatch (fun _ _ => rfl) (patchNodes st.1.grid box z) st.1
      refine ⟨fun net hn => ?_, fun m hm => by rw [e]; exact hm, fun _ _ _ q => (by cases q), fun m hm => Or.inl (by rw [e] at hm; exact hm),
        fun hn => by rw [e]; exact hn⟩
      obtain ⟨o, m, a, b, c⟩ := h net hn
      exact ⟨o, m, a, b, by rw [e]; exact c⟩
    · rw [if_neg hR]
      exact ⟨h, fun m hm => hm, fun _ _ _ q => (by cases q), fun m hm => Or.inl hm, id⟩

theorem markFigs_via {R mk : Box} {z : Int} (L l : List HFig) : ∀ (st : HState × List Nat), (∀ f ∈ l, f ∈ L) →
    (∀ net ∈ st.2, NetRemembered R L st.1 net) →
    (∀ m ∈ st.1.via, m ∈ (l.foldl (markFig R mk z) st).1.via) ∧
    (∀ o net m, HFig.via o net m ∈ l → R.Has o → NetRemembered R L (l.foldl (markFig R mk z) st).1 net) ∧
    (∀ m ∈ (l.foldl (markFig R mk z) st).1.via, m ∈ st.1.via ∨ ∃ o net, HFig.via o net m ∈ L ∧ R.Has o) ∧
    (st.1.via.Nodup → (l.foldl (markFig R mk z) st).1.via.Nodup) := by
  induction l with
  | nil => intro st _ _; exact ⟨fun m hm => hm, fun _ _ _ h => (by cases h), fun m hm => Or.inl hm, id⟩
  | cons f l ih =>
    intro st hl hv
    obtain ⟨a1, a2, a3, a4, a5⟩ := markFig_via (mk := mk) (z := z) L st f (hl f (by simp)) hv
    obtain ⟨b1, b2, b3, b4⟩ := ih (markFig R mk z st f) (fun k hk => hl k (by simp [hk])) a1
    rw [List.foldl_cons]
    refine ⟨fun m hm => b1 m (a2 m hm), fun o net m hm hR => ?_, fun m hm => ?_, fun h => b4 (a5 h)⟩
    · rcases List.mem_cons.1 hm with rfl | hm
      · obtain ⟨o', m', x, y, w⟩ := a3 o net m rfl hR
        exact ⟨o', m', x, y, b1 _ w⟩
      · exact b2 o net m hm hR
    · rcases b3 m hm with h | h
      · exact a4 m h
      · exact Or.inr h

/-- without patches, the via counters of exactly the newly remembered nodes are raised -/
theorem markFigs_vcount {R mk : Box} {z : Int} (s0 : HState) (hs : s0.grid.Sorted) (hmk : mk.Proper) (l : List HFig) : ∀ (st : HState × List Nat),
    SameGrid s0.grid st.1.grid → (∀ f ∈ l, f.Placed s0.grid z) → (∀ f ∈ l, ∀ o b, f ≠ .patch o b) → (∀ m ∈ s0.via, m ∈ st.1.via) →
    (∀ m, s0.grid.On m → st.1.grid.attr m .markV = if m ∈ st.1.via ∧ m ∉ s0.via then raise (s0.grid.attr m .markV) else s0.grid.attr m .markV) →
    ∀ m, s0.grid.On m → (l.foldl (markFig R mk z) st).1.grid.attr m .markV =
      if m ∈ (l.foldl (markFig R mk z) st).1.via ∧ m ∉ s0.via then raise (s0.grid.attr m .markV) else s0.grid.attr m .markV := by
  induction l with
  | nil => intro st _ _ _ _ h; exact h
  | cons f l ih =>
    intro st hg hp hnp hsub hc
    have hpf := sameGrid_placed hg (hp f (by simp))
    have h1 := (markFig_wires (R := R) (vio := st.2) (mk := mk) (sameGrid_sorted hg hs) hmk hpf).1
    rw [List.foldl_cons]
    have sub' : ∀ m ∈ st.1.via, m ∈ (markFig R mk z st f).1.via := by
      intro m hm
      cases f with
      | wire bp ep m1 m2 w =>
        simp only [markFig]
        split
        · rw [foldl_via HState.markWire (fun _ _ => rfl)]; exact hm
        · exact hm
      | via o net n =>
        simp only [markFig]
        split
        · split
          · exact hm
          · split
            · exact hm
            · exact (mem_insNode _ _ _).2 (Or.inl hm)
        · exact hm
      | patch o b => exact absurd rfl (hnp _ (by simp) o b)
    refine ih (markFig R mk z st f) (hgrid_trans hg h1) (fun k hk => hp k (by simp [hk])) (fun k hk => hnp k (by simp [hk]))
      (fun m hm => sub' m (hsub m hm)) (fun m hm => ?_)
    have hm' := (sameGrid_on hg m).2 hm
    cases f with
    | wire bp ep m1 m2 w =>
      simp only [markFig]
      split
      · have hon := placed_nodes (mk := mk) (sameGrid_sorted hg hs) hmk hpf
        have q := (markWires _ st.1 hon).2.2.2.2 m .markV hm'
        rw [if_neg (by simp)] at q
        rw [foldl_via HState.markWire (fun _ _ => rfl)]
        exact q.trans (hc m hm)
      · exact hc m hm
    | via o net n =>
      simp only [markFig]
      split
      · split
        · exact hc m hm
        · split
          · exact hc m hm
          · rename_i hnv
            refine (addV_attr _ _ _ _ hpf hm').trans ?_
            have mi : m ∈ (st.1.markVia n).via ↔ m ∈ st.1.via ∨ m = n := mem_insNode _ _ _
            by_cases e : m = n
            · subst e
              rw [if_pos ⟨rfl, rfl⟩, hc m hm, if_neg (fun q => hnv q.1), if_pos ⟨mi.2 (Or.inr rfl), fun q => hnv (hsub m q)⟩]
            · rw [if_neg (fun q => e q.1), hc m hm]
              by_cases q : m ∈ st.1.via
              · simp [mi, q]
              · simp [mi, q, e]
      · exact hc m hm
    | patch o b => exact absurd rfl (hnp _ (by simp) o b)

/-! ### fading -/

theorem fadeWires (l : List MIdx) : ∀ (s : HState), l.Nodup → s.planar.Nodup → (∀ n ∈ l, s.grid.On n) →
    SameGrid s.grid (l.foldl HState.fadePlanar s).grid ∧ (l.foldl HState.fadePlanar s).via = s.via ∧
    (l.foldl HState.fadePlanar s).planar.Nodup ∧
    (∀ m, m ∈ (l.foldl HState.fadePlanar s).planar ↔ m ∈ s.planar ∧ ¬ (m ∈ l ∧ s.grid.attr m .markP * 4 / 5 = 0)) ∧
    ∀ m b, s.grid.On m → (l.foldl HState.fadePlanar s).grid.attr m b =
      if m ∈ l ∧ b = .markP then s.grid.attr m .markP * 4 / 5 else s.grid.attr m b := by
  induction l with
  | nil => intro s _ hn _; exact ⟨hgrid_refl _, rfl, hn, fun m => by simp, fun m b _ => by simp⟩
  | cons n l ih =>
    intro s hl hn hon
    rw [List.nodup_cons] at hl
    have on1 := hon n (by simp)
    have hg : SameGrid s.grid (s.fadePlanar n).grid := ⟨rfl, rfl, rfl⟩
    have hpn : (s.fadePlanar n).planar.Nodup := by
      unfold HState.fadePlanar; dsimp only
      split
      · exact hn.erase n
      · exact hn
    have hattr : ∀ m b, s.grid.On m → (s.fadePlanar n).grid.attr m b = if m = n ∧ b = .markP then s.grid.attr n .markP * 4 / 5 else s.grid.attr m b :=
      fun m b hm => fadeP_attr s.grid n m b on1 hm
    have hmem : ∀ m, m ∈ (s.fadePlanar n).planar ↔ m ∈ s.planar ∧ ¬ (m = n ∧ s.grid.attr m .markP * 4 / 5 = 0) := by
      intro m
      unfold HState.fadePlanar; dsimp only
      rw [fadeP_flag]
      by_cases q : s.grid.attr n .markP * 4 / 5 = 0
      · rw [decide_eq_true q, if_pos rfl, hn.mem_erase_iff]
        constructor
        · rintro ⟨a, b⟩; exact ⟨b, fun e => a e.1⟩
        · rintro ⟨a, b⟩; exact ⟨fun e => b ⟨e, e ▸ q⟩, a⟩
      · rw [decide_eq_false q, if_neg (by simp)]
        exact ⟨fun h => ⟨h, fun e => q (e.1 ▸ e.2)⟩, fun h => h.1⟩
    obtain ⟨i1, i2, i3, i4, i5⟩ := ih (s.fadePlanar n) hl.2 hpn (fun k hk => (sameGrid_on hg k).2 (hon k (by simp [hk])))
    rw [List.foldl_cons]
    refine ⟨hgrid_trans hg i1, i2, i3, fun m => ?_, fun m b hm => ?_⟩
    · rw [i4, hmem]
      by_cases e : m = n
      · subst e
        simp [hl.1]
      · by_cases q : m ∈ l
        · have hmo := hon m (by simp [q])
          rw [hattr m _ hmo, if_neg (fun h => e h.1)]
          simp [e, q]
        · simp [e, q]
    · rw [i5 m b ((sameGrid_on hg m).2 hm), hattr m _ hm, hattr m _ hm]
      by_cases e : m = n
      · subst e; simp [hl.1]
      · simp [e]

theorem fadeVias (l : List MIdx) : ∀ (s : HState), l.Nodup → s.via.Nodup → (∀ n ∈ l, s.grid.On n) →
    SameGrid s.grid (l.foldl HState.fadeVia s).grid ∧ (l.foldl HState.fadeVia s).planar = s.planar ∧
    (l.foldl HState.fadeVia s).via.Nodup ∧
    (∀ m, m ∈ (l.foldl HState.fadeVia s).via ↔ m ∈ s.via ∧ ¬ (m ∈ l ∧ s.grid.attr m .markV * 4 / 5 = 0)) ∧
    ∀ m b, s.grid.On m → (l.foldl HState.fadeVia s).grid.attr m b =
      if m ∈ l ∧ b = .markV then s.grid.attr m .markV * 4 / 5 else s.grid.attr m b := by
  induction l with
  | nil => intro s _ hn _; exact ⟨hgrid_refl _, rfl, hn, fun m => by simp, fun m b _ => by simp⟩
  | cons n l ih =>
    intro s hl hn hon
    rw [List.nodup_cons] at hl
    have on1 := hon n (by simp)
    have hg : SameGrid s.grid (s.fadeVia n).grid := ⟨rfl, rfl, rfl⟩
    have hpn : (s.fadeVia n).via.Nodup := by
      unfold HState.fadeVia; dsimp only
      split
      · exact hn.erase n
      · exact hn
    have hattr : ∀ m b, s.grid.On m → (s.fadeVia n).grid.attr m b = if m = n ∧ b = .markV then s.grid.attr n .markV * 4 / 5 else s.grid.attr m b :=
      fun m b hm => fadeV_attr s.grid n m b on1 hm
    have hmem : ∀ m, m ∈ (s.fadeVia n).via ↔ m ∈ s.via ∧ ¬ (m = n ∧ s.grid.attr m .markV * 4 / 5 = 0) := by
      intro m
      unfold HState.fadeVia; dsimp only
      rw [fadeV_flag]
      by_cases q : s.grid.attr n .markV * 4 / 5 = 0
      · rw [decide_eq_true q, if_pos rfl, hn.mem_erase_iff]
        constructor
        · rintro ⟨a, b⟩; exact ⟨b, fun e => a e.1⟩
        · rintro ⟨a, b⟩; exact ⟨fun e => b ⟨e, e ▸ q⟩, a⟩
      · rw [decide_eq_false q, if_neg (by simp)]
        exact ⟨fun h => ⟨h, fun e => q (e.1 ▸ e.2)⟩, fun h => h.1⟩
    obtain ⟨i1, i2, i3, i4, i5⟩ := ih (s.fadeVia n) hl.2 hpn (fun k hk => (sameGrid_on hg k).2 (hon k (by simp [hk])))
    rw [List.foldl_cons]
    refine ⟨hgrid_trans hg i1, i2, i3, fun m => ?_, fun m b hm => ?_⟩
    · rw [i4, hmem]
      by_cases e : m = n
      · subst e
        simp [hl.1]
      · by_cases q : m ∈ l
        · have hmo := hon m (by simp [q])
          rw [hattr m _ hmo, if_neg (fun h => e h.1)]
          simp [e, q]
        · simp [e, q]
    · rw [i5 m b ((sameGrid_on hg m).2 hm), hattr m _ hm, hattr m _ hm]
      by_cases e : m = n
      · subst e; simp [hl.1]
      · simp [e]

end TR
