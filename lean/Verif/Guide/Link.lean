import Verif.Guide.IvLemmas
import Verif.Conn.CleanLemmas
/-! Cells, moves, and the effect of touching guides. -/
namespace TR
variable {T : GuideTech}

theorem cell_layer (l t x : Int) : (T.cell l t x).layer = l := by unfold GuideTech.cell; split <;> rfl
theorem cell_track (l t x : Int) : T.track (T.cell l t x) = t := by
  unfold GuideTech.track; rw [cell_layer]; unfold GuideTech.cell; split <;> rfl
theorem cell_pos (l t x : Int) : T.pos (T.cell l t x) = x := by
  unfold GuideTech.pos; rw [cell_layer]; unfold GuideTech.cell; split <;> rfl
theorem cell_eta (n : Node) : T.cell n.layer (T.track n) (T.pos n) = n := by
  obtain ⟨⟨x, y⟩, l⟩ := n
  unfold GuideTech.cell GuideTech.track GuideTech.pos
  simp only
  split <;> rfl

/-- the same GCell one routing layer up: track and position are exchanged -/
theorem cell_up (ha : T.Alternates) (l t x : Int) : T.cell (l + 2) x t = ⟨(T.cell l t x).pt, l + 2⟩ := by
  unfold GuideTech.cell
  rw [ha l]
  cases T.horz l <;> simp

theorem track_up (ha : T.Alternates) (n : Node) : T.track ⟨n.pt, n.layer + 2⟩ = T.pos n ∧ T.pos ⟨n.pt, n.layer + 2⟩ = T.track n := by
  unfold GuideTech.track GuideTech.pos
  simp only
  rw [ha n.layer]
  cases T.horz n.layer <;> simp

theorem track_down (ha : T.Alternates) (n : Node) : T.track ⟨n.pt, n.layer - 2⟩ = T.pos n ∧ T.pos ⟨n.pt, n.layer - 2⟩ = T.track n := by
  unfold GuideTech.track GuideTech.pos
  simp only
  have := ha (n.layer - 2)
  rw [show n.layer - 2 + 2 = n.layer by omega] at this
  rw [this]
  cases T.horz (n.layer - 2) <;> simp

theorem CellStep.symm {lat : Int → Prop} (a b : Node) (h : CellStep T lat a b) : CellStep T lat b a := by
  rcases h with ⟨h1, h2, h3, h4⟩ | ⟨h1, h2⟩
  · exact .inl ⟨h1.symm, h1 ▸ h2, h3.symm, h4.symm⟩
  · exact .inr ⟨h1.symm, h2.symm⟩

/-- moving along a track through cells of `K` -/
theorem lateral_chain {lat : Int → Prop} {K : Node → Prop} {l t : Int} (hl : lat l) (d : Nat) : ∀ (x : Int),
    (∀ z, x ≤ z → z ≤ x + d → K (T.cell l t z)) → Chain (CellStep T lat) K (T.cell l t x) (T.cell l t (x + d)) := by
  induction d with
  | zero => intro x h; rw [show x + ((0 : Nat) : Int) = x by simp]; exact .refl (h x (by omega) (by omega))
  | succ d ih =>
    intro x h
    refine .step (ih x (fun z h1 h2 => h z h1 (by omega))) ?_ (h _ (by omega) (by omega))
    left
    rw [cell_layer, cell_layer, cell_track, cell_track, cell_pos, cell_pos]
    exact ⟨rfl, hl, rfl, .inl (by omega)⟩

theorem lateral_chain' {lat : Int → Prop} {K : Node → Prop} {l t : Int} (hl : lat l) {lo hi : Int}
    (hK : ∀ z, lo ≤ z → z ≤ hi → K (T.cell l t z)) {x y : Int} (hx : lo ≤ x) (hx' : x ≤ hi) (hy : lo ≤ y) (hy' : y ≤ hi) :
    Chain (CellStep T lat) K (T.cell l t x) (T.cell l t y) := by
  by_cases h : x ≤ y
  · have := lateral_chain (T := T) (K := K) (t := t) hl (y - x).toNat x (fun z h1 h2 => hK z (by omega) (by omega))
    rw [show x + (((y - x).toNat : Nat) : Int) = y by omega] at this
    exact this
  · have := lateral_chain (T := T) (K := K) (t := t) hl (x - y).toNat y (fun z h1 h2 => hK z (by omega) (by omega))
    rw [show y + (((x - y).toNat : Nat) : Int) = x by omega] at this
    exact this.symm CellStep.symm

theorem covered_cell {iv : Intvs} {l : Int} {k : Int × IvSet} (hk : k ∈ iv l) {i : Int × Int} (hi : i ∈ k.2) {z : Int}
    (h1 : i.1 ≤ z) (h2 : z ≤ i.2) : Covered T iv (T.cell l k.1 z) := by
  refine ⟨k, ?_, ?_, i, hi, ?_⟩
  · rw [cell_layer]; exact hk
  · rw [cell_track]
  · rw [cell_pos]; exact ⟨h1, h2⟩

theorem mem_allTouches {iv : Intvs} (hok : iv.Ok) (y : Option (Option Touch1)) : y ∈ allTouches T iv ↔
    ∃ (l : Nat), l < T.nLayers ∧ ∃ p ∈ iv l, ∃ x ∈ iv l, x.1 = p.1 + 1 ∧ ∃ i ∈ ivMeet x.2 p.2, y = touchOne T iv l p.1 x.1 i := by
  unfold allTouches
  rw [List.mem_flatMap]
  constructor
  · rintro ⟨l, hl, hy⟩
    obtain ⟨p, x, i, h1, h2, h3, h4, h5⟩ := mem_touchWalk T iv _ _ none y hy
    rcases h1 with h1 | h1
    · exact ⟨l, List.mem_range.1 hl, p, h1, x, h2, h3, i, h4, h5⟩
    · simp at h1
  · rintro ⟨l, hl, p, hp, x, hx, he, i, hi, rfl⟩
    exact ⟨l, List.mem_range.2 hl, touchWalk_complete T iv l _ none (hok l).1 (by simp) p x i (.inl hp) hx he hi⟩

theorem crosses_iff (m : TMap) (b e : Int) (xs : List Int) : crosses m b e xs = true ↔
    ∃ k ∈ m, b ≤ k.1 ∧ k.1 ≤ e ∧ ∀ x ∈ xs, ∃ i ∈ k.2, i.1 ≤ x ∧ x ≤ i.2 := by
  unfold crosses
  rw [List.any_eq_true]
  constructor
  · rintro ⟨k, hk, h⟩
    simp only [Bool.and_eq_true, decide_eq_true_eq, List.all_eq_true] at h
    exact ⟨k, hk, h.1.1, h.1.2, fun x hx => (ivHas_iff _ _).1 (h.2 x hx)⟩
  · rintro ⟨k, hk, h1, h2, h3⟩
    refine ⟨k, hk, ?_⟩
    simp only [Bool.and_eq_true, decide_eq_true_eq, List.all_eq_true]
    exact ⟨⟨h1, h2⟩, fun x hx => (ivHas_iff _ _).2 (h3 x hx)⟩

/-- every added cell lies directly above or below a guide -/
theorem touch_cells (ha : T.Alternates) {iv : Intvs} (hok : iv.Ok) {t : Touch1} (ht : some (some t) ∈ allTouches T iv) {n : Node}
    (h1 : n.layer = t.l) (h2 : T.track n = t.t) (h3 : t.b ≤ T.pos n) (h4 : T.pos n ≤ t.e) :
    Covered T iv ⟨n.pt, n.layer - 2⟩ ∨ Covered T iv ⟨n.pt, n.layer + 2⟩ := by
  obtain ⟨l, hl, p, hp, x, hx, he, i, hi, hy⟩ := (mem_allTouches hok _).1 ht
  obtain ⟨a, ha', b, hb, hab, rfl⟩ := (mem_ivMeet _ _ _).1 hi
  have hcov : ∀ z, z = p.1 ∨ z = x.1 → Covered T iv (T.cell l z (max a.1 b.1)) := by
    intro z hz
    rcases hz with rfl | rfl
    · exact covered_cell hp hb (by omega) (by omega)
    · exact covered_cell hx ha' (by omega) (by omega)
  unfold touchOne at hy
  simp only at hy
  split at hy
  · simp at hy
  · split at hy
    · simp at hy
      subst hy
      simp only at *
      left
      have hd := track_down ha n
      have : (⟨n.pt, n.layer - 2⟩ : Node) = T.cell (n.layer - 2) (T.pos n) (T.track n) := by
        rw [← cell_eta (T := T) ⟨n.pt, n.layer - 2⟩, hd.1, hd.2]
      rw [this, h2, h1, show (l : Int) + 2 - 2 = l by omega]
      exact hcov _ (by omega)
    · split at hy
      · simp at hy
        subst hy
        simp only at *
        right
        have hd := track_up ha n
        have : (⟨n.pt, n.layer + 2⟩ : Node) = T.cell (n.layer + 2) (T.pos n) (T.track n) := by
          rw [← cell_eta (T := T) ⟨n.pt, n.layer + 2⟩, hd.1, hd.2]
        rw [this, h2, h1, show (l : Int) - 2 + 2 = l by omega]
        exact hcov _ (by omega)
      · simp at hy

/-- crossing from track `p` to track `p + 1` of layer `l` over a track `k` of layer `l ± 2` -/
theorem cross_chain (ha : T.Alternates) {C : Node → Prop} {l l' p k : Int} (hl' : l' = l + 2 ∨ l = l' + 2)
    (h1 : C (T.cell l p k)) (h2 : C (T.cell l (p + 1) k))
    (h3 : C (T.cell l' k p)) (h4 : C (T.cell l' k (p + 1))) :
    Chain (CellStep T (fun _ => True)) C (T.cell l p k) (T.cell l (p + 1) k) := by
  have hpt : ∀ z, (T.cell l z k).pt = (T.cell l' k z).pt := by
    intro z
    rcases hl' with rfl | rfl
    · have := cell_up ha l z k; rw [this]
    · have := cell_up ha l' k z; rw [this]
  have hv : ∀ z, CellStep T (fun _ => True) (T.cell l z k) (T.cell l' k z) := by
    intro z
    right
    rw [cell_layer, cell_layer]
    exact ⟨hpt z, by omega⟩
  refine .step (.step (.step (.refl h1) (hv p) h3) ?_ h4) ((hv (p + 1)).symm) h2
  left
  rw [cell_layer, cell_layer, cell_track, cell_track, cell_pos, cell_pos]
  exact ⟨rfl, trivial, rfl, .inl rfl⟩

/-- after merging, two guides of a layer that touch across tracks are connected by legal moves -/
theorem touching_connected (ha : T.Alternates) {idxOf : Point → Point} {rects : List GuideRect} {iv : Intvs}
    (h : mergeGuides T idxOf rects = some iv) {l : Nat} (hl : l < T.nLayers) {p x : Int}
    (h1 : Covered T (baseIntvs T idxOf rects) (T.cell l p x))
    (h2 : Covered T (baseIntvs T idxOf rects) (T.cell l (p + 1) x)) :
    Chain (CellStep T (fun _ => True)) (GuideCell T iv) (T.cell l p x) (T.cell l (p + 1) x) := by
  obtain ⟨hok, hnn, hcov⟩ := merge_spec h
  obtain ⟨bok, bcov⟩ := base_spec T idxOf rects
  have hsub : ∀ n, Covered T (baseIntvs T idxOf rects) n → Covered T iv n := by
    intro n hn; exact (hcov n).2 (.inr ((bcov n).1 hn))
  obtain ⟨kp, hkp, ep, ip, hip, b1, b2⟩ := h1
  obtain ⟨kx, hkx, ex, ix, hix, c1, c2⟩ := h2
  rw [cell_layer] at hkp hkx
  rw [cell_track] at ep ex
  rw [cell_pos] at b1 b2 c1 c2
  have hmeet : (max ix.1 ip.1, min ix.2 ip.2) ∈ ivMeet kx.2 kp.2 :=
    (mem_ivMeet _ _ _).2 ⟨ix, hix, ip, hip, by omega, rfl⟩
  have hm := (mem_allTouches (T := T) bok _).2 ⟨l, hl, kp, hkp, kx, hkx, by omega, _, hmeet, rfl⟩
  -- both tracks are covered over the whole common interval
  have cp : ∀ z, max ix.1 ip.1 ≤ z → z ≤ min ix.2 ip.2 → GuideCell T iv (T.cell l p z) := by
    intro z g1 g2; refine ⟨by rw [cell_layer]; omega, by rw [cell_layer]; omega, ?_⟩; rw [← ep]; exact hsub _ (covered_cell hkp hip (by omega) (by omega))
  have cx : ∀ z, max ix.1 ip.1 ≤ z → z ≤ min ix.2 ip.2 → GuideCell T iv (T.cell l (p + 1) z) := by
    intro z g1 g2; refine ⟨by rw [cell_layer]; omega, by rw [cell_layer]; omega, ?_⟩; rw [← ex]; exact hsub _ (covered_cell hkx hix (by omega) (by omega))
  have finish : ∀ k l', max ix.1 ip.1 ≤ k → k ≤ min ix.2 ip.2 → (l' = (l : Int) + 2 ∨ (l : Int) = l' + 2) → 0 ≤ l' → l' < T.nLayers →
      Covered T iv (T.cell l' k p) → Covered T iv (T.cell l' k (p + 1)) →
      Chain (CellStep T (fun _ => True)) (GuideCell T iv) (T.cell l p x) (T.cell l (p + 1) x) := by
    intro k l' g1 g2 hl' n1 n2 g3 g4
    have r1 := lateral_chain' (T := T) (lat := fun _ => True) (l := (l : Int)) (t := p) trivial cp (x := x) (y := k) (by omega) (by omega) g1 g2
    have r2 := cross_chain ha hl' (cp k g1 g2) (cx k g1 g2) (C := GuideCell T iv)
      ⟨by rw [cell_layer]; omega, by rw [cell_layer]; omega, g3⟩ ⟨by rw [cell_layer]; omega, by rw [cell_layer]; omega, g4⟩
    have r3 := lateral_chain' (T := T) (lat := fun _ => True) (l := (l : Int)) (t := p + 1) trivial cx (x := k) (y := x) g1 g2 (by omega) (by omega)
    exact (r1.trans r2).trans r3
  unfold touchOne at hm
  simp only at hm
  split at hm
  · rename_i hlu
    simp only [Bool.or_eq_true, Bool.and_eq_true, decide_eq_true_eq, crosses_iff] at hlu
    have use : ∀ l', (l' = (l : Int) + 2 ∨ (l : Int) = l' + 2) → 0 ≤ l' → l' < T.nLayers →
        (∃ k ∈ baseIntvs T idxOf rects l', max ix.1 ip.1 ≤ k.1 ∧ k.1 ≤ min ix.2 ip.2 ∧
          ∀ z ∈ [kx.1, kp.1], ∃ i ∈ k.2, i.1 ≤ z ∧ z ≤ i.2) →
        Chain (CellStep T (fun _ => True)) (GuideCell T iv) (T.cell l p x) (T.cell l (p + 1) x) := by
      rintro l' hl' n1 n2 ⟨k, hk, g1, g2, g3⟩
      obtain ⟨i, hi, i1, i2⟩ := g3 kp.1 (by simp)
      obtain ⟨j, hj, j1, j2⟩ := g3 kx.1 (by simp)
      refine finish k.1 l' g1 g2 hl' n1 n2 (hsub _ (covered_cell hk hi ?_ ?_)) (hsub _ (covered_cell hk hj ?_ ?_)) <;> omega
    rcases hlu with ⟨hb, hlu⟩ | ⟨hb, hlu⟩
    · exact use _ (by omega) (by omega) (by omega) hlu
    · exact use _ (by omega) (by omega) (by omega) hlu
  · have add : ∀ l', (l' = (l : Int) + 2 ∨ (l : Int) = l' + 2) → 0 ≤ l' → l' < T.nLayers →
        some (some ⟨max ix.1 ip.1, kp.1, kx.1, l'⟩) ∈ allTouches T (baseIntvs T idxOf rects) →
        Chain (CellStep T (fun _ => True)) (GuideCell T iv) (T.cell l p x) (T.cell l (p + 1) x) := by
      intro l' hl' n1 n2 hm'
      have : ∀ z, kp.1 ≤ z → z ≤ kx.1 → Covered T iv (T.cell l' (max ix.1 ip.1) z) := by
        intro z z1 z2
        refine (hcov _).2 (.inl ⟨_, hm', ?_, ?_, ?_, ?_⟩)
        · rw [cell_layer]
        · rw [cell_track]
        · rw [cell_pos]; exact z1
        · rw [cell_pos]; exact z2
      exact finish (max ix.1 ip.1) l' (by omega) (by omega) hl' n1 n2 (this _ (by omega) (by omega)) (this _ (by omega) (by omega))
    split at hm
    · exact add _ (by omega) (by omega) (by omega) hm
    · split at hm
      · exact add _ (by omega) (by omega) (by omega) hm
      · exact absurd rfl (hnn _ hm)

end TR
