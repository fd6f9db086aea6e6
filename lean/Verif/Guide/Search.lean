import Verif.Guide.Split
import Verif.Conn.SearchSpec
/-! The guide graph connects exactly what the guides connect. -/
namespace TR
variable {T : GuideTech}

theorem pinLink_mono {lat : Int → Prop} {C D : Node → Prop} (h : ∀ n, C n → D n) {pins : List (List Node)} {j k : Nat}
    (hl : PinLink T lat C pins j k) : PinLink T lat D pins j k := by
  obtain ⟨ns, ms, a, b, h1, h2, h3, h4, h5⟩ := hl
  exact ⟨ns, ms, a, b, h1, h2, h3, h4, h5.widen h⟩

/-- within one guide one can move between any two cells -/
theorem seg_chain {lat : Int → Prop} {C : Node → Prop} {s : GSeg} (hlat : s.b < s.e → lat s.l) (hC : ∀ n, s.Has T n → C n)
    {a b : Node} (ha : s.Has T a) (hb : s.Has T b) : Chain (CellStep T lat) C a b := by
  obtain ⟨a1, a2, a3, a4⟩ := ha
  obtain ⟨b1, b2, b3, b4⟩ := hb
  have ea := cell_eta (T := T) a
  have eb := cell_eta (T := T) b
  rw [← a1, ← a2] at ea
  rw [← b1, ← b2] at eb
  have hK : ∀ z, s.b ≤ z → z ≤ s.e → C (T.cell s.l s.t z) := by
    intro z h1 h2
    apply hC
    refine ⟨(cell_layer _ _ _).symm, (cell_track _ _ _).symm, ?_, ?_⟩
    · rw [cell_pos]; exact h1
    · rw [cell_pos]; exact h2
  by_cases hbe : s.b < s.e
  · have := lateral_chain' (hlat hbe) hK a3 a4 b3 b4
    rw [ea, eb] at this; exact this
  · have hpos : T.pos a = T.pos b := by omega
    have : a = b := by rw [← ea, ← eb, hpos]
    rw [this]
    exact .refl (by rw [← eb]; exact hK _ b3 b4)

theorem ends_has {s : GSeg} (hs : s.b ≤ s.e) {n : Node} (h : n ∈ s.ends T) : s.Has T n := by
  simp [GSeg.ends] at h
  rcases h with rfl | rfl
  · refine ⟨(cell_layer _ _ _).symm, (cell_track _ _ _).symm, ?_, ?_⟩ <;> rw [cell_pos] <;> omega
  · refine ⟨(cell_layer _ _ _).symm, (cell_track _ _ _).symm, ?_, ?_⟩ <;> rw [cell_pos] <;> omega

/-- Soundness: indices reached within `K` are connected through cells of the guides in `K`. `S` is
the set of pins that may be left again. -/
theorem reach_sound {segs : List GSeg} {pins : List (List Node)} {ft : Bool} {lat : Int → Prop}
    (hsegs : ∀ s ∈ segs, s.b ≤ s.e ∧ (s.b < s.e → lat s.l)) {K : Nat → Prop} {S : Nat → Prop} (hS0 : S 0)
    (hS : ft = true → ∀ j k, S j → PinLink T lat (OnGuides T segs K) pins j k → S k) {x : Nat}
    (h : Within (guideAdj T segs.length ft (guideMap T segs pins)) K segs.length x) :
    (x < segs.length → ∃ j ns a, S j ∧ pins[j]? = some ns ∧ a ∈ ns ∧
      ∀ s b, segs[x]? = some s → s.Has T b → Chain (CellStep T lat) (OnGuides T segs K) a b) ∧
    (segs.length < x → ∃ j, S j ∧ PinLink T lat (OnGuides T segs K) pins j (x - segs.length)) := by
  have hs := guideMap_sorted (T := T) segs pins
  induction h with
  | refl _ => exact ⟨by omega, by omega⟩
  | @step y z hy hadj hz ih =>
    have hyK : K y := by cases hy with | refl k => exact k | step _ _ k => exact k
    have hC : ∀ i s, K i → segs[i]? = some s → ∀ n, s.Has T n → OnGuides T segs K n :=
      fun i s h1 h2 n h3 => ⟨i, s, h1, h2, h3⟩
    have seg : ∀ i, i < segs.length → ∃ s, segs[i]? = some s ∧ s.b ≤ s.e ∧ (s.b < s.e → lat s.l) := by
      intro i hi
      exact ⟨segs[i], List.getElem?_eq_getElem hi, hsegs _ (List.getElem_mem hi)⟩
    have has : ∀ i n s, segs[i]? = some s → (guideMap T segs pins).Has n i → n ∈ s.ends T := by
      intro i n s h1 h2
      rcases (guideMap_has segs pins n i).1 h2 with ⟨s', h3, h4⟩ | ⟨k, ns, h3, _⟩
      · rw [h1] at h3; simp at h3; rw [h3]; exact h4
      · have := (List.getElem?_eq_some_iff.1 h1).1; omega
    have hasPin : ∀ i n, segs.length ≤ i → (guideMap T segs pins).Has n i → ∃ ns, pins[i - segs.length]? = some ns ∧ n ∈ ns := by
      intro i n h1 h2
      rcases (guideMap_has segs pins n i).1 h2 with ⟨s', h3, h4⟩ | ⟨k, ns, h3, h4, h5⟩
      · have := (List.getElem?_eq_some_iff.1 h3).1; omega
      · exact ⟨ns, by rw [h3, show segs.length + k - segs.length = k by omega]; exact h4, h5⟩
    rcases (mem_guideAdj hs _ _ _ _).1 hadj with ⟨hne, n, hny, hnz, hedge⟩ | ⟨hyg, hzg, n, n', hny, hnz, hpt, hl⟩
    · unfold guideEdge at hedge
      constructor
      · intro hzg
        obtain ⟨sz, ez, bz, lz⟩ := seg z hzg
        have nz := ends_has bz (has z n sz ez hnz)
        by_cases hyg : y < segs.length
        · obtain ⟨j, ns, a, g1, g2, g3, g4⟩ := ih.1 hyg
          obtain ⟨sy, ey, by', ly⟩ := seg y hyg
          refine ⟨j, ns, a, g1, g2, g3, ?_⟩
          intro s b es hb
          rw [ez] at es; simp at es; subst es
          exact (g4 sy n ey (ends_has by' (has y n sy ey hny))).trans (seg_chain lz (hC z _ hz ez) nz hb)
        · obtain ⟨ns, p1, p2⟩ := hasPin y n (by omega) hny
          have hSy : S (y - segs.length) := by
            by_cases hyg' : y = segs.length
            · rw [hyg', Nat.sub_self]; exact hS0
            · obtain ⟨j, g1, g2⟩ := ih.2 (by omega)
              cases hft : ft with
              | true => exact hS hft j _ g1 g2
              | false =>
                rw [if_neg (by omega), if_neg (by omega), if_neg (by rw [hft]; simp), if_neg (by omega), if_neg (by omega)] at hedge
                simp at hedge; omega
          refine ⟨_, ns, n, hSy, p1, p2, ?_⟩
          intro s b es hb
          rw [ez] at es; simp at es; subst es
          exact seg_chain lz (hC z _ hz ez) nz hb
      · intro hzg
        by_cases hyg : y < segs.length
        · obtain ⟨j, ns, a, g1, g2, g3, g4⟩ := ih.1 hyg
          obtain ⟨sy, ey, by', ly⟩ := seg y hyg
          obtain ⟨ms, p1, p2⟩ := hasPin z n (by omega) hnz
          exact ⟨j, g1, ns, ms, a, n, g2, p1, g3, p2, g4 sy n ey (ends_has by' (has y n sy ey hny))⟩
        · rw [if_pos (by omega)] at hedge; simp at hedge
    · refine ⟨?_, by omega⟩
      intro _
      obtain ⟨sz, ez, bz, lz⟩ := seg z hzg
      obtain ⟨sy, ey, by', ly⟩ := seg y hyg
      have nz := ends_has bz (has z n' sz ez hnz)
      obtain ⟨j, ns, a, g1, g2, g3, g4⟩ := ih.1 hyg
      refine ⟨j, ns, a, g1, g2, g3, ?_⟩
      intro s b es hb
      rw [ez] at es; simp at es; subst es
      have c1 := g4 sy n ey (ends_has by' (has y n sy ey hny))
      have c2 : Chain (CellStep T lat) (OnGuides T segs K) a n' :=
        .step c1 (.inr ⟨hpt, hl⟩) (hC z _ hz ez _ nz)
      exact c2.trans (seg_chain lz (hC z _ hz ez) nz hb)

/-! ### completeness -/

/-- a cell at which guides are split -/
def LinePt (T : GuideTech) (iv : Intvs) (pinCells : List (List Node)) (n : Node) : Prop :=
  (0 ≤ n.layer - 2 ∧ (iv (n.layer - 2)).Cov (T.pos n) (T.track n)) ∨
  (n.layer + 2 < T.nLayers ∧ (iv (n.layer + 2)).Cov (T.pos n) (T.track n)) ∨ ∃ ns ∈ pinCells, n ∈ ns

theorem linePt_mem {iv : Intvs} {pinCells : List (List Node)} {n : Node} (h : LinePt T iv pinCells n) {b e : Int}
    (h1 : b ≤ T.pos n) (h2 : T.pos n ≤ e) : T.pos n ∈ lineIdx T iv pinCells n.layer (T.track n) b e := by
  refine mem_lineIdx.2 ⟨h1, h2, ?_⟩
  rw [cell_eta]
  exact h

theorem end_of_eq {s : GSeg} {n : Node} (h1 : s.l = n.layer) (h2 : s.t = T.track n) (h3 : s.b = T.pos n ∨ s.e = T.pos n) :
    n ∈ s.ends T := by
  have := cell_eta (T := T) n
  simp only [GSeg.ends, List.mem_cons, List.not_mem_nil, or_false]
  rw [h1, h2]
  rcases h3 with h3 | h3
  · left; rw [h3]; exact this.symm
  · right; rw [h3]; exact this.symm

/-- seg `i` may serve the cell `n`: it ends there, or lies in the interval of `n` -/
def Home (T : GuideTech) (iv : Intvs) (pinCells : List (List Node)) (retry : Bool) (segs : List GSeg) (n : Node) (i : Nat) : Prop :=
  ∃ s, segs[i]? = some s ∧ ((n.layer ≤ T.viaAccess ∧ n ∈ s.ends T) ∨
    (T.viaAccess < n.layer ∧ ∃ k ∈ iv n.layer, k.1 = T.track n ∧ ∃ ι ∈ k.2, ι.1 ≤ T.pos n ∧ T.pos n ≤ ι.2 ∧
      ∃ L, SplitOK T iv pinCells retry n.layer k.1 ι L ∧ (∀ s ∈ L, s ∈ segs) ∧ s ∈ L))

variable {iv : Intvs} {pinCells : List (List Node)} {retry : Bool} {segs : List GSeg}

theorem seg_index {s : GSeg} (h : s ∈ segs) : ∃ i : Nat, i < segs.length ∧ segs[i]? = some s := by
  obtain ⟨i, hi⟩ := List.mem_iff_getElem?.1 h
  exact ⟨i, (List.getElem?_eq_some_iff.1 hi).1, hi⟩

theorem adj_same {pins : List (List Node)} {ft : Bool} {i j : Nat} {s s' : GSeg} (hi : segs[i]? = some s) (hj : segs[j]? = some s')
    {n : Node} (h1 : n ∈ s.ends T) (h2 : n ∈ s'.ends T) (hl : n.layer ≠ T.viaAccess) (hij : i ≠ j) :
    j ∈ guideAdj T segs.length ft (guideMap T segs pins) i := by
  have l1 := (List.getElem?_eq_some_iff.1 hi).1
  have l2 := (List.getElem?_eq_some_iff.1 hj).1
  refine (mem_guideAdj (guideMap_sorted segs pins) _ _ _ _).2 (.inl ⟨Ne.symm hij, n, (guideMap_has _ _ _ _).2 (.inl ⟨s, hi, h1⟩),
    (guideMap_has _ _ _ _).2 (.inl ⟨s', hj, h2⟩), ?_⟩)
  unfold guideEdge
  rw [if_neg (by omega), if_pos ⟨l1, l2⟩]
  simpa using hl

/-- along linked guides of one interval the search reaches all of them -/
theorem reach_linked {pins : List (List Node)} {ft : Bool} {g : Nat} {L : List GSeg} (hsub : ∀ s ∈ L, s ∈ segs)
    (hv : ∀ s ∈ L, s.l ≠ T.viaAccess) {s s' : GSeg} (h : Chain SegLink (· ∈ L) s s') {i : Nat} (hi : segs[i]? = some s)
    (hr : Reaches (guideAdj T segs.length ft (guideMap T segs pins)) g i) :
    ∃ j, segs[j]? = some s' ∧ Reaches (guideAdj T segs.length ft (guideMap T segs pins)) g j := by
  induction h with
  | refl _ => exact ⟨i, hi, hr⟩
  | @step u v hu hlink hvL ih =>
    obtain ⟨j, hj, hrj⟩ := ih
    obtain ⟨j', hl', hj'⟩ := seg_index (hsub v hvL)
    by_cases hjj : j = j'
    · subst hjj; exact ⟨j, hj', hrj⟩
    · refine ⟨j', hj', .step hrj ?_ trivial⟩
      obtain ⟨e1, e2, e3⟩ := hlink
      have huv := hv u hu.mem
      rcases e3 with e3 | e3
      · refine adj_same hj hj' (n := T.cell u.l u.t u.e) (by simp [GSeg.ends]) (by simp [GSeg.ends, e1, e2, e3]) (by rw [cell_layer]; exact huv) hjj
      · refine adj_same hj hj' (n := T.cell u.l u.t u.b) (by simp [GSeg.ends]) (by simp [GSeg.ends, e1, e2, e3]) (by rw [cell_layer]; exact huv) hjj

/-- a reached home of a split cell leads to a reached guide that ends there -/
theorem home_end {pins : List (List Node)} {ft : Bool} {g : Nat} {n : Node} {i : Nat} (h : Home T iv pinCells retry segs n i)
    (hr : Reaches (guideAdj T segs.length ft (guideMap T segs pins)) g i) (hp : LinePt T iv pinCells n) :
    ∃ j s, segs[j]? = some s ∧ n ∈ s.ends T ∧ Reaches (guideAdj T segs.length ft (guideMap T segs pins)) g j := by
  obtain ⟨s, hs, ⟨_, he⟩ | ⟨hv, k, hk, ek, ι, hι, b1, b2, L, hL, hsub, hsL⟩⟩ := h
  · exact ⟨i, s, hs, he, hr⟩
  · have hmem := linePt_mem hp b1 b2
    rw [← ek] at hmem
    obtain ⟨s', hs', he'⟩ := hL.ends _ hmem
    obtain ⟨i1, i2, _⟩ := hL.inside s' hs'
    obtain ⟨j, hj, hrj⟩ := reach_linked hsub (fun u hu => by rw [(hL.inside u hu).1]; omega) (hL.linked hv s hsL s' hs') hs hr
    exact ⟨j, s', hj, end_of_eq i1 (i2.trans ek) he', hrj⟩

/-- a covered split cell is the end of a guide in which it is at home -/
theorem covered_end (hspec : splitGuides T iv pinCells retry = some segs) {n : Node} (hn : GuideCell T iv n)
    (hp : LinePt T iv pinCells n) : ∃ j s, segs[j]? = some s ∧ n ∈ s.ends T ∧ Home T iv pinCells retry segs n j := by
  obtain ⟨h0, h1, k, hk, ek, ι, hι, b1, b2⟩ := hn
  obtain ⟨L, hL, hsub⟩ := (split_spec hspec).1 n.layer.toNat (by omega) k (by rw [show ((n.layer.toNat : Nat) : Int) = n.layer by omega]; exact hk) ι hι
  rw [show ((n.layer.toNat : Nat) : Int) = n.layer by omega] at hL
  have hmem := linePt_mem hp b1 b2
  rw [← ek] at hmem
  obtain ⟨s, hs, he⟩ := hL.ends _ hmem
  obtain ⟨i1, i2, _⟩ := hL.inside s hs
  have hend := end_of_eq i1 (i2.trans ek) he
  obtain ⟨j, _, hj⟩ := seg_index (hsub s hs)
  refine ⟨j, s, hj, hend, s, hj, ?_⟩
  by_cases hv : n.layer ≤ T.viaAccess
  · exact .inl ⟨hv, hend⟩
  · exact .inr ⟨by omega, k, hk, ek, ι, hι, b1, b2, L, hL, hsub, hs⟩

theorem home_lateral (hok : iv.Ok) {a b : Node} {i : Nat} (h : Home T iv pinCells retry segs a i) (hl : a.layer = b.layer)
    (hv : T.viaAccess < a.layer) (ht : T.track a = T.track b) (hp : T.pos b = T.pos a + 1 ∨ T.pos a = T.pos b + 1)
    (hb : Covered T iv b) : Home T iv pinCells retry segs b i := by
  obtain ⟨s, hs, ⟨h1, _⟩ | ⟨_, k, hk, ek, ι, hι, b1, b2, L, hL, hsub, hsL⟩⟩ := h
  · omega
  · obtain ⟨k', hk', ek', ι', hι', c1, c2⟩ := hb
    rw [← hl] at hk'
    have hkk : k' = k := by
      apply Classical.byContradiction
      intro hne
      have := pairwise_sym (R := fun x y : Int × IvSet => x.1 < y.1 ∨ y.1 < x.1) (fun _ _ h => h.symm)
        ((hok a.layer).1.imp Or.inl) k' hk' k hk hne
      omega
    subst hkk
    have hιι : ι' = ι := by
      apply Classical.byContradiction
      intro hne
      have := pairwise_sym (R := fun x y : Int × Int => x.2 + 1 < y.1 ∨ y.2 + 1 < x.1) (fun _ _ h => h.symm)
        (((hok a.layer).2 k' hk).1.imp Or.inl) ι' hι' ι hι hne
      omega
    subst hιι
    exact ⟨s, hs, .inr ⟨by omega, k', by rw [← hl]; exact hk, by rw [ek, ht], ι', hι, c1, c2, L, by rw [← hl]; exact hL, hsub, hsL⟩⟩

theorem via_linePt (ha : T.Alternates) {a b : Node} (hpt : a.pt = b.pt) (hl : b.layer = a.layer + 2) (hA : GuideCell T iv a)
    (hB : GuideCell T iv b) : LinePt T iv pinCells a ∧ LinePt T iv pinCells b := by
  have hb : b = ⟨a.pt, a.layer + 2⟩ := by rw [hpt, ← hl]
  have hu := track_up ha a
  rw [← hb] at hu
  constructor
  · right; left
    refine ⟨by have := hB.2.1; omega, ?_⟩
    have := hB.2.2
    rw [covered_iff, hu.1, hu.2, hl] at this
    exact this
  · left
    refine ⟨by have := hA.1; omega, ?_⟩
    have := hA.2.2
    rw [covered_iff] at this
    rw [hu.1, hu.2, hl, show a.layer + 2 - 2 = a.layer by omega]
    exact this

/-- Completeness: the search reaches a guide at home in every cell one can move to. -/
theorem reach_complete (ha : T.Alternates) (hok : iv.Ok) (hspec : splitGuides T iv pinCells retry = some segs)
    {pins : List (List Node)} {ft : Bool} {g : Nat} {a b : Node} {i : Nat} (hi : Home T iv pinCells retry segs a i)
    (hr : Reaches (guideAdj T segs.length ft (guideMap T segs pins)) g i)
    (hc : Chain (CellStep T (fun l => T.viaAccess < l)) (GuideCell T iv) a b) :
    ∃ j, Home T iv pinCells retry segs b j ∧ Reaches (guideAdj T segs.length ft (guideMap T segs pins)) g j := by
  induction hc with
  | refl _ => exact ⟨i, hi, hr⟩
  | @step x y hx hstep hy ih =>
    obtain ⟨j, hj, hrj⟩ := ih
    rcases hstep with ⟨h1, h2, h3, h4⟩ | ⟨h1, h2⟩
    · exact ⟨j, home_lateral hok hj h1 h2 h3 h4 hy.2.2, hrj⟩
    · have hlp : LinePt T iv pinCells x ∧ LinePt T iv pinCells y := by
        rcases h2 with h2 | h2
        · exact via_linePt ha h1 h2 hx.mem hy
        · exact (via_linePt ha h1.symm h2 hy hx.mem).symm
      obtain ⟨j', s, hs, he, hr'⟩ := home_end hj hrj hlp.1
      obtain ⟨j2, s2, hs2, he2, hh⟩ := covered_end hspec hy hlp.2
      refine ⟨j2, hh, .step hr' ?_ trivial⟩
      refine (mem_guideAdj (guideMap_sorted segs pins) _ _ _ _).2 (.inr ⟨(List.getElem?_eq_some_iff.1 hs).1,
        (List.getElem?_eq_some_iff.1 hs2).1, x, y, (guideMap_has _ _ _ _).2 (.inl ⟨s, hs, he⟩),
        (guideMap_has _ _ _ _).2 (.inl ⟨s2, hs2, he2⟩), h1, h2⟩)

theorem guidePins_mem (hok : iv.Ok) {k : Nat} {ns : List Node} (h : (guidePins T iv pinCells)[k]? = some ns) {n : Node} (hn : n ∈ ns) :
    GuideCell T iv n ∧ ∃ ms ∈ pinCells, n ∈ ms := by
  unfold guidePins at h
  rw [List.getElem?_map, Option.map_eq_some_iff] at h
  obtain ⟨ms, h1, rfl⟩ := h
  obtain ⟨h2, h3⟩ := List.mem_filter.1 hn
  simp only [Bool.and_eq_true, decide_eq_true_eq, TMap.get_has (hok n.layer)] at h3
  exact ⟨⟨h3.1.1, h3.1.2, h3.2⟩, ms, List.mem_of_getElem? h1, h2⟩

theorem pin_complete (ha : T.Alternates) (hok : iv.Ok) (hspec : splitGuides T iv pinCells retry = some segs) {ft : Bool} {j k : Nat}
    (hjk : ft = true ∨ (j = 0 ∧ k ≠ 0))
    (hl : PinLink T (fun l => T.viaAccess < l) (GuideCell T iv) (guidePins T iv pinCells) j k)
    (hr : Reaches (guideAdj T segs.length ft (guideMap T segs (guidePins T iv pinCells))) segs.length (segs.length + j)) :
    Reaches (guideAdj T segs.length ft (guideMap T segs (guidePins T iv pinCells))) segs.length (segs.length + k) := by
  obtain ⟨ns, ms, a, b, h1, h2, h3, h4, hc⟩ := hl
  obtain ⟨hga, pa⟩ := guidePins_mem hok h1 h3
  obtain ⟨hgb, pb⟩ := guidePins_mem hok h2 h4
  obtain ⟨i, s, hs, he, hh⟩ := covered_end hspec hga (.inr (.inr pa))
  have hil := (List.getElem?_eq_some_iff.1 hs).1
  have e1 : i ∈ guideAdj T segs.length ft (guideMap T segs (guidePins T iv pinCells)) (segs.length + j) := by
    refine (mem_guideAdj (guideMap_sorted _ _) _ _ _ _).2 (.inl ⟨by omega, a, (guideMap_has _ _ _ _).2 (.inr ⟨j, ns, rfl, h1, h3⟩),
      (guideMap_has _ _ _ _).2 (.inl ⟨s, hs, he⟩), ?_⟩)
    unfold guideEdge
    rw [if_neg (by omega), if_neg (by omega)]
    split
    · rfl
    · rename_i hft
      rcases hjk with h | ⟨h, _⟩
      · exact absurd h hft
      · rw [if_pos (by omega)]
  obtain ⟨i', hh', hr'⟩ := reach_complete ha hok hspec hh (.step hr e1 trivial) hc
  obtain ⟨i2, s2, hs2, he2, hr2⟩ := home_end hh' hr' (.inr (.inr pb))
  have hil2 := (List.getElem?_eq_some_iff.1 hs2).1
  refine .step hr2 ?_ trivial
  refine (mem_guideAdj (guideMap_sorted _ _) _ _ _ _).2 (.inl ⟨by omega, b, (guideMap_has _ _ _ _).2 (.inl ⟨s2, hs2, he2⟩),
    (guideMap_has _ _ _ _).2 (.inr ⟨k, ms, rfl, h2, h4⟩), ?_⟩)
  unfold guideEdge
  rw [if_neg (by omega), if_neg (by omega)]
  split
  · rfl
  · rename_i hft
    rcases hjk with h | ⟨_, h⟩
    · exact absurd h hft
    · rw [if_neg (by omega), if_neg (by omega)]
      simp

end TR
