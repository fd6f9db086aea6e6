import Verif.Cut58.Lemmas
import Verif.GC.CornerEx
/-! # C153–C155: cut spacing rules of LEF58_SPACING -/
namespace TR

/-! ### C153: cuts with many neighbours -/

/-- C153: the condition on neighbouring cuts is decided by the number of other cuts of the class of the rule, whatever the order in which the query
returns them — with one more asked of a cut that is not of that class. -/
theorem c153_neighbours {C : C58Db} (hD : C.base.Ok) {query : Int → Box → List GRect} (hq : CutQuery C.base query) {c : L58Rule} (hc : c.AdjOk)
    {r s : GRect} (hr : r ∈ C.base.rects C.base.layer) (hs : s ∈ C.base.rects C.base.layer) :
    C.crowded query c r s = true ↔ C.Counts c r c.adj ∨ c.twoCuts ≠ -1 ∧ C.Counts c r c.twoCuts ∧ C.Counts c s c.twoCuts := by
  obtain ⟨h1, h2, h3, h4, h5, h6⟩ := hc
  unfold C58Db.crowded
  simp only [Bool.or_eq_true, Bool.and_eq_true, decide_eq_true_eq]
  rw [count_iff hD hq h3 h6 hr (by omega)]
  by_cases ht : c.twoCuts = -1
  · simp [ht]
  · rw [count_iff hD hq h3 h6 hr (by omega), count_iff hD hq h3 h6 hs (by omega)]

theorem adjPair_iff {C : C58Db} (hD : C.base.Ok) {query : Int → Box → List GRect} (hq : CutQuery C.base query) {c : L58Rule} (hc : c.AdjOk)
    {r s : GRect} (hr : r ∈ C.base.rects C.base.layer) (hs : s ∈ C.base.rects C.base.layer) (hne : r.id ≠ s.id) (m : GMk) :
    m ∈ C.adjPair query c r s (genIntersect r.box s.box) ↔ C.AdjViolation c r s m := by
  have hn := c153_neighbours hD hq hc hr hs
  have ha : c.adj ≠ -1 := by have := hc.2.1; omega
  unfold C58Db.adjPair C58Db.AdjViolation
  rw [← hn, cutMarker_iff (hD.box hr) (hD.box hs), ← not_fixed_iff]
  have hqd : (∃ q, C.Requires c r s q ∧ CutNear c.c2c r.box s.box q) ↔ dist58 c.c2c r.box s.box < C.req c r s * C.req c r s := by
    constructor
    · rintro ⟨q, h1, h2⟩
      rw [(req_iff C ha r s q).1 h1] at h2
      exact (cutDist_iff (hD.box hr) (hD.box hs) _ _).2 h2
    · intro h
      exact ⟨_, (req_iff C ha r s _).2 rfl, (cutDist_iff (hD.box hr) (hD.box hs) _ _).1 h⟩
  rw [hqd]
  by_cases h1 : C.crowded query c r s = true
  · rw [if_neg (by simp [h1])]
    by_cases h2 : c.odd = true
    · rw [if_pos h2]
      have := (odd_iff c).1 h2
      simp [this]
    · rw [if_neg h2]
      have hp : c.Plain := Classical.byContradiction fun h => h2 ((odd_iff c).2 h)
      by_cases h3 : dist58 c.c2c r.box s.box ≥ C.req c r s * C.req c r s
      · rw [if_pos h3]
        have : ¬ dist58 c.c2c r.box s.box < C.req c r s * C.req c r s := by omega
        simp [this]
      · rw [if_neg h3]
        have h3' : dist58 c.c2c r.box s.box < C.req c r s * C.req c r s := by omega
        by_cases h4 : (r.fixed && s.fixed) = true
        · rw [if_pos h4]
          simp only [List.not_mem_nil, h4, not_true_eq_false, false_and, and_false]
        · rw [if_neg h4]
          simp [hne, hp, h1, h3', h4]
  · rw [if_pos (by simpa using h1)]
    simp [h1]

/-- C153: the violations of an ADJACENTCUTS rule found at a cut are exactly those with another cut, too close to it, one of the two not fixed, if
the cut has as many neighbours as the rule says or both have as many as its TWOCUTS says: with every cut of the layer, or those of the same net if
the rule is for one net or the layer has some rule for one net. -/
theorem c153_adjacent_cuts {C : C58Db} (hD : C.base.Ok) {query : Int → Box → List GRect} (hq : CutQuery C.base query)
    (edges : Int → Box → List (List GEdge × Nat)) {c : L58Rule} (hc : c.AdjOk) (skip : Bool) {r : GRect} (hr : r ∈ C.base.rects C.base.layer) (m : GMk) :
    m ∈ C.rule query edges skip r c ↔
    ∃ s ∈ C.base.rects C.base.layer, ((c.sameNet = true ∨ skip = true) → r.net = s.net) ∧ C.AdjViolation c r s m := by
  have h2 := hc.1
  have ha : c.adj ≠ -1 := by have := hc.2.1; omega
  have hrp := hD.box hr
  have hmax : c.spacing ≤ c.maxSpc ∧ c.within ≤ c.maxSpc ∧ 0 ≤ c.maxSpc := by
    have := hc.2.2.2.1
    unfold L58Rule.maxSpc
    rw [if_pos ha]
    omega
  obtain ⟨-, q2⟩ := hq C.base.layer (gBloat r.box c.maxSpc) (bloat_proper hrp hmax.2.2)
  unfold C58Db.rule
  rw [h2, List.mem_flatMap]
  have pairEq : ∀ s, s ∈ C.base.rects C.base.layer → (m ∈ C.pair query edges c r s ↔ (c.sameNet = true → r.net = s.net) ∧ C.AdjViolation c r s m) := by
    intro s hs
    unfold C58Db.pair
    by_cases hid : r.id = s.id
    · rw [if_pos hid]
      simp [C58Db.AdjViolation, hid]
    · rw [if_neg hid]
      by_cases hn : (c.sameNet && decide (r.net ≠ s.net)) = true
      · rw [if_pos hn]
        simp only [Bool.and_eq_true, decide_eq_true_eq] at hn
        simp [hn.1, hn.2]
      · rw [if_neg hn, h2]
        dsimp only
        rw [if_pos ha, adjPair_iff hD hq hc hr hs hid]
        simp only [Bool.and_eq_true, decide_eq_true_eq, not_and, Decidable.not_not] at hn
        exact ⟨fun h => ⟨hn, h⟩, fun h => h.2⟩
  constructor
  · rintro ⟨s, hs, h⟩
    have hs' := ((q2 s).1 hs).1
    by_cases hk : (skip && decide (r.net ≠ s.net)) = true
    · rw [if_pos hk] at h; cases h
    · rw [if_neg hk] at h
      obtain ⟨g1, g2⟩ := (pairEq s hs').1 h
      simp only [Bool.and_eq_true, decide_eq_true_eq, not_and, Decidable.not_not] at hk
      exact ⟨s, hs', fun h => h.elim g1 hk, g2⟩
  · rintro ⟨s, hs, h1, h2⟩
    refine ⟨s, (q2 s).2 ⟨hs, ?_⟩, ?_⟩
    · obtain ⟨-, -, -, -, ⟨q, g1, g2⟩, -⟩ := h2
      have hq0 : 0 ≤ q ∧ q ≤ c.maxSpc := by
        have := hc.2.2.1
        have := hc.2.2.2.1
        rcases g1 with ⟨_, rfl⟩ | ⟨_, rfl⟩ <;> omega
      exact near_window hrp (hD.box hs) g2 hq0.1 hq0.2
    · rw [if_neg]
      · exact (pairEq s hs).2 ⟨fun h => h1 (.inl h), h2⟩
      · simp only [Bool.and_eq_true, decide_eq_true_eq, not_and, Decidable.not_not]
        exact fun h => h1 (.inr h)

/-! ### C154: which pairs of cuts a rule looks at -/

/-- C154: if the layer has a rule for cuts of one net, no LEF58 rule of the layer is ever reported for cuts of different nets, whatever their
distance. -/
theorem c154_other_nets_unchecked {C : C58Db} (hsame : C.consSame ≠ []) (hall : ∀ c ∈ C.consSame, c.sameNet = true)
    (query : Int → Box → List GRect) (edges : Int → Box → List (List GEdge × Nat)) (r : GRect) (m : GMk) (h : m ∈ C.rect query edges r) :
    ∃ c ∈ C.consSame ++ C.cons, ∃ s ∈ query (c.second.getD C.base.layer) (gBloat r.box c.maxSpc), r.net = s.net ∧ m ∈ C.pair query edges c r s := by
  unfold C58Db.rect at h
  have hb : (!C.consSame.isEmpty) = true := by
    cases hC : C.consSame with
    | nil => exact absurd hC hsame
    | cons _ _ => rfl
  rw [hb] at h
  rcases List.mem_append.1 h with h | h
  · obtain ⟨c, hc, h⟩ := List.mem_flatMap.1 h
    unfold C58Db.rule at h
    obtain ⟨s, hs, h⟩ := List.mem_flatMap.1 h
    simp only [Bool.false_and, Bool.false_eq_true, if_false] at h
    refine ⟨c, List.mem_append.2 (.inl hc), s, hs, ?_, h⟩
    have hn := hall c hc
    unfold C58Db.pair at h
    split at h
    · cases h
    · split at h
      · cases h
      · rename_i h1 h2
        simpa [hn] using h2
  · obtain ⟨c, hc, h⟩ := List.mem_flatMap.1 h
    unfold C58Db.rule at h
    obtain ⟨s, hs, h⟩ := List.mem_flatMap.1 h
    split at h
    · cases h
    · rename_i h1
      refine ⟨c, List.mem_append.2 (.inr hc), s, hs, ?_, h⟩
      simpa using h1

/-- C154, part: without rules for one net (see `c154_other_nets_missed`) every pair of cuts that an ADJACENTCUTS rule of the layer forbids is reported, of one net or of two. -/
theorem c154_every_pair_partial {C : C58Db} (hD : C.base.Ok) (hno : C.consSame = []) {query : Int → Box → List GRect} (hq : CutQuery C.base query)
    (edges : Int → Box → List (List GEdge × Nat)) {c : L58Rule} (hcm : c ∈ C.cons) (hc : c.AdjOk) (hs : c.sameNet = false) {r s : GRect}
    (hr : r ∈ C.base.rects C.base.layer) (hsm : s ∈ C.base.rects C.base.layer) {m : GMk} (hv : C.AdjViolation c r s m) : m ∈ C.check query edges none := by
  unfold C58Db.check
  rw [List.mem_flatMap]
  refine ⟨r, List.mem_filter.2 ⟨hr, rfl⟩, ?_⟩
  unfold C58Db.rect
  refine List.mem_append.2 (.inr (List.mem_flatMap.2 ⟨c, hcm, ?_⟩))
  rw [hno]
  exact (c153_adjacent_cuts hD hq edges hc _ hr m).2 ⟨s, hsm, by simp [hs], hv⟩

/-- C154: a rule with another layer is checked only if it names a cut class and is about corners of that layer: the distance of cuts of two layers
is never checked by a LEF58 rule. -/
theorem c154_second_layer (C : C58Db) (edges : Int → Box → List (List GEdge × Nat)) {c : L58Rule}
    (h : c.cls = -1 ∨ (c.concave = false ∧ c.eolWidth = -1) ∨ c.stack = true ∨ c.orth ≠ -1 ∨ c.shortEdge = true) (r : GRect) (l2 : Int) (s : GRect) :
    C.layerPair edges c r l2 s = [] := by
  unfold C58Db.layerPair
  by_cases h1 : c.stack = true
  · simp [h1]
  by_cases h2 : c.orth ≠ -1
  · simp [h1, h2]
  by_cases h3 : c.cls = -1
  · simp [h1, h3]
  by_cases h4 : c.shortEdge = true
  · simp [h1, h4]
  have : c.concave = false ∧ c.eolWidth = -1 := by
    rcases h with h | h | h | h | h
    · exact absurd h h3
    · exact h
    · exact absurd h h1
    · exact absurd h h2
    · exact absurd h h4
  simp [h1, h4, this.1, this.2]

/-! ### C155: cuts near corners of the metal -/

theorem pair_corner {C : C58Db} (query : Int → Box → List GRect) (edges : Int → Box → List (List GEdge × Nat)) {c : L58Rule} {l2 : Int} (hc : c.CornerOk l2)
    (r s : GRect) (m : GMk) : m ∈ C.pair query edges c r s ↔ r.id ≠ s.id ∧ (c.sameNet = true → r.net = s.net) ∧ m ∈ C.layerPair edges c r l2 s := by
  unfold C58Db.pair
  by_cases hid : r.id = s.id
  · simp [hid]
  · rw [if_neg hid]
    by_cases hn : (c.sameNet && decide (r.net ≠ s.net)) = true
    · rw [if_pos hn]
      simp only [Bool.and_eq_true, decide_eq_true_eq] at hn
      simp [hn.1, hn.2]
    · rw [if_neg hn, hc.second]
      simp only [Bool.and_eq_true, decide_eq_true_eq, not_and, Decidable.not_not] at hn
      exact ⟨fun h => ⟨hid, hn, h⟩, fun h => h.2.2⟩

theorem rule_corner {C : C58Db} (hD : C.base.Ok) {query : Int → Box → List GRect} (hq : CutQuery C.base query) (edges : Int → Box → List (List GEdge × Nat)) {c : L58Rule}
    {l2 : Int} (hl : l2 ≠ C.base.layer) (hc : c.CornerOk l2) (skip : Bool) {r : GRect} (hr : r ∈ C.base.rects C.base.layer) (m : GMk)
    (hin : ∀ s, s.box.containsBox r.box = false → C.layerPair edges c r l2 s = []) :
    m ∈ C.rule query edges skip r c ↔
    ∃ s ∈ C.base.rects l2, BoxIn r.box s.box ∧ ((c.sameNet = true ∨ skip = true) → r.net = s.net) ∧ m ∈ C.layerPair edges c r l2 s := by
  have hrp := hD.box hr
  have hmax : c.maxSpc = c.spacing := by unfold L58Rule.maxSpc; rw [if_neg (by simp [hc.plain.2.2.2])]
  have h0 := hc.spc
  obtain ⟨-, q2⟩ := hq l2 (gBloat r.box c.maxSpc) (bloat_proper hrp (by omega))
  unfold C58Db.rule
  rw [hc.second, List.mem_flatMap]
  simp only [Option.getD_some]
  constructor
  · rintro ⟨s, hs, h⟩
    have hs' := ((q2 s).1 hs).1
    by_cases hk : (skip && decide (r.net ≠ s.net)) = true
    · rw [if_pos hk] at h; cases h
    · rw [if_neg hk] at h
      obtain ⟨_, g1, g2⟩ := (pair_corner query edges hc r s m).1 h
      simp only [Bool.and_eq_true, decide_eq_true_eq, not_and, Decidable.not_not] at hk
      refine ⟨s, hs', ?_, fun h => h.elim g1 hk, g2⟩
      cases hcon : s.box.containsBox r.box with
      | false => rw [hin s hcon] at g2; cases g2
      | true => exact containsBox_in.1 hcon
  · rintro ⟨s, hs, h1, h2, h3⟩
    refine ⟨s, (q2 s).2 ⟨hs, ?_⟩, ?_⟩
    · apply touch_window _ (by omega)
      refine ⟨r.box.ll, ⟨Int.le_refl _, hrp.1, Int.le_refl _, hrp.2⟩, ?_⟩
      unfold BoxIn at h1
      unfold Box.Proper at hrp
      simp only [Box.Has, Box.left, Box.right, Box.bottom, Box.top] at h1 hrp ⊢
      omega
    · rw [if_neg]
      · exact (pair_corner query edges hc r s m).2 ⟨hD.idsAcross _ _ hl.symm r hr s hs, fun h => h2 (.inl h), h3⟩
      · simp only [Bool.and_eq_true, decide_eq_true_eq, not_and, Decidable.not_not]
        exact fun h => h2 (.inr h)

/-- the edges found by the query, with the edges around them -/
theorem edges_around {C : C58Db} (hO : ∀ l n ring, (n, ring) ∈ C.rings l → Outline n ring) {edges : Int → Box → List (List GEdge × Nat)} (hE : OutlineQuery C edges)
    (l : Int) {bx : Box} (hb : bx.Proper) (P : List GEdge → Nat → Prop) (Q : Nat → GEdge → GEdge → GEdge → GEdge → Prop)
    (hPQ : ∀ n ring i, Outline n ring → EdgeMeets (ringEdge ring i) bx →
      (P ring i ↔ Q n (ringEdge ring (i + ring.length - 2)) (ringEdge ring (i + ring.length - 1)) (ringEdge ring i) (ringEdge ring (i + 1)))) :
    (∃ e ∈ edges l bx, P e.1 e.2) ↔ ∃ n a b c d, C.Around l n a b c d ∧ EdgeMeets c bx ∧ Q n a b c d := by
  constructor
  · rintro ⟨⟨ring, i⟩, he, hP⟩
    obtain ⟨⟨n, hn⟩, hi, e, hei, hm⟩ := (hE l bx hb ring i).1 he
    have ho := hO l n ring hn
    have hr : ringEdge ring i = e := by
      unfold ringEdge
      rw [Nat.mod_eq_of_lt hi, List.getD_eq_getElem?_getD, hei]
      rfl
    refine ⟨n, _, _, _, _, ⟨ring, hn, four_at ho.four i⟩, hr ▸ hm, (hPQ n ring i ho (hr ▸ hm)).1 hP⟩
  · rintro ⟨n, a, b, c, d, ⟨ring, hn, hf⟩, hm, hQ⟩
    have ho := hO l n ring hn
    obtain ⟨i, hi, hc, rfl, rfl, hce, rfl⟩ := four_is ho.four hf
    subst hce
    exact ⟨(ring, i), (hE l bx hb ring i).2 ⟨⟨n, hn⟩, hi, _, hc, hm⟩, (hPQ n ring i ho hm).2 hQ⟩

/-- C155: the violations of a rule about concave corners found at a cut: the cut is of the class of the rule and lies under a rectangle of the other
layer — of the same net, if the rule is for one net or the layer has some rule for one net — and there is a concave corner of the metal on a line of the
border of the rectangle closer than the spacing, one of the two not fixed. -/
theorem c155_concave_corners {C : C58Db} (hD : C.base.Ok) (hO : ∀ l n ring, (n, ring) ∈ C.rings l → Outline n ring) {query : Int → Box → List GRect} (hq : CutQuery C.base query)
    {edges : Int → Box → List (List GEdge × Nat)} (hE : OutlineQuery C edges) {c : L58Rule} {l2 : Int} (hl : l2 ≠ C.base.layer) (hc : c.CornerOk l2) (hk : c.concave = true)
    (skip : Bool) {r : GRect} (hr : r ∈ C.base.rects C.base.layer) (m : GMk) :
    m ∈ C.rule query edges skip r c ↔
    C.OfClass r c.cls ∧ ∃ s ∈ C.base.rects l2, BoxIn r.box s.box ∧ ((c.sameNet = true ∨ skip = true) → r.net = s.net) ∧
      ∃ n a b e d, C.Around l2 n a b e d ∧ C.ConcaveViolation c r l2 s n b e m := by
  have hrp := hD.box hr
  obtain ⟨p1, p2, p3, p4⟩ := hc.plain
  have hcl := hc.cls
  have hne : c.cls ≠ -1 := by omega
  have eq : ∀ s, C.layerPair edges c r l2 s = if C.clsOf r ≠ c.cls then [] else if !s.box.containsBox r.box then [] else
      (edges l2 s.box).flatMap fun e => C.concaveAt c r l2 s e.1 e.2 := by
    intro s
    simp [C58Db.layerPair, p1, p2, p3, hne, hk]
  rw [rule_corner hD hq edges hl hc skip hr m (by intro s hs; rw [eq, hs]; simp)]
  have inner : ∀ s ∈ C.base.rects l2, BoxIn r.box s.box → (m ∈ C.layerPair edges c r l2 s ↔ C.OfClass r c.cls ∧
      ∃ n a b e d, C.Around l2 n a b e d ∧ C.ConcaveViolation c r l2 s n b e m) := by
    intro s hs hin
    rw [eq, ← clsOf_iff C r hcl]
    by_cases hcc : C.clsOf r = c.cls
    · rw [if_neg (fun h => h hcc), if_neg (by rw [containsBox_in.2 hin]; simp)]
      simp only [hcc, true_and, List.mem_flatMap]
      rw [edges_around hO hE l2 (hD.box hs) (fun ring i => m ∈ C.concaveAt c r l2 s ring i) (fun n a b e d => C.ConcaveViolation c r l2 s n b e m)]
      · constructor
        · rintro ⟨n, a, b, e, d, h1, h2, h3⟩
          exact ⟨n, a, b, e, d, h1, h3⟩
        · rintro ⟨n, a, b, e, d, h1, h3⟩
          exact ⟨n, a, b, e, d, h1, h3.2.1, h3⟩
      · intro n ring i ho hm
        have hb := ho.ok _ (ringEdge_mem ho.four (i + ring.length - 1))
        have he := ho.ok _ (ringEdge_mem ho.four i)
        have hfx := cornFixed_iff C l2 ho i
        unfold C58Db.concaveAt C58Db.ConcaveViolation
        rw [corner_eq]
        unfold edgeCorner
        dsimp only
        rw [← cornKind_concave hb he, ← hfx, cornMark_iff C c hrp, ← nearPt_iff hrp]
        by_cases h1 : cornKind (ringEdge ring (i + ring.length - 1)).dir (ringEdge ring i).dir = .concave
        · rw [if_neg (fun h => h h1)]
          simp only [h1, hm, true_and]
          by_cases h2 : ((ringEdge ring i).lo.x ≠ s.box.left ∧ (ringEdge ring i).lo.x ≠ s.box.right) ∧ ((ringEdge ring i).lo.y ≠ s.box.bottom ∧ (ringEdge ring i).lo.y ≠ s.box.top)
          · rw [if_pos h2]
            have : ¬ ((ringEdge ring i).lo.x = s.box.left ∨ (ringEdge ring i).lo.x = s.box.right ∨ (ringEdge ring i).lo.y = s.box.bottom ∨ (ringEdge ring i).lo.y = s.box.top) := by
              omega
            simp [this]
          · rw [if_neg h2]
            have h2' : (ringEdge ring i).lo.x = s.box.left ∨ (ringEdge ring i).lo.x = s.box.right ∨ (ringEdge ring i).lo.y = s.box.bottom ∨ (ringEdge ring i).lo.y = s.box.top := by
              omega
            simp only [h2', true_and]
            generalize hdd : (if c.c2c = true then ptDist2 (boxCentre r.box) (ringEdge ring i).lo else rectDist2 r.box ⟨(ringEdge ring i).lo, (ringEdge ring i).lo⟩) = dd
            by_cases h3 : dd ≥ c.spacing * c.spacing
            · rw [if_pos h3]
              have : ¬ dd < c.spacing * c.spacing := by omega
              simp [this]
            · rw [if_neg h3]
              have h3' : dd < c.spacing * c.spacing := by omega
              cases r.fixed <;> cases C.cornFixed l2 ring i <;> simp [h3']
        · rw [if_pos h1]
          simp [h1]
    · rw [if_pos hcc]
      simp [hcc]
  constructor
  · rintro ⟨s, hs, h1, h2, h3⟩
    obtain ⟨g1, g2⟩ := (inner s hs h1).1 h3
    exact ⟨g1, s, hs, h1, h2, g2⟩
  · rintro ⟨g1, s, hs, h1, h2, g2⟩
    exact ⟨s, hs, h1, h2, (inner s hs h1).2 ⟨g1, g2⟩⟩

/-- C155: the violations of a rule about convex corners that are not ends of lines: the cut is of the class of the rule and lies under a rectangle
of the other layer, and it comes into the triangle at such a corner whose legs are the two edges, cut to the spacing. -/
theorem c155_convex_corners {C : C58Db} (hD : C.base.Ok) (hO : ∀ l n ring, (n, ring) ∈ C.rings l → Outline n ring) {query : Int → Box → List GRect} (hq : CutQuery C.base query)
    {edges : Int → Box → List (List GEdge × Nat)} (hE : OutlineQuery C edges) {c : L58Rule} {l2 : Int} (hl : l2 ≠ C.base.layer) (hc : c.CornerOk l2)
    (hk : c.concave = false ∧ c.extension = -1 ∧ c.eolWidth ≠ -1) (skip : Bool) {r : GRect} (hr : r ∈ C.base.rects C.base.layer) (m : GMk) :
    m ∈ C.rule query edges skip r c ↔
    C.OfClass r c.cls ∧ ∃ s ∈ C.base.rects l2, BoxIn r.box s.box ∧ ((c.sameNet = true ∨ skip = true) → r.net = s.net) ∧
      ∃ n a b e d, C.Around l2 n a b e d ∧ C.ConvexViolation c r l2 s n a b e d m := by
  have hrp := hD.box hr
  obtain ⟨p1, p2, p3, p4⟩ := hc.plain
  have hcl := hc.cls
  have hne : c.cls ≠ -1 := by omega
  have eq : ∀ s, C.layerPair edges c r l2 s = if C.clsOf r ≠ c.cls then [] else if !s.box.containsBox r.box then [] else
      (edges l2 s.box).flatMap fun e => C.convexAt c r l2 s e.1 e.2 := by
    intro s
    simp [C58Db.layerPair, p1, p2, p3, hne, hk.1, hk.2.1, hk.2.2]
  rw [rule_corner hD hq edges hl hc skip hr m (by intro s hs; rw [eq, hs]; simp)]
  have inner : ∀ s ∈ C.base.rects l2, BoxIn r.box s.box → (m ∈ C.layerPair edges c r l2 s ↔ C.OfClass r c.cls ∧
      ∃ n a b e d, C.Around l2 n a b e d ∧ C.ConvexViolation c r l2 s n a b e d m) := by
    intro s hs hin
    rw [eq, ← clsOf_iff C r hcl]
    by_cases hcc : C.clsOf r = c.cls
    · rw [if_neg (fun h => h hcc), if_neg (by rw [containsBox_in.2 hin]; simp)]
      simp only [hcc, true_and, List.mem_flatMap]
      rw [edges_around hO hE l2 (hD.box hs) (fun ring i => m ∈ C.convexAt c r l2 s ring i) (fun n a b e d => C.ConvexViolation c r l2 s n a b e d m)]
      · constructor
        · rintro ⟨n, a, b, e, d, h1, h2, h3⟩
          exact ⟨n, a, b, e, d, h1, h3⟩
        · rintro ⟨n, a, b, e, d, h1, h3⟩
          exact ⟨n, a, b, e, d, h1, h3.2.1, h3⟩
      · intro n ring i ho hm
        have hb := ho.ok _ (ringEdge_mem ho.four (i + ring.length - 1))
        have he := ho.ok _ (ringEdge_mem ho.four i)
        have hfx := cornFixed_iff C l2 ho i
        have hle := lineEnd_iff (rule := c) ho i
        unfold C58Db.convexAt C58Db.ConvexViolation
        rw [corner_eq]
        unfold edgeCorner
        dsimp only
        rw [← hfx, cornMark_iff C c hrp]
        by_cases h1 : cornKind (ringEdge ring (i + ring.length - 1)).dir (ringEdge ring i).dir = .convex
        · have ht := (cornKind_convex hb he).1 h1
          rw [if_neg (fun h => h h1), ← hle ht]
          simp only [ht, hm, true_and]
          by_cases h2 : lineEnd58 c ring i = true
          · rw [if_pos h2]
            simp [h2]
          · rw [if_neg h2]
            simp only [h2, not_false_eq_true, true_and]
            generalize hex : (if (ringEdge ring i).dir = .N ∨ (ringEdge ring i).dir = .S then min c.spacing (ringEdge ring (i + ring.length - 1)).span else min c.spacing (ringEdge ring i).span) = ex
            generalize hey : (if (ringEdge ring i).dir = .N ∨ (ringEdge ring i).dir = .S then min c.spacing (ringEdge ring i).span else min c.spacing (ringEdge ring (i + ring.length - 1)).span) = ey
            have hsp := hc.spc
            have sb : 0 ≤ (ringEdge ring (i + ring.length - 1)).span := ((long_span hb _).2 rfl).2
            have se : 0 ≤ (ringEdge ring i).span := ((long_span he _).2 rfl).2
            have hx0 : 0 ≤ ex := by rw [← hex]; split <;> omega
            have hy0 : 0 ≤ ey := by rw [← hey]; split <;> omega
            have hlegs : ∀ x y, c.Legs (ringEdge ring (i + ring.length - 1)) (ringEdge ring i) x y ↔ x = ex ∧ y = ey := by
              intro x y
              have hco := edge_coords he
              unfold L58Rule.Legs
              have : (∃ lb lc, (ringEdge ring (i + ring.length - 1)).Long lb ∧ (ringEdge ring i).Long lc ∧
                  (((ringEdge ring i).lo.x = (ringEdge ring i).hi.x ∧ x = min c.spacing lb ∧ y = min c.spacing lc) ∨
                   ((ringEdge ring i).lo.y = (ringEdge ring i).hi.y ∧ x = min c.spacing lc ∧ y = min c.spacing lb))) ↔
                  (((ringEdge ring i).lo.x = (ringEdge ring i).hi.x ∧ x = min c.spacing (ringEdge ring (i + ring.length - 1)).span ∧ y = min c.spacing (ringEdge ring i).span) ∨
                   ((ringEdge ring i).lo.y = (ringEdge ring i).hi.y ∧ x = min c.spacing (ringEdge ring i).span ∧ y = min c.spacing (ringEdge ring (i + ring.length - 1)).span)) := by
                constructor
                · rintro ⟨lb, lc, g1, g2, g3⟩
                  rw [(long_span hb lb).1 g1, (long_span he lc).1 g2] at g3
                  exact g3
                · intro g3
                  exact ⟨_, _, (long_span hb _).2 rfl, (long_span he _).2 rfl, g3⟩
              rw [this, ← hex, ← hey]
              cases hd : (ringEdge ring i).dir <;> simp only [hd, reduceCtorEq, forall_const, false_implies, and_true, true_and, or_self, or_true, true_or, if_true, if_false, or_false, false_or] at hco ⊢ <;> omega
            have hin' : (∃ x y, c.Legs (ringEdge ring (i + ring.length - 1)) (ringEdge ring i) x y ∧ InTriangle r.box (ringEdge ring i).lo x y) ↔ InTriangle r.box (ringEdge ring i).lo ex ey := by
              constructor
              · rintro ⟨x, y, g1, g2⟩
                obtain ⟨rfl, rfl⟩ := (hlegs x y).1 g1
                exact g2
              · intro g
                exact ⟨ex, ey, (hlegs ex ey).2 ⟨rfl, rfl⟩, g⟩
            rw [hin', ← triangle_iff hrp _ hx0 hy0]
            generalize hA : ex * ((genIntersect ⟨(ringEdge ring i).lo, (ringEdge ring i).lo⟩ r.box).top - (genIntersect ⟨(ringEdge ring i).lo, (ringEdge ring i).lo⟩ r.box).bottom) +
              ey * ((genIntersect ⟨(ringEdge ring i).lo, (ringEdge ring i).lo⟩ r.box).right - (genIntersect ⟨(ringEdge ring i).lo, (ringEdge ring i).lo⟩ r.box).left) = A
            by_cases h3 : A ≥ ex * ey
            · rw [if_pos h3]
              have : ¬ A < ex * ey := by omega
              simp [this]
            · rw [if_neg h3]
              have h3' : A < ex * ey := by omega
              cases r.fixed <;> cases C.cornFixed l2 ring i <;> simp [h3']
        · have ht : ¬ LeftTurn (ringEdge ring (i + ring.length - 1)) (ringEdge ring i) := fun h => h1 ((cornKind_convex hb he).2 h)
          rw [if_pos h1]
          simp [ht]
    · rw [if_pos hcc]
      simp [hcc]
  constructor
  · rintro ⟨s, hs, h1, h2, h3⟩
    obtain ⟨g1, g2⟩ := (inner s hs h1).1 h3
    exact ⟨g1, s, hs, h1, h2, g2⟩
  · rintro ⟨g1, s, hs, h1, h2, g2⟩
    exact ⟨s, hs, h1, h2, (inner s hs h1).2 ⟨g1, g2⟩⟩

end TR
