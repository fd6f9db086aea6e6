import Verif.GC.CornerLemmas
import Verif.Tech.Props
import Verif.Geom.Lemmas
/-! # C108: spacing of corners -/
namespace TR

/-- the corner between the edges `b` and `c` -/
def edgeCorner (a b c d : GEdge) : GCorner :=
  { net := c.net, pt := c.lo, kind := cornKind b.dir c.dir, dir := cornDir b.dir c.dir, prevLen := b.span, nextLen := c.span,
    prevKind := cornKind a.dir b.dir, nextKind := cornKind c.dir d.dir }

theorem mem_cornersOf {ring : List GEdge} (h4 : 4 ≤ ring.length) (c : GCorner) :
    c ∈ cornersOf ring ↔ ∃ w x y z, Four ring w x y z ∧ c = edgeCorner w x y z := by
  have get : ∀ k, ring[k % ring.length]? = some (ring.getD (k % ring.length) default) := by
    intro k
    have : k % ring.length < ring.length := Nat.mod_lt _ (by omega)
    rw [List.getD_eq_getElem?_getD, List.getElem?_eq_getElem this]
    rfl
  unfold cornersOf
  rw [List.mem_map]
  constructor
  · rintro ⟨i, hi, rfl⟩
    rw [List.mem_range] at hi
    refine ⟨_, _, _, _, ⟨i + ring.length - 2, get _, get _, get _, get _⟩, ?_⟩
    have e1 : i + ring.length - 2 + 1 = i + ring.length - 1 := by omega
    have e2 : i + ring.length - 2 + 2 = i + ring.length := by omega
    have e3 : i + ring.length - 2 + 3 = i + 1 + ring.length := by omega
    rw [e1, e2, e3, Nat.add_mod_right, Nat.add_mod_right]
    rfl
  · rintro ⟨w, x, y, z, ⟨i, h1, h2, h3, h4'⟩, rfl⟩
    refine ⟨(i + 2) % ring.length, List.mem_range.2 (Nat.mod_lt _ (by omega)), ?_⟩
    rw [get] at h1 h2 h3 h4'
    simp only [Option.some.injEq] at h1 h2 h3 h4'
    subst h1 h2 h3 h4'
    have k0 : ((i + 2) % ring.length) % ring.length = (i + 2) % ring.length := Nat.mod_mod _ _
    have k1 : ((i + 2) % ring.length + 1) % ring.length = (i + 3) % ring.length := by rw [Nat.mod_add_mod]
    have k2 : ((i + 2) % ring.length + ring.length - 1) % ring.length = (i + 1) % ring.length := by
      rw [Nat.add_sub_assoc (by omega), Nat.mod_add_mod, ← Nat.add_sub_assoc (by omega)]
      rw [show i + 2 + ring.length - 1 = i + 1 + ring.length by omega, Nat.add_mod_right]
    have k3 : ((i + 2) % ring.length + ring.length - 2) % ring.length = i % ring.length := by
      rw [Nat.add_sub_assoc (by omega), Nat.mod_add_mod, ← Nat.add_sub_assoc (by omega)]
      rw [show i + 2 + ring.length - 2 = i + ring.length by omega, Nat.add_mod_right]
    unfold cornerAt edgeCorner
    simp only [k0, k1, k2, k3]

/-- what makes the loop report the violation at a rectangle of the corner -/
def CornHit (D : GDb) (rule : CornRule) (c : GCorner) (r o : GRect) : Prop :=
  o.net = c.net ∧ cornerOn c o.box = true ∧ rule.sameXY = true ∧
    ∃ q, tbl1Find rule.rows rule.valsX o.width = some q ∧
      (genIntersect ⟨c.pt, c.pt⟩ r.box).right - (genIntersect ⟨c.pt, c.pt⟩ r.box).left < q ∧
      (genIntersect ⟨c.pt, c.pt⟩ r.box).top - (genIntersect ⟨c.pt, c.pt⟩ r.box).bottom < q ∧ (r.fixed && o.fixed) = false ∧
      (hasRouteNear D (genIntersect ⟨c.pt, c.pt⟩ r.box) o || hasRouteNear D (genIntersect ⟨c.pt, c.pt⟩ r.box) r) = true

theorem tbl1_some {rule : CornRule} (hr : rule.Ok) (w : Int) : ∃ q, tbl1Find rule.rows rule.valsX w = some q := by
  have h := (c37_lookup1 hr.rows hr.ne w).1
  unfold tbl1Find
  rw [← hr.len] at h
  exact ⟨_, List.getElem?_eq_getElem h⟩

theorem cornLoop_spec {D : GDb} {rule : CornRule} (hr : rule.Ok) (c : GCorner) (r : GRect) (l : List GRect) :
    ((∃ o ∈ l, CornHit D rule c r o) → cornLoop D rule c r l = .mk (cornMarker D rule c r)) ∧
    ((¬ ∃ o ∈ l, CornHit D rule c r o) → cornLoop D rule c r l = .ok) := by
  induction l with
  | nil => exact ⟨fun ⟨o, h, _⟩ => absurd h (by simp), fun _ => rfl⟩
  | cons o t ih =>
    have skip : ¬ CornHit D rule c r o → ((∃ o' ∈ o :: t, CornHit D rule c r o') ↔ ∃ o' ∈ t, CornHit D rule c r o') := by
      intro hno
      constructor
      · rintro ⟨o', h, hh⟩
        rcases List.mem_cons.1 h with rfl | h
        · exact absurd hh hno
        · exact ⟨o', h, hh⟩
      · rintro ⟨o', h, hh⟩
        exact ⟨o', List.mem_cons_of_mem _ h, hh⟩
    obtain ⟨q, hq⟩ := tbl1_some hr o.width
    rw [cornLoop]
    by_cases h1 : o.net ≠ c.net
    · rw [if_pos h1, skip (fun h => h1 h.1)]; exact ih
    rw [if_neg h1]
    by_cases h2 : ¬ cornerOn c o.box = true
    · rw [if_pos (by simp [h2]), skip (fun h => h2 h.2.1)]; exact ih
    replace h2 := Decidable.not_not.1 h2
    rw [if_neg (by simp [h2])]
    dsimp only
    rw [if_pos hr.sameXY, hq]
    dsimp only
    by_cases h3 : (if (genIntersect ⟨c.pt, c.pt⟩ r.box).right - (genIntersect ⟨c.pt, c.pt⟩ r.box).left ≥
        (genIntersect ⟨c.pt, c.pt⟩ r.box).top - (genIntersect ⟨c.pt, c.pt⟩ r.box).bottom then
        (genIntersect ⟨c.pt, c.pt⟩ r.box).right - (genIntersect ⟨c.pt, c.pt⟩ r.box).left else
        (genIntersect ⟨c.pt, c.pt⟩ r.box).top - (genIntersect ⟨c.pt, c.pt⟩ r.box).bottom) ≥ q
    · rw [if_pos h3, skip]; exact ih
      rintro ⟨_, _, _, q', hq', g1, g2, _⟩
      rw [hq] at hq'
      simp only [Option.some.injEq] at hq'
      subst hq'
      split at h3 <;> omega
    rw [if_neg h3]
    by_cases h4 : (r.fixed && o.fixed) = true
    · rw [if_pos h4, skip]; exact ih
      rintro ⟨_, _, _, q', hq', g1, g2, g3, _⟩
      rw [h4] at g3
      exact absurd g3 (by decide)
    rw [if_neg h4]
    by_cases h5 : (hasRouteNear D (genIntersect ⟨c.pt, c.pt⟩ r.box) o || hasRouteNear D (genIntersect ⟨c.pt, c.pt⟩ r.box) r) = true
    · rw [if_neg (by simp [h5])]
      refine ⟨fun _ => rfl, fun h => absurd ⟨o, List.mem_cons_self .., ?_⟩ h⟩
      refine ⟨Decidable.not_not.1 h1, h2, hr.sameXY, q, hq, ?_, ?_, by simpa using h4, h5⟩ <;> (split at h3 <;> omega)
    · rw [if_pos (by simp [h5]), skip]; exact ih
      rintro ⟨_, _, _, q', hq', g1, g2, g3, g4⟩
      exact h5 g4

/-- the four conditions before the loop -/
theorem cornPair_spec {D : GDb} {ord : List GRect → List GRect} (hord : ∀ l, (ord l).Perm l) {rule : CornRule} (hr : rule.Ok) (c : GCorner) (r : GRect) :
    cornPair D ord rule c r ≠ .ub ∧ ∀ m, cornPair D ord rule c r = .mk m ↔
      (c.kind = rule.kind ∧ ¬ r.box.Has c.pt ∧
       (rule.kind = .convex → ¬ (r.box.left < c.pt.x ∧ c.pt.x < r.box.right) ∧ ¬ (r.box.bottom < c.pt.y ∧ c.pt.y < r.box.top)) ∧
       cornEol c rule = false ∧ (∃ o ∈ D.rects, o.box.Has c.pt ∧ CornHit D rule c r o)) ∧ m = cornMarker D rule c r := by
  have hpt : ∀ b : Box, (⟨c.pt, c.pt⟩ : Box).overlaps b = true ↔ b.Has c.pt := by
    intro b
    have h := Box.overlaps_true ⟨c.pt, c.pt⟩ b
    rw [h]
    unfold Box.Has
    simp only [Box.left, Box.right, Box.bottom, Box.top]
    omega
  have hex : (∃ o ∈ ord (D.rects.filter (fun o => (⟨c.pt, c.pt⟩ : Box).overlaps o.box)), CornHit D rule c r o) ↔
      ∃ o ∈ D.rects, o.box.Has c.pt ∧ CornHit D rule c r o := by
    constructor
    · rintro ⟨o, h1, h2⟩
      rw [(hord _).mem_iff, List.mem_filter] at h1
      exact ⟨o, h1.1, (hpt _).1 h1.2, h2⟩
    · rintro ⟨o, h1, h2, h3⟩
      exact ⟨o, by rw [(hord _).mem_iff, List.mem_filter]; exact ⟨h1, (hpt _).2 h2⟩, h3⟩
  obtain ⟨l1, l2⟩ := cornLoop_spec hr (D := D) c r (ord (D.rects.filter (fun o => (⟨c.pt, c.pt⟩ : Box).overlaps o.box)))
  unfold cornPair
  by_cases h1 : c.kind ≠ rule.kind
  · rw [if_pos h1]
    exact ⟨by simp, fun m => ⟨by simp, fun h => absurd h.1.1 h1⟩⟩
  rw [if_neg h1]
  by_cases h2 : (⟨c.pt, c.pt⟩ : Box).overlaps r.box = true
  · rw [if_pos h2]
    exact ⟨by simp, fun m => ⟨by simp, fun h => absurd ((hpt _).1 h2) h.1.2.1⟩⟩
  rw [if_neg h2]
  by_cases h3 : rule.kind = .convex ∧ (r.box.left < c.pt.x ∧ c.pt.x < r.box.right)
  · rw [if_pos h3]
    exact ⟨by simp, fun m => ⟨by simp, fun h => absurd h3.2 (h.1.2.2.1 h3.1).1⟩⟩
  rw [if_neg h3]
  by_cases h4 : rule.kind = .convex ∧ (r.box.bottom < c.pt.y ∧ c.pt.y < r.box.top)
  · rw [if_pos h4]
    exact ⟨by simp, fun m => ⟨by simp, fun h => absurd h4.2 (h.1.2.2.1 h4.1).2⟩⟩
  rw [if_neg h4]
  by_cases h5 : cornEol c rule = true
  · rw [if_pos h5]
    refine ⟨by simp, fun m => ⟨by simp, fun h => ?_⟩⟩
    have := h.1.2.2.2.1
    rw [h5] at this
    exact absurd this (by decide)
  rw [if_neg h5]
  by_cases h6 : ∃ o ∈ D.rects, o.box.Has c.pt ∧ CornHit D rule c r o
  · rw [l1 (hex.2 h6)]
    refine ⟨by simp, fun m => ⟨fun h => ?_, fun h => by rw [h.2]⟩⟩
    simp only [GOut.mk.injEq] at h
    exact ⟨⟨Decidable.not_not.1 h1, fun h => h2 ((hpt _).2 h), fun hk => ⟨fun h => h3 ⟨hk, h⟩, fun h => h4 ⟨hk, h⟩⟩, by simpa using h5, h6⟩, h.symm⟩
  · rw [l2 (fun h => h6 (hex.1 h))]
    exact ⟨by simp, fun m => ⟨by simp, fun h => absurd h.1.2.2.2.2 h6⟩⟩

theorem span_long {e : GEdge} (he : e.Ok) (w : Int) : e.span < w ↔ ∃ l, e.Long l ∧ l < w := by
  have hc := edge_coords he
  have : ∀ l, e.Long l ↔ l = e.span := by
    intro l
    unfold GEdge.Long GEdge.span
    cases hd : e.dir <;> simp only [hd, reduceCtorEq, forall_const, false_implies, and_true, true_and] at hc <;> omega
  constructor
  · intro h
    exact ⟨_, (this _).2 rfl, h⟩
  · rintro ⟨l, h1, h2⟩
    rw [← (this l).1 h1]
    exact h2

theorem cornNeeds_iff {rule : CornRule} (hr : rule.Ok) (w q : Int) : CornNeeds rule w q ↔ tbl1Find rule.rows rule.valsX w = some q := by
  have hk := c37_lookup1 hr.rows hr.ne w
  unfold CornNeeds tbl1Find
  constructor
  · rintro ⟨i, h1, h2⟩
    have : i = tbl1Idx rule.rows w := by
      obtain ⟨a1, a2, a3⟩ := h1
      obtain ⟨b1, b2, b3⟩ := hk
      have l1 : tbl1Idx rule.rows w ≤ i := by
        rcases b3 with ⟨k, h, h'⟩ | h
        · exact a2 _ k h h'
        · omega
      have l2 : i ≤ tbl1Idx rule.rows w := by
        rcases a3 with ⟨k, h, h'⟩ | h
        · exact b2 _ k h h'
        · omega
      omega
    rw [← this]
    exact h2
  · intro h
    exact ⟨_, hk, h⟩

theorem closerXY_iff {p : Point} {b m : Box} (hb : b.Proper) (hm : IsBetween ⟨p, p⟩ b m) (q : Int) :
    CloserXY p b q ↔ m.right - m.left < q ∧ m.top - m.bottom < q := by
  obtain ⟨m1, m2, m3, m4⟩ := hm
  unfold Box.Proper at hb
  simp only [Box.left, Box.right, Box.bottom, Box.top] at m1 m2 m3 m4 hb ⊢
  unfold CloserXY Box.Has
  simp only [Box.left, Box.right, Box.bottom, Box.top]
  constructor
  · rintro ⟨t, h1, h2, h3⟩
    omega
  · rintro ⟨h1, h2⟩
    refine ⟨⟨max b.ll.x (min p.x b.ur.x), max b.ll.y (min p.y b.ur.y)⟩, ?_, ?_, ?_⟩ <;> simp only <;> omega

theorem cornPair_iff {D : GDb} (hD : D.Ok) {ord : List GRect → List GRect} (hord : ∀ l, (ord l).Perm l) {rule : CornRule} (hr : rule.Ok)
    {n : Nat} {a b c d : GEdge} (ha : a.Ok) (hb : b.Ok) (hc : c.Ok) (hd : d.Ok) (hn : c.net = n) {r : GRect} (hrr : r ∈ D.rects) (m : GMk) :
    cornPair D ord rule (edgeCorner a b c d) r = .mk m ↔ CornerViolation D rule n a b c d r m := by
  subst hn
  rw [(cornPair_spec hord hr _ r).2 m]
  have hp : (⟨c.lo, c.lo⟩ : Box).Proper := ⟨Int.le_refl _, Int.le_refl _⟩
  have hg := genIntersect_between hp (hD.proper hrr)
  have hmk : m = cornMarker D rule (edgeCorner a b c d) r ↔ IsBetween ⟨c.lo, c.lo⟩ r.box m.box ∧ m.layer = D.layer.num ∧ m.rule = .other rule.id ∧
      m.srcs.Pairwise (· < ·) ∧ (∀ w, w ∈ m.srcs ↔ w = (D.net c.net).owner ∨ w = (D.net r.net).owner) := by
    have h := pairMarker_iff (D := D) (r := ⟨0, ⟨c.lo, c.lo⟩, c.net, true⟩) (s := r) hg (rule := .other rule.id) (m := m)
    constructor
    · intro he
      exact h.1 he.symm
    · intro he
      exact (h.2 he).symm
  have hkind : (edgeCorner a b c d).kind = rule.kind ↔ RuleTurn rule b c := by
    unfold RuleTurn
    rw [← cornKind_convex hb hc, ← cornKind_concave hb hc]
    show cornKind b.dir c.dir = rule.kind ↔ _
    have := hr.kind
    cases hk : rule.kind <;> simp [hk] at this ⊢
  have heol : cornEol (edgeCorner a b c d) rule = false ↔ ∀ w, rule.eol = some w → ¬ LineEnd a b c d w := by
    unfold cornEol LineEnd
    cases he : rule.eol with
    | none => simp
    | some w =>
      simp only [Option.some.injEq, forall_eq']
      rw [← cornKind_convex hb hc, ← cornKind_convex hc hd, ← cornKind_convex ha hb, ← span_long hc, ← span_long hb]
      rw [← Bool.not_eq_true, Bool.and_eq_true, Bool.or_eq_true, Bool.and_eq_true, Bool.and_eq_true]
      simp only [decide_eq_true_iff]
      exact Iff.rfl
  have hhit : m = cornMarker D rule (edgeCorner a b c d) r → ¬ r.box.Has c.lo →
      ((∃ o ∈ D.rects, o.box.Has c.lo ∧ CornHit D rule (edgeCorner a b c d) r o) ↔
      (∃ sx sy, CornOut b c sx sy ∧ ∃ o ∈ D.rects, o.net = c.net ∧ CornerOf o.box c.lo sx sy ∧
    (∃ q, CornNeeds rule (min (o.box.right - o.box.left) (o.box.top - o.box.bottom)) q ∧ CloserXY c.lo r.box q) ∧
    (r.fixed = false ∨ o.fixed = false) ∧
    (RoutedNear (D.fixedPolys c.net) o.box m.box (min (o.box.right - o.box.left) (o.box.top - o.box.bottom)) ∨
     RoutedNear (D.fixedPolys r.net) r.box m.box (min (r.box.right - r.box.left) (r.box.top - r.box.bottom))))) := by
    intro hm hout
    have hmb : m.box = genIntersect ⟨c.lo, c.lo⟩ r.box := (hmk.1 hm).1.unique hg
    have hpt : (edgeCorner a b c d).pt = c.lo := rfl
    rw [hmb]
    constructor
    · rintro ⟨o, ho, _, h1, h2, h3, q, h4, h5, h6, h7, h8⟩
      obtain ⟨sx, sy, hv, hco⟩ := (cornerOn_iff _ _).1 h2
      refine ⟨sx, sy, (outward_iff hb hc sx sy).2 hv, o, ho, h1, hco, ⟨q, (cornNeeds_iff hr _ _).2 h4, (closerXY_iff (hD.proper hrr) hg q).2 ⟨h5, h6⟩⟩, ?_, ?_⟩
      · cases hrf : r.fixed <;> cases hof : o.fixed <;> simp [hrf, hof] at h7 ⊢
      · rw [Bool.or_eq_true, hasRouteNear_iff, hasRouteNear_iff, h1] at h8
        exact h8
    · rintro ⟨sx, sy, hv, o, ho, h1, h2, ⟨q, h3, h4⟩, h5, h6⟩
      obtain ⟨g1, g2⟩ := (closerXY_iff (hD.proper hrr) hg q).1 h4
      have hpo := hD.proper ho
      refine ⟨o, ho, ?_, h1, (cornerOn_iff _ _).2 ⟨sx, sy, (outward_iff hb hc sx sy).1 hv, h2⟩, hr.sameXY, q, (cornNeeds_iff hr _ _).1 h3, g1, g2, ?_, ?_⟩
      · unfold CornerOf at h2
        unfold Box.Has
        unfold Box.Proper at hpo
        obtain ⟨k1, k2⟩ := h2
        split at k1 <;> split at k2 <;> omega
      · cases hrf : r.fixed <;> cases hof : o.fixed <;> simp [hrf, hof] at h5 ⊢
      · rw [Bool.or_eq_true, hasRouteNear_iff, hasRouteNear_iff, h1]
        exact h6
  unfold CornerViolation
  rw [hkind, heol]
  constructor
  · rintro ⟨⟨h1, h2, h3, h4, h5⟩, h6⟩
    exact ⟨h1, h2, h3, h4, (hhit h6 h2).1 h5, hmk.1 h6⟩
  · rintro ⟨h1, h2, h3, h4, h5, h6⟩
    exact ⟨⟨h1, h2, h3, h4, (hhit (hmk.2 h6) h2).2 h5⟩, hmk.2 h6⟩

/-! ### the window -/

theorem cornMax_ge (rules : List CornRule) : 0 ≤ (cornMax rules).1 ∧ 0 ≤ (cornMax rules).2 ∧
    ∀ rule ∈ rules, rule.valsX.getLastD 0 ≤ (cornMax rules).1 ∧ rule.valsY.getLastD 0 ≤ (cornMax rules).2 := by
  unfold cornMax
  suffices ∀ (m : Int × Int), 0 ≤ m.1 → 0 ≤ m.2 →
      m.1 ≤ (rules.foldl (fun m r => (max m.1 (r.valsX.getLastD 0), max m.2 (r.valsY.getLastD 0))) m).1 ∧
      m.2 ≤ (rules.foldl (fun m r => (max m.1 (r.valsX.getLastD 0), max m.2 (r.valsY.getLastD 0))) m).2 ∧
      ∀ rule ∈ rules, rule.valsX.getLastD 0 ≤ (rules.foldl (fun m r => (max m.1 (r.valsX.getLastD 0), max m.2 (r.valsY.getLastD 0))) m).1 ∧
        rule.valsY.getLastD 0 ≤ (rules.foldl (fun m r => (max m.1 (r.valsX.getLastD 0), max m.2 (r.valsY.getLastD 0))) m).2 by
    exact this (0, 0) (Int.le_refl _) (Int.le_refl _)
  induction rules with
  | nil => intro m h1 h2; simp
  | cons r t ih =>
    intro m h1 h2
    obtain ⟨g1, g2, g3⟩ := ih (max m.1 (r.valsX.getLastD 0), max m.2 (r.valsY.getLastD 0)) (by dsimp only; omega) (by dsimp only; omega)
    dsimp only at g1 g2
    rw [List.foldl_cons]
    refine ⟨by omega, by omega, ?_⟩
    intro rule hrule
    rcases List.mem_cons.1 hrule with rfl | hrule
    · constructor <;> omega
    · exact g3 rule hrule

theorem needs_le_last {rule : CornRule} (hr : rule.Ok) {w q : Int} (h : CornNeeds rule w q) : q ≤ rule.valsX.getLastD 0 := by
  obtain ⟨i, _, h2⟩ := h
  have hlt : i < rule.valsX.length := (List.getElem?_eq_some_iff.1 h2).1
  have hv : rule.valsX[i] = q := (List.getElem?_eq_some_iff.1 h2).2
  have hne : rule.valsX ≠ [] := by intro hh; rw [hh] at hlt; simp at hlt
  rw [List.getLastD_eq_getLast?, List.getLast?_eq_getElem?, List.getElem?_eq_getElem (show rule.valsX.length - 1 < rule.valsX.length by omega)]
  dsimp only [Option.getD]
  by_cases he : i = rule.valsX.length - 1
  · subst he
    omega
  · have := List.pairwise_iff_getElem.1 hr.mono i (rule.valsX.length - 1) hlt (by omega) (by omega)
    omega

/-- the window of a corner reaches exactly the rectangles of its outward quadrant up to the largest spacing -/
theorem window_iff {b c : GEdge} (hb : b.Ok) (hc : c.Ok) (hx : crossEdge b c ≠ 0) (a d : GEdge) {r : Box} (hr : r.Proper) {m : Int × Int} (h0 : 0 ≤ m.1 ∧ 0 ≤ m.2) :
    (cornWindow (edgeCorner a b c d) m).overlaps r = true ↔ ∃ sx sy, CornOut b c sx sy ∧ ReachesQuadrant r c.lo sx sy ∧
      (∃ t, r.Has t ∧ t.x - c.lo.x ≤ m.1 ∧ c.lo.x - t.x ≤ m.1) ∧ (∃ t, r.Has t ∧ t.y - c.lo.y ≤ m.2 ∧ c.lo.y - t.y ≤ m.2) := by
  have hdir : (edgeCorner a b c d).dir = cornDir b.dir c.dir := rfl
  have hpt : (edgeCorner a b c d).pt = c.lo := rfl
  have hov := Box.overlaps_true (cornWindow (edgeCorner a b c d) m) r
  rw [hov]
  obtain ⟨hr1, hr2⟩ := hr
  have hq : ∀ sx sy, (sx = 1 ∨ sx = -1) → (sy = 1 ∨ sy = -1) → (ReachesQuadrant r c.lo sx sy ∧
      (∃ t, r.Has t ∧ t.x - c.lo.x ≤ m.1 ∧ c.lo.x - t.x ≤ m.1) ∧ (∃ t, r.Has t ∧ t.y - c.lo.y ≤ m.2 ∧ c.lo.y - t.y ≤ m.2) ↔
      (if sx = 1 then c.lo.x ≤ r.right ∧ r.left ≤ c.lo.x + m.1 else r.left ≤ c.lo.x ∧ c.lo.x - m.1 ≤ r.right) ∧
      (if sy = 1 then c.lo.y ≤ r.top ∧ r.bottom ≤ c.lo.y + m.2 else r.bottom ≤ c.lo.y ∧ c.lo.y - m.2 ≤ r.top)) := by
    intro sx sy h1 h2
    constructor
    · rintro ⟨⟨q, ⟨q1, q2, q3, q4⟩, q5, q6⟩, ⟨t, ⟨t1, t2, t3, t4⟩, t5, t6⟩, ⟨u, ⟨u1, u2, u3, u4⟩, u5, u6⟩⟩
      rcases h1 with rfl | rfl <;> rcases h2 with rfl | rfl <;> simp at q5 q6 ⊢ <;> omega
    · intro h
      have hh : (sx = 1 → c.lo.x ≤ r.right ∧ r.left ≤ c.lo.x + m.1) ∧ (sx = -1 → r.left ≤ c.lo.x ∧ c.lo.x - m.1 ≤ r.right) ∧
          (sy = 1 → c.lo.y ≤ r.top ∧ r.bottom ≤ c.lo.y + m.2) ∧ (sy = -1 → r.bottom ≤ c.lo.y ∧ c.lo.y - m.2 ≤ r.top) := by
        rcases h1 with rfl | rfl <;> rcases h2 with rfl | rfl <;> simp at h ⊢ <;> omega
      refine ⟨⟨⟨if sx = 1 then r.right else r.left, if sy = 1 then r.top else r.bottom⟩, ?_, ?_, ?_⟩,
        ⟨⟨max r.left (min c.lo.x r.right), r.bottom⟩, ?_, ?_, ?_⟩, ⟨⟨r.left, max r.bottom (min c.lo.y r.top)⟩, ?_, ?_, ?_⟩⟩ <;>
        (try unfold Box.Has) <;> dsimp only <;>
        rcases h1 with rfl | rfl <;> rcases h2 with rfl | rfl <;> simp at hh ⊢ <;> omega
  have hk : ∀ (D : CornDir) (sx sy : Int), cornDir b.dir c.dir = D → dirVec D = some (sx, sy) →
      (r.left ≤ (cornWindow (edgeCorner a b c d) m).right ∧ r.bottom ≤ (cornWindow (edgeCorner a b c d) m).top ∧
       (cornWindow (edgeCorner a b c d) m).left ≤ r.right ∧ (cornWindow (edgeCorner a b c d) m).bottom ≤ r.top ↔
      (if sx = 1 then c.lo.x ≤ r.right ∧ r.left ≤ c.lo.x + m.1 else r.left ≤ c.lo.x ∧ c.lo.x - m.1 ≤ r.right) ∧
      (if sy = 1 then c.lo.y ≤ r.top ∧ r.bottom ≤ c.lo.y + m.2 else r.bottom ≤ c.lo.y ∧ c.lo.y - m.2 ≤ r.top)) := by
    intro D sx sy h1 h2
    unfold cornWindow
    rw [hdir, h1, hpt]
    cases D <;> simp [dirVec] at h2 <;> obtain ⟨rfl, rfl⟩ := h2 <;> simp [Box.left, Box.right, Box.bottom, Box.top] <;> omega
  have hsome : ∃ sx sy, dirVec (cornDir b.dir c.dir) = some (sx, sy) := by
    have h1 := leftTurn_iff hb hc
    have h2 := rightTurn_iff hb hc
    have h3 : LeftTurn b c ∨ RightTurn b c := by unfold LeftTurn RightTurn; omega
    rw [h1, h2] at h3
    revert h3
    cases b.dir <;> cases c.dir <;> simp [turnSign, cornDir, dirVec]
  constructor
  · intro h
    obtain ⟨sx, sy, hv⟩ := hsome
    have ho := (outward_iff hb hc sx sy).2 hv
    refine ⟨sx, sy, ho, (hq sx sy ho.unitX ho.unitY).2 ((hk _ sx sy rfl hv).1 h)⟩
  · rintro ⟨sx, sy, ho, h⟩
    exact (hk _ sx sy rfl ((outward_iff hb hc sx sy).1 ho)).2 ((hq sx sy ho.unitX ho.unitY).1 h)

/-! ### the layer -/

/-- C108: checking the corners of a layer — for any order in which window queries return — never reads outside a table, and the stored
violations are exactly the violations of the corner rules between a corner of an outline (of the target net, if there is one) and a
rectangle that reaches the quadrant the corner points to, each stored once. -/
theorem c108_corner_spacing {D : GDb} (hD : D.Ok) {rules : List CornRule} (hrules : ∀ rule ∈ rules, rule.Ok) {rings : List (Nat × List GEdge)}
    (hrings : ∀ r ∈ rings, Outline r.1 r.2) {ord : List GRect → List GRect} (hord : ∀ l, (ord l).Perm l) (target : Option Nat) (s : GStore) :
    ∃ st, checkCorners D ord rules rings target (clearMarkers s) = some st ∧ st.markers.Nodup ∧
      ∀ m, m ∈ st.markers ↔ ∃ n ring, (n, ring) ∈ rings ∧ (∀ k, target = some k → n = k) ∧ ∃ rule ∈ rules, ∃ a b c d, Four ring a b c d ∧
        ∃ r ∈ D.rects, (∃ sx sy, CornOut b c sx sy ∧ ReachesQuadrant r.box c.lo sx sy) ∧ CornerViolation D rule n a b c d r m := by
  cases hre : rules with
  | nil =>
    refine ⟨clearMarkers s, rfl, ?_, fun m => ?_⟩
    · exact List.nodup_nil
    · simp [clearMarkers]
  | cons r0 t0 =>
  rw [← hre]
  let outs : List GOut := ((rings.filter (fun r => match target with | none => true | some n => r.1 == n)).flatMap (fun r => cornersOf r.2)).flatMap
    (fun c => (ord (D.rects.filter (fun r => (cornWindow c (cornMax rules)).overlaps r.box))).flatMap
      (fun r => rules.map (fun rule => cornPair D ord rule c r)))
  have hrun : checkCorners D ord rules rings target (clearMarkers s) = outs.foldl stepOut (some (clearMarkers s)) := by
    unfold checkCorners
    rw [if_neg (by rw [hre]; simp)]
    refine Eq.trans ?_ (foldl_flat stepOut _ _ _)
    congr 1
    funext s c
    unfold cornCheck
    refine Eq.trans ?_ (foldl_flat stepOut _ _ _)
    congr 1
    funext s r
    rw [List.foldl_map]
  have hmem : ∀ o, o ∈ outs ↔ ∃ n ring, (n, ring) ∈ rings ∧ (∀ k, target = some k → n = k) ∧ ∃ a b c d, Four ring a b c d ∧
      ∃ r ∈ D.rects, (cornWindow (edgeCorner a b c d) (cornMax rules)).overlaps r.box = true ∧ ∃ rule ∈ rules, cornPair D ord rule (edgeCorner a b c d) r = o := by
    intro o
    simp only [outs, List.mem_flatMap, List.mem_map, (hord _).mem_iff, List.mem_filter]
    constructor
    · rintro ⟨c, ⟨⟨n, ring⟩, ⟨h1, h2⟩, h3⟩, r, ⟨h4, h5⟩, rule, h6, h7⟩
      obtain ⟨w, x, y, z, hf, rfl⟩ := (mem_cornersOf (hrings _ h1).four c).1 h3
      refine ⟨n, ring, h1, ?_, w, x, y, z, hf, r, h4, h5, rule, h6, h7⟩
      intro k hk
      subst hk
      simpa using h2
    · rintro ⟨n, ring, h1, h2, w, x, y, z, hf, r, h4, h5, rule, h6, h7⟩
      refine ⟨_, ⟨⟨n, ring⟩, ⟨h1, ?_⟩, (mem_cornersOf (hrings _ h1).four _).2 ⟨w, x, y, z, hf, rfl⟩⟩, r, ⟨h4, h5⟩, rule, h6, h7⟩
      cases target with
      | none => rfl
      | some n => simpa using h2 n rfl
  have hedge : ∀ {n : Nat} {ring : List GEdge}, (n, ring) ∈ rings → ∀ {a b c d : GEdge}, Four ring a b c d →
      a.Ok ∧ b.Ok ∧ c.Ok ∧ d.Ok ∧ c.net = n ∧ crossEdge b c ≠ 0 := by
    intro n ring h a b c d hf
    have hO := hrings _ h
    obtain ⟨i, h1, h2, h3, h4⟩ := hf
    exact ⟨hO.ok _ (List.mem_of_getElem? h1), hO.ok _ (List.mem_of_getElem? h2), hO.ok _ (List.mem_of_getElem? h3), hO.ok _ (List.mem_of_getElem? h4),
      hO.net _ (List.mem_of_getElem? h3), (hO.turns (i + 1) b c h2 h3).2⟩
  have hub : GOut.ub ∉ outs := by
    rw [hmem]
    rintro ⟨n, ring, h1, _, a, b, c, d, hf, r, hr, _, rule, hrule, h⟩
    exact (cornPair_spec hord (hrules _ hrule) _ r).1 h
  obtain ⟨hm1, hm2, hm3⟩ := cornMax_ge rules
  have houts : ∀ m, m ∈ outMks outs ↔ ∃ n ring, (n, ring) ∈ rings ∧ (∀ k, target = some k → n = k) ∧ ∃ rule ∈ rules, ∃ a b c d, Four ring a b c d ∧
        ∃ r ∈ D.rects, (∃ sx sy, CornOut b c sx sy ∧ ReachesQuadrant r.box c.lo sx sy) ∧ CornerViolation D rule n a b c d r m := by
    intro m
    unfold outMks
    rw [List.mem_filterMap]
    constructor
    · rintro ⟨o, ho, hm⟩
      cases o with
      | ub => simp at hm
      | ok => simp at hm
      | mk m' =>
        simp only [Option.some.injEq] at hm
        subst hm
        obtain ⟨n, ring, h1, h2, a, b, c, d, hf, r, hr, hw, rule, hrule, h⟩ := (hmem _).1 ho
        obtain ⟨ha, hb, hc, hd, hn, hx⟩ := hedge h1 hf
        obtain ⟨sx, sy, hout, hreach, _⟩ := (window_iff hb hc hx a d (hD.proper hr) ⟨hm1, hm2⟩).1 hw
        exact ⟨n, ring, h1, h2, rule, hrule, a, b, c, d, hf, r, hr, ⟨sx, sy, hout, hreach⟩,
          (cornPair_iff hD hord (hrules _ hrule) ha hb hc hd hn hr _).1 h⟩
    · rintro ⟨n, ring, h1, h2, rule, hrule, a, b, c, d, hf, r, hr, ⟨sx, sy, hout, hreach⟩, v⟩
      obtain ⟨ha, hb, hc, hd, hn, hx⟩ := hedge h1 hf
      refine ⟨.mk m, (hmem _).2 ⟨n, ring, h1, h2, a, b, c, d, hf, r, hr, ?_, rule, hrule, (cornPair_iff hD hord (hrules _ hrule) ha hb hc hd hn hr _).2 v⟩, rfl⟩
      refine (window_iff hb hc hx a d (hD.proper hr) ⟨hm1, hm2⟩).2 ⟨sx, sy, hout, hreach, ?_⟩
      obtain ⟨_, _, _, _, ⟨_, _, _, o, _, _, _, ⟨q, hq, t, ht, ⟨t1, t2⟩, ⟨t3, t4⟩⟩, _⟩, _⟩ := v
      have hle := needs_le_last (hrules _ hrule) hq
      obtain ⟨g1, g2⟩ := hm3 rule hrule
      rw [(hrules _ hrule).same] at g2
      exact ⟨⟨t, ht, by omega, by omega⟩, ⟨t, ht, by omega, by omega⟩⟩
  refine ⟨_, by rw [hrun, stepOut_fold _ _ hub], ?_, ?_⟩
  · have := (c29_store s (outMks outs)).1
    exact this.imp (fun {a b} h (he : a = b) => h (he ▸ .refl _))
  · intro m
    obtain ⟨_, h2, h3⟩ := c29_store s (outMks outs)
    rw [← houts]
    refine ⟨h2 m, fun hm => ?_⟩
    obtain ⟨n, hn, hs⟩ := h3 m hm
    have names : ∀ m, m ∈ outMks outs → m.srcs.Pairwise (· < ·) ∧ m.srcs.length ≤ 2 ∧ 0 < m.srcs.length := by
      intro m hm
      obtain ⟨n, ring, _, _, rule, _, a, b, c, d, _, r, _, _, v⟩ := (houts m).1 hm
      have hno : NamesOwners D ⟨0, ⟨c.lo, c.lo⟩, n, true⟩ r m.srcs := v.2.2.2.2.2.2.2.2
      exact ⟨hno.1, (names_length hno).1, (names_length hno).2⟩
    obtain ⟨a1, a2, a3⟩ := names n (h2 n hn)
    obtain ⟨b1, b2, b3⟩ := names m hm
    rw [← same_sorted a1 b1 a2 b2 b3 hs]
    exact hn

end TR
