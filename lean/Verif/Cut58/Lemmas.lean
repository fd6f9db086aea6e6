import Verif.Cut58.Spec
import Verif.GC.Cut.Props
import Verif.GC.CornerProps
/-! Lemmas about the cut spacing rules of LEF58_SPACING. -/
namespace TR

theorem clsFrom_iff (w l : Int) : ∀ (cs : List (Int × Int)) (i res k : Int), clsFrom w l cs i res = k ↔
    (∃ j : Nat, k = i + j ∧ cs[j]? = some (w, l) ∧ ∀ j' : Nat, j < j' → cs[j']? ≠ some (w, l)) ∨
    ((∀ j : Nat, cs[j]? ≠ some (w, l)) ∧ k = res)
  | [], i, res, k => by simp [clsFrom, eq_comm]
  | c :: cs, i, res, k => by
    unfold clsFrom
    rw [clsFrom_iff w l cs]
    constructor
    · rintro (⟨j, rfl, h1, h2⟩ | ⟨h1, rfl⟩)
      · refine .inl ⟨j + 1, by omega, h1, ?_⟩
        intro j' hj
        obtain ⟨j', rfl⟩ : ∃ k, j' = k + 1 := ⟨j' - 1, by omega⟩
        exact h2 j' (by omega)
      · by_cases hc : c.1 = w ∧ c.2 = l
        · rw [if_pos hc]
          refine .inl ⟨0, by omega, ?_, ?_⟩
          · simp [← hc.1, ← hc.2]
          · intro j' hj
            obtain ⟨j', rfl⟩ : ∃ k, j' = k + 1 := ⟨j' - 1, by omega⟩
            exact h1 j'
        · rw [if_neg hc]
          refine .inr ⟨?_, rfl⟩
          intro j
          cases j with
          | zero =>
            intro h
            have h' := Option.some.inj h
            exact hc ⟨by rw [h'], by rw [h']⟩
          | succ j => exact h1 j
    · rintro (⟨j, rfl, h1, h2⟩ | ⟨h1, rfl⟩)
      · cases j with
        | zero =>
          have h' := Option.some.inj h1
          refine .inr ⟨fun j => h2 (j + 1) (by omega), ?_⟩
          rw [if_pos ⟨by rw [h'], by rw [h']⟩]
          omega
        | succ j =>
          exact .inl ⟨j, by omega, h1, fun j' hj => h2 (j' + 1) (by omega)⟩
      · refine .inr ⟨fun j => h1 (j + 1), ?_⟩
        rw [if_neg]
        intro hc
        exact h1 0 (by simp [← hc.1, ← hc.2])

theorem clsOf_iff (C : C58Db) (r : GRect) {k : Int} (hk : 0 ≤ k) : C.clsOf r = k ↔ C.OfClass r k := by
  unfold C58Db.clsOf clsIdx
  rw [clsFrom_iff]
  unfold C58Db.OfClass
  constructor
  · rintro (⟨j, h, h1, h2⟩ | ⟨_, h⟩)
    · exact ⟨j, by omega, h1, h2⟩
    · omega
  · rintro ⟨j, h, h1, h2⟩
    exact .inl ⟨j, by omega, h1, h2⟩

theorem count_fold (far near : GRect → Prop) [DecidablePred far] [DecidablePred near] (L : List GRect) : ∀ i : Int,
    L.foldl (fun (cnt : Int) s => if far s then cnt else if near s then cnt + 1 else cnt) i =
      i + ((L.filter (fun s => decide (¬ far s) && decide (near s))).length : Int) := by
  induction L with
  | nil => intro i; simp
  | cons a L ih =>
    intro i
    rw [List.foldl_cons, ih, List.filter_cons]
    by_cases hf : far a
    · simp [hf]
    · by_cases hb : near a
      · simp [hf, hb]; omega
      · simp [hf, hb]

theorem near_self {a : Box} (ha : a.Proper) (c2c : Bool) {w : Int} (hw : 0 < w) : CutNear c2c a a w := by
  have hp : 0 < w * w := Int.mul_pos hw hw
  cases c2c
  · exact .inr ⟨rfl, a.ll, a.ll, ⟨Int.le_refl _, ha.1, Int.le_refl _, ha.2⟩, ⟨Int.le_refl _, ha.1, Int.le_refl _, ha.2⟩, by simpa using hp⟩
  · exact .inl ⟨rfl, boxCentre a, boxCentre a, ⟨rfl, rfl⟩, ⟨rfl, rfl⟩, by simpa using hp⟩

/-- the count of neighbours -/
theorem count_iff {C : C58Db} (hD : C.base.Ok) {query : Int → Box → List GRect} (hq : CutQuery C.base query) {c : L58Rule} (hw : 0 < c.within)
    (hcls : 0 ≤ c.cls) {r : GRect} (hr : r ∈ C.base.rects C.base.layer) {n : Int} (hn : 0 ≤ n) : C.count query c r ≥ n ↔ C.Counts c r n := by
  have hrp := hD.box hr
  obtain ⟨q1, q2⟩ := hq C.base.layer (gBloat r.box c.within) (bloat_proper hrp (by omega))
  unfold C58Db.count
  rw [count_fold (fun s => dist58 c.c2c r.box s.box ≥ c.within * c.within) (fun s => C.clsOf s = c.cls)]
  generalize hF : (query C.base.layer (gBloat r.box c.within)).filter (fun s => decide (¬ dist58 c.c2c r.box s.box ≥ c.within * c.within) && decide (C.clsOf s = c.cls)) = F
  have hFn : F.Nodup := hF ▸ q1.sublist List.filter_sublist
  have hFm : ∀ s, s ∈ F ↔ s ∈ C.base.rects C.base.layer ∧ C.OfClass s c.cls ∧ CutNear c.c2c r.box s.box c.within := by
    intro s
    rw [← hF, List.mem_filter, Bool.and_eq_true, decide_eq_true_eq, decide_eq_true_eq, q2, clsOf_iff C s hcls]
    constructor
    · rintro ⟨⟨h1, _⟩, h2, h3⟩
      refine ⟨h1, h3, (cutDist_iff hrp (hD.box h1) _ _).1 ?_⟩
      unfold dist58 at h2
      omega
    · rintro ⟨h1, h2, h3⟩
      refine ⟨⟨h1, near_window hrp (hD.box h1) h3 (by omega) (Int.le_refl _)⟩, ?_, h2⟩
      have := (cutDist_iff hrp (hD.box h1) _ _).2 h3
      unfold dist58
      omega
  have hG : ∀ s, s ∈ F.erase r ↔ s ∈ C.base.rects C.base.layer ∧ s.id ≠ r.id ∧ C.OfClass s c.cls ∧ CutNear c.c2c r.box s.box c.within := by
    intro s
    rw [hFn.mem_erase_iff, hFm]
    constructor
    · rintro ⟨h1, h2, h3⟩
      exact ⟨h2, fun h => h1 (hD.eq_of_id h2 hr h), h3⟩
    · rintro ⟨h1, h2, h3⟩
      exact ⟨fun h => h2 (h ▸ rfl), h1, h3⟩
  have hN : ∀ k : Int, 0 ≤ k → (C.Neighbours c r k ↔ k ≤ ((F.erase r).length : Int)) := by
    intro k hk
    constructor
    · rintro ⟨L, l1, l2, l3⟩
      have := nodup_len l1 (fun x hx => (hG x).2 (l3 x hx))
      omega
    · intro h
      refine ⟨(F.erase r).take k.toNat, (hFn.erase r).sublist (List.take_sublist _ _), by rw [List.length_take]; omega, ?_⟩
      intro s hs
      exact (hG s).1 (List.mem_of_mem_take hs)
  unfold C58Db.Counts
  rw [hN n hn, hN (n + 1) (by omega)]
  by_cases hc : C.OfClass r c.cls
  · have hrF : r ∈ F := (hFm r).2 ⟨hr, hc, near_self hrp _ hw⟩
    have := List.length_erase_of_mem hrF
    have := List.length_pos_of_mem hrF
    simp only [hc, true_and, not_true_eq_false, false_and, or_false]
    omega
  · have hrF : r ∉ F := fun h => hc ((hFm r).1 h).2.1
    rw [List.erase_of_not_mem hrF]
    simp only [hc, not_false_eq_true, true_and, false_and, false_or]
    omega

theorem odd_iff (c : L58Rule) : c.odd = true ↔ ¬ c.Plain := by
  unfold L58Rule.odd L58Rule.Plain
  rw [← Bool.not_eq_false]
  apply not_congr
  simp only [Bool.or_eq_false_iff, decide_eq_false_iff_not, Decidable.not_not, and_assoc]

theorem req_iff (C : C58Db) {c : L58Rule} (ha : c.adj ≠ -1) (r s : GRect) (q : Int) : C.Requires c r s q ↔ q = C.req c r s := by
  unfold C58Db.Requires C58Db.req
  rw [if_pos ha, ← bigObs_iff, ← bigObs_iff]
  dsimp only
  cases bigObs C.base C.base.layer r <;> cases bigObs C.base C.base.layer s <;> simp

/-! ### corners -/

theorem four_at {ring : List GEdge} (h4 : 4 ≤ ring.length) (i : Nat) :
    Four ring (ringEdge ring (i + ring.length - 2)) (ringEdge ring (i + ring.length - 1)) (ringEdge ring i) (ringEdge ring (i + 1)) := by
  have get : ∀ k, ring[k % ring.length]? = some (ring.getD (k % ring.length) default) := by
    intro k
    have : k % ring.length < ring.length := Nat.mod_lt _ (by omega)
    rw [List.getD_eq_getElem?_getD, List.getElem?_eq_getElem this]
    rfl
  refine ⟨i + ring.length - 2, get _, ?_, ?_, ?_⟩
  · rw [show i + ring.length - 2 + 1 = i + ring.length - 1 by omega]; exact get _
  · rw [show i + ring.length - 2 + 2 = i + ring.length by omega, Nat.add_mod_right]; exact get _
  · rw [show i + ring.length - 2 + 3 = i + 1 + ring.length by omega, Nat.add_mod_right]; exact get _

theorem four_is {ring : List GEdge} (h4 : 4 ≤ ring.length) {a b c d : GEdge} (h : Four ring a b c d) : ∃ i, i < ring.length ∧ ring[i]? = some c ∧
    a = ringEdge ring (i + ring.length - 2) ∧ b = ringEdge ring (i + ring.length - 1) ∧ c = ringEdge ring i ∧ d = ringEdge ring (i + 1) := by
  have get : ∀ k e, ring[k % ring.length]? = some e → e = ringEdge ring k := by
    intro k e h
    unfold ringEdge
    rw [List.getD_eq_getElem?_getD, h]
    rfl
  obtain ⟨i, h1, h2, h3, h4'⟩ := h
  refine ⟨(i + 2) % ring.length, Nat.mod_lt _ (by omega), h3, ?_⟩
  have k0 : ((i + 2) % ring.length) % ring.length = (i + 2) % ring.length := Nat.mod_mod _ _
  have k1 : ((i + 2) % ring.length + 1) % ring.length = (i + 3) % ring.length := by rw [Nat.mod_add_mod]
  have k2 : ((i + 2) % ring.length + ring.length - 1) % ring.length = (i + 1) % ring.length := by
    rw [Nat.add_sub_assoc (by omega), Nat.mod_add_mod, ← Nat.add_sub_assoc (by omega)]
    rw [show i + 2 + ring.length - 1 = i + 1 + ring.length by omega, Nat.add_mod_right]
  have k3 : ((i + 2) % ring.length + ring.length - 2) % ring.length = i % ring.length := by
    rw [Nat.add_sub_assoc (by omega), Nat.mod_add_mod, ← Nat.add_sub_assoc (by omega)]
    rw [show i + 2 + ring.length - 2 = i + ring.length by omega, Nat.add_mod_right]
  refine ⟨get _ _ (by rw [k3]; exact h1), get _ _ (by rw [k2]; exact h2), get _ _ (by rw [k0]; exact h3), get _ _ (by rw [k1]; exact h4')⟩

theorem corner_eq (ring : List GEdge) (i : Nat) : cornerAt ring i =
    edgeCorner (ringEdge ring (i + ring.length - 2)) (ringEdge ring (i + ring.length - 1)) (ringEdge ring i) (ringEdge ring (i + 1)) := rfl

theorem ringEdge_mem {ring : List GEdge} (h4 : 4 ≤ ring.length) (k : Nat) : ringEdge ring k ∈ ring := by
  have : k % ring.length < ring.length := Nat.mod_lt _ (by omega)
  unfold ringEdge
  rw [List.getD_eq_getElem?_getD, List.getElem?_eq_getElem this]
  exact List.getElem_mem this

theorem long_span {e : GEdge} (he : e.Ok) (l : Int) : e.Long l ↔ l = e.span := by
  have hc := edge_coords he
  unfold GEdge.Long GEdge.span
  cases hd : e.dir <;> simp only [hd, reduceCtorEq, forall_const, false_implies, and_true, true_and] at hc <;> omega

theorem pt_box_proper (p : Point) : (⟨p, p⟩ : Box).Proper := ⟨Int.le_refl _, Int.le_refl _⟩

theorem border_iff (b : Box) (p : Point) :
    (b.overlaps ⟨p, p⟩ && !(decide (b.left < p.x) && decide (p.x < b.right) && decide (b.bottom < p.y) && decide (p.y < b.top))) = true ↔ OnBorder b p := by
  simp only [Box.overlaps, OnBorder, Box.Has, Box.left, Box.right, Box.bottom, Box.top, Bool.and_eq_true, Bool.not_eq_true', Bool.and_eq_false_iff, decide_eq_false_iff_not,
    Bool.or_eq_false_iff, if_true]
  omega

theorem cornFixed_iff (C : C58Db) (l : Int) {ring : List GEdge} {n : Nat} (ho : Outline n ring) (i : Nat) :
    C.cornFixed l ring i = true ↔ C.CornFixed l n (ringEdge ring (i + ring.length - 1)) (ringEdge ring i) := by
  have hb := ho.ok _ (ringEdge_mem ho.four (i + ring.length - 1))
  have hc := ho.ok _ (ringEdge_mem ho.four i)
  have hn := ho.net _ (ringEdge_mem ho.four i)
  unfold C58Db.cornFixed C58Db.CornFixed
  rw [corner_eq]
  unfold edgeCorner
  dsimp only
  rw [hn]
  have k1 := cornKind_convex hb hc
  have k2 := cornKind_concave hb hc
  have k3 : ¬ (LeftTurn (ringEdge ring (i + ring.length - 1)) (ringEdge ring i) ∧ RightTurn (ringEdge ring (i + ring.length - 1)) (ringEdge ring i)) := by
    unfold LeftTurn RightTurn
    omega
  cases hk : cornKind (ringEdge ring (i + ring.length - 1)).dir (ringEdge ring i).dir with
  | convex =>
    have t1 := k1.1 hk
    have t2 : ¬ RightTurn (ringEdge ring (i + ring.length - 1)) (ringEdge ring i) := fun h => k3 ⟨t1, h⟩
    simp only [t1, t2, true_and, false_and, or_false]
    rw [List.any_eq_true]
    simp only [cornerOn_iff, outward_iff hb hc]
  | concave =>
    have t2 := k2.1 hk
    have t1 : ¬ LeftTurn (ringEdge ring (i + ring.length - 1)) (ringEdge ring i) := fun h => k3 ⟨h, t2⟩
    simp only [t1, t2, true_and, false_and, false_or]
    rw [Bool.not_eq_true', ← Bool.not_eq_true, List.any_eq_true]
    simp only [border_iff]
    exact ⟨fun h x hx hb => h ⟨x, hx, hb⟩, fun h ⟨x, hx, hb⟩ => h x hx hb⟩
  | unknown =>
    have t1 : ¬ LeftTurn (ringEdge ring (i + ring.length - 1)) (ringEdge ring i) := fun h => by rw [k1.2 h] at hk; cases hk
    have t2 : ¬ RightTurn (ringEdge ring (i + ring.length - 1)) (ringEdge ring i) := fun h => by rw [k2.2 h] at hk; cases hk
    simp [t1, t2]

theorem cornMark_iff (C : C58Db) (c : L58Rule) {r : GRect} (hr : r.box.Proper) (s : GRect) (p : Point) (m : GMk) : C.CornMarker c r s p m ↔ m = C.cornMark c r s p := by
  have hb := genIntersect_between (pt_box_proper p) hr
  have hsrc : (srcPair (C.base.net r.net).owner (C.base.net s.net).owner).Pairwise (· < ·) ∧
      ∀ o, o ∈ srcPair (C.base.net r.net).owner (C.base.net s.net).owner ↔ o = (C.base.net r.net).owner ∨ o = (C.base.net s.net).owner := by
    unfold srcPair
    split
    · simp_all
    · split
      · simp_all
      · refine ⟨by simp; omega, fun o => by simp [or_comm]⟩
  unfold C58Db.cornMark
  constructor
  · rintro ⟨h1, h2, h3, h4, h5⟩
    obtain ⟨mb, ml, mr, ms⟩ := m
    simp only at h1 h2 h3 h4 h5
    rw [h1.unique hb, h2, h3, sorted_ext h4 hsrc.1 (fun o => (h5 o).trans (hsrc.2 o).symm)]
  · rintro rfl
    exact ⟨hb, rfl, rfl, hsrc.1, hsrc.2⟩

theorem nearPt_iff {a : Box} (ha : a.Proper) (p : Point) (c2c : Bool) (q : Int) :
    (if c2c = true then ptDist2 (boxCentre a) p else rectDist2 a ⟨p, p⟩) < q * q ↔ CutNearPt c2c a p q := by
  unfold CutNearPt
  cases c2c
  · simp only [Bool.false_eq_true, if_false, false_and, false_or, true_and]
    refine (closer_iff ha (pt_box_proper p) q).symm.trans ?_
    unfold Closer
    constructor
    · rintro ⟨t, u, ht, hu, h⟩
      have : u = p := by
        obtain ⟨ux, uy⟩ := u
        obtain ⟨px, py⟩ := p
        simp only [Box.Has, Box.left, Box.right, Box.bottom, Box.top] at hu
        simp only [Point.mk.injEq]
        omega
      subst this
      exact ⟨t, ht, h⟩
    · rintro ⟨t, ht, h⟩
      exact ⟨t, p, ht, ⟨Int.le_refl _, Int.le_refl _, Int.le_refl _, Int.le_refl _⟩, h⟩
  · simp only [if_true, Bool.true_eq_false, true_and, false_and, or_false]
    constructor
    · intro h
      exact ⟨_, ⟨rfl, rfl⟩, h⟩
    · rintro ⟨⟨tx, ty⟩, ⟨t1, t2⟩, h⟩
      simp only at t1 t2
      subst t1; subst t2
      exact h

theorem lineEnd_iff {rule : L58Rule} {ring : List GEdge} {n : Nat} (ho : Outline n ring) (i : Nat)
    (ht : LeftTurn (ringEdge ring (i + ring.length - 1)) (ringEdge ring i)) : lineEnd58 rule ring i = true ↔
    rule.LineEnd58 (ringEdge ring (i + ring.length - 2)) (ringEdge ring (i + ring.length - 1)) (ringEdge ring i) (ringEdge ring (i + 1)) := by
  have ha := ho.ok _ (ringEdge_mem ho.four (i + ring.length - 2))
  have hb := ho.ok _ (ringEdge_mem ho.four (i + ring.length - 1))
  have hc := ho.ok _ (ringEdge_mem ho.four i)
  have hd := ho.ok _ (ringEdge_mem ho.four (i + 1))
  unfold lineEnd58 L58Rule.LineEnd58
  rw [corner_eq]
  unfold edgeCorner
  dsimp only
  rw [← span_long hb, ← span_long hc]
  have two : ∀ {e f : GEdge}, e.Ok → f.Ok → ((∃ la lc, e.Long la ∧ f.Long lc ∧ rule.minLength ≤ la ∧ rule.minLength ≤ lc) ↔ rule.minLength ≤ e.span ∧ rule.minLength ≤ f.span) := by
    intro e f he hf
    constructor
    · rintro ⟨la, lc, h1, h2, h3, h4⟩
      rw [(long_span he la).1 h1] at h3
      rw [(long_span hf lc).1 h2] at h4
      exact ⟨h3, h4⟩
    · rintro ⟨h1, h2⟩
      exact ⟨_, _, (long_span he _).2 rfl, (long_span hf _).2 rfl, h1, h2⟩
  rw [two ha hc, two hb hd]
  simp only [Bool.or_eq_true, Bool.and_eq_true, decide_eq_true_eq, Bool.not_eq_true', Bool.or_eq_false_iff, decide_eq_false_iff_not, cornKind_convex ha hb, cornKind_convex hc hd,
    Int.not_lt, ht, true_and]
  constructor
  · rintro (⟨⟨h1, h2⟩, h3⟩ | ⟨⟨h1, h2⟩, h3⟩)
    · exact .inl ⟨h1, h3, h2.imp_right And.symm⟩
    · exact .inr ⟨h1, h3, h2⟩
  · rintro (⟨h1, h2, h3⟩ | ⟨h1, h2, h3⟩)
    · exact .inl ⟨⟨h1, h3.imp_right And.symm⟩, h2⟩
    · exact .inr ⟨⟨h1, h3⟩, h2⟩

theorem triangle_iff {a : Box} (ha : a.Proper) (p : Point) {ex ey : Int} (hx : 0 ≤ ex) (hy : 0 ≤ ey) :
    ex * ((genIntersect ⟨p, p⟩ a).top - (genIntersect ⟨p, p⟩ a).bottom) + ey * ((genIntersect ⟨p, p⟩ a).right - (genIntersect ⟨p, p⟩ a).left) < ex * ey ↔ InTriangle a p ex ey := by
  obtain ⟨m1, m2, m3, m4⟩ := genIntersect_between (pt_box_proper p) ha
  generalize genIntersect ⟨p, p⟩ a = m at *
  unfold Box.Proper at ha
  simp only [Box.left, Box.right, Box.bottom, Box.top] at m1 m2 m3 m4 ha ⊢
  unfold InTriangle Box.Has
  simp only [Box.left, Box.right, Box.bottom, Box.top]
  constructor
  · intro h
    refine ⟨⟨max a.ll.x (min p.x a.ur.x), max a.ll.y (min p.y a.ur.y)⟩, _, _, ?_, ?_, ?_, ?_, ?_, h⟩ <;> (try simp only) <;> omega
  · rintro ⟨t, u, v, h1, h2, h3, h4, h5, h6⟩
    have l1 : ex * (m.ur.y - m.ll.y) ≤ ex * v := Int.mul_le_mul_of_nonneg_left (by omega) hx
    have l2 : ey * (m.ur.x - m.ll.x) ≤ ey * u := Int.mul_le_mul_of_nonneg_left (by omega) hy
    omega

end TR
