import Verif.Patch.Props
/-! Property theorems C97 (which end gets the patch) and C98 (areas at the boundary). -/
namespace TR

/-! ## C97 -/

theorem sum_zero_iff (f : Nat → Nat) : ∀ n, (((List.range n).map f).sum = 0 ↔ ∀ k < n, f k = 0)
  | 0 => by simp
  | n + 1 => by
    rw [List.range_succ, List.map_append, List.sum_append]
    have := sum_zero_iff f n
    simp only [List.map_cons, List.map_nil, List.sum_cons, List.sum_nil, Nat.add_zero, Nat.add_eq_zero_iff, this]
    constructor
    · intro h k hk
      rcases Nat.lt_or_ge k n with h1 | h1
      · exact h.1 k h1
      · rw [show k = n by omega]; exact h.2
    · intro h
      exact ⟨fun k hk => h k (by omega), h n (by omega)⟩

theorem patchEdgeCost_zero (g : Grid) (S : SeekTech) (E : PatchEnv) (n : MIdx) (d : Dir) (hd : d = .E ∨ d = .N)
    (hdrc : 0 < E.drc) (hmk : 0 < E.marker) (hlen : 0 < g.edgeLen S n d) :
    patchEdgeCost g S E n d = 0 ↔ ¬ g.Marked (n.nbr d) := by
  obtain ⟨q1, q2, q3⟩ := (c08_queries g n).2.2.2.2.2.2.2.2.2.2.2.1 d (by rcases hd with rfl | rfl <;> simp)
    (by rcases hd with rfl | rfl <;> simp) (by rcases hd with rfl | rfl <;> simp)
  unfold patchEdgeCost Grid.Marked
  rw [q1, q2, q3]
  have a1 := Nat.mul_pos hlen hdrc
  have a2 := Nat.mul_pos hlen hmk
  simp only [bne_iff_ne, ne_eq]
  by_cases h1 : g.attr (n.nbr d) .drcP = 0 <;> by_cases h2 : g.attr (n.nbr d) .shapeP = 0 <;>
    by_cases h3 : g.attr (n.nbr d) .markP = 0 <;> simp [h1, h2, h3] <;> omega

theorem coordAt_get {l : List Int} {i : Nat} (h : i < l.length) : l[i]? = some (coordAt l i) := by
  unfold coordAt
  simp [List.getD_eq_getElem?_getD, List.getElem?_eq_getElem h]

theorem coordAt_strict {l : List Int} (h : StrictInc l) {i : Int} (h0 : 0 ≤ i) (hi : i + 1 < l.length) :
    coordAt l i < coordAt l (i + 1) := by
  unfold coordAt
  have e1 : (i + 1).toNat = i.toNat + 1 := by omega
  rw [e1]
  simp only [List.getD_eq_getElem?_getD]
  rw [List.getElem?_eq_getElem (by omega), List.getElem?_eq_getElem (by omega)]
  exact List.pairwise_iff_getElem.1 h _ _ _ _ (by omega)

/-- C97: the cost of a patch is 0 exactly if its far end stays in the route box and no node under
its centre line (other than the first of the row or column) carries a mark. -/
theorem c97_clean_iff (g : Grid) (S : SeekTech) (E : PatchEnv) (hg : g.Sorted) (n : MIdx) (hn : g.On n)
    (horz left : Bool) (len : Int) (hlen : 0 ≤ len) (hdrc : 0 < E.drc) (hmk : 0 < E.marker) :
    patchCost g S E n horz left len = some 0 ↔
      (E.routeBox.containsPt (patchEnd (g.pos n) horz left len) = true ∧
        ∀ m, UnderPatch g n horz left len m → ¬ g.Marked m) := by
  unfold patchCost
  dsimp only
  cases hc : E.routeBox.containsPt (patchEnd (g.pos n) horz left len) with
  | false =>
    have : E.routeBox.containsPt (patchEnd ⟨coordAt g.xs n.x, coordAt g.ys n.y⟩ horz left len) = false := hc
    rw [this]; simp
  | true =>
    have : E.routeBox.containsPt (patchEnd ⟨coordAt g.xs n.x, coordAt g.ys n.y⟩ horz left len) = true := hc
    rw [this]
    simp only [Bool.not_true, Bool.false_eq_true, if_false, true_and]
    unfold Grid.On at hn
    -- the box of the centre line
    have hbox : ∀ (o e : Point), e = patchEnd o horz left len →
        (if Point.lt e o then (⟨e, o⟩ : Box) else ⟨o, e⟩) =
          (if horz then (if left then ⟨⟨o.x - len, o.y⟩, o⟩ else ⟨o, ⟨o.x + len, o.y⟩⟩)
           else (if left then ⟨⟨o.x, o.y - len⟩, o⟩ else ⟨o, ⟨o.x, o.y + len⟩⟩)) := by
      rintro ⟨ox, oy⟩ e rfl
      unfold patchEnd Point.lt
      by_cases h0 : len = 0
      · subst h0; cases horz <;> cases left <;> simp
      · cases horz <;> cases left <;> simp <;> omega
    rw [hbox ⟨coordAt g.xs n.x, coordAt g.ys n.y⟩ _ rfl]
    cases horz with
    | true =>
      simp only [if_true]
      generalize hb : (if left = true then (⟨⟨coordAt g.xs n.x - len, coordAt g.ys n.y⟩, ⟨coordAt g.xs n.x, coordAt g.ys n.y⟩⟩ : Box)
        else ⟨⟨coordAt g.xs n.x, coordAt g.ys n.y⟩, ⟨coordAt g.xs n.x + len, coordAt g.ys n.y⟩⟩) = b
      rw [Option.some.injEq, sum_zero_iff]
      have hrange : ∀ i : Nat, i < g.xs.length → ((g.idxBox b).1.1 ≤ i ∧ (i : Int) ≤ (g.idxBox b).2.1 ↔
          b.left ≤ coordAt g.xs i ∧ coordAt g.xs i ≤ b.right) := fun i hi =>
        (c13_index_box g hg b i n.y.toNat _ _ (coordAt_get hi) (coordAt_get (by omega))).1
      have hval : b.Valid := by subst hb; unfold Box.Valid; split <;> simp [Box.left, Box.right, Box.bottom, Box.top] <;> omega
      have hends := (c13_index_box_empty g hg b hval).1
      have hlr : b.left = (if left = true then coordAt g.xs n.x - len else coordAt g.xs n.x) ∧
          b.right = (if left = true then coordAt g.xs n.x else coordAt g.xs n.x + len) := by
        subst hb; cases left <;> simp [Box.left, Box.right]
      generalize (g.idxBox b).1.1 = lo at *
      generalize (g.idxBox b).2.1 = hi at *
      have hedge : ∀ k : Nat, (k : Int) < hi - max 0 (lo - 1) →
          (patchEdgeCost g S E ⟨max 0 (lo - 1) + k, n.y, n.z⟩ .E = 0 ↔ ¬ g.Marked ⟨max 0 (lo - 1) + k + 1, n.y, n.z⟩) := by
        intro k hk
        have := patchEdgeCost_zero g S E ⟨max 0 (lo - 1) + k, n.y, n.z⟩ .E (Or.inl rfl) hdrc hmk (by
          have := coordAt_strict hg.1 (i := max 0 (lo - 1) + k) (by omega) (by omega)
          simp only [Grid.edgeLen, correct]
          omega)
        simpa [MIdx.nbr, Dir.delta] using this
      constructor
      · rintro h ⟨mx, my, mz⟩ ⟨hon, hz, hrow, h1, hin⟩
        unfold Grid.On at hon
        simp only [alongIdx, Bool.not_true, Bool.false_eq_true, if_false, if_true] at hrow h1 hin hz hon
        subst hz; subst hrow
        obtain ⟨i, rfl⟩ := Int.eq_ofNat_of_zero_le hon.1
        have hr := (hrange i (by omega)).2 (by rw [hlr.1, hlr.2]; cases left <;> simpa using hin)
        have hk := h (i - 1 - (max 0 (lo - 1)).toNat) (by omega)
        rw [hedge _ (by omega)] at hk
        rw [show max 0 (lo - 1) + ((i - 1 - (max 0 (lo - 1)).toNat : Nat) : Int) + 1 = (i : Int) by omega] at hk
        exact hk
      · intro h k hk
        rw [hedge k (by omega)]
        obtain ⟨i, hi'⟩ := Int.eq_ofNat_of_zero_le (show 0 ≤ max 0 (lo - 1) + k + 1 by omega)
        have hr := (hrange i (by omega)).1 (by omega)
        rw [hi']
        apply h
        refine ⟨?_, rfl, rfl, ?_, ?_⟩
        · unfold Grid.On; exact ⟨by simp, by simp; omega, hn.2.2.1, hn.2.2.2.1, hn.2.2.2.2⟩
        · simp [alongIdx]; omega
        · rw [hlr.1, hlr.2] at hr
          cases left <;> simpa using hr
    | false =>
      simp only [Bool.false_eq_true, if_false]
      generalize hb : (if left = true then (⟨⟨coordAt g.xs n.x, coordAt g.ys n.y - len⟩, ⟨coordAt g.xs n.x, coordAt g.ys n.y⟩⟩ : Box)
        else ⟨⟨coordAt g.xs n.x, coordAt g.ys n.y⟩, ⟨coordAt g.xs n.x, coordAt g.ys n.y + len⟩⟩) = b
      rw [Option.some.injEq, sum_zero_iff]
      have hrange : ∀ i : Nat, i < g.ys.length → ((g.idxBox b).1.2 ≤ i ∧ (i : Int) ≤ (g.idxBox b).2.2 ↔
          b.bottom ≤ coordAt g.ys i ∧ coordAt g.ys i ≤ b.top) := fun i hi =>
        (c13_index_box g hg b n.x.toNat i _ _ (coordAt_get (by omega)) (coordAt_get hi)).2
      have hval : b.Valid := by subst hb; unfold Box.Valid; split <;> simp [Box.left, Box.right, Box.bottom, Box.top] <;> omega
      have hends := (c13_index_box_empty g hg b hval).2.1
      have hlr : b.bottom = (if left = true then coordAt g.ys n.y - len else coordAt g.ys n.y) ∧
          b.top = (if left = true then coordAt g.ys n.y else coordAt g.ys n.y + len) := by
        subst hb; cases left <;> simp [Box.bottom, Box.top]
      generalize (g.idxBox b).1.2 = lo at *
      generalize (g.idxBox b).2.2 = hi at *
      have hedge : ∀ k : Nat, (k : Int) < hi - max 0 (lo - 1) →
          (patchEdgeCost g S E ⟨n.x, max 0 (lo - 1) + k, n.z⟩ .N = 0 ↔ ¬ g.Marked ⟨n.x, max 0 (lo - 1) + k + 1, n.z⟩) := by
        intro k hk
        have := patchEdgeCost_zero g S E ⟨n.x, max 0 (lo - 1) + k, n.z⟩ .N (Or.inr rfl) hdrc hmk (by
          have := coordAt_strict hg.2.1 (i := max 0 (lo - 1) + k) (by omega) (by omega)
          simp only [Grid.edgeLen, correct]
          omega)
        simpa [MIdx.nbr, Dir.delta] using this
      constructor
      · rintro h ⟨mx, my, mz⟩ ⟨hon, hz, hrow, h1, hin⟩
        unfold Grid.On at hon
        simp only [alongIdx, Bool.not_false, Bool.false_eq_true, if_false, if_true] at hrow h1 hin hz hon
        subst hz; subst hrow
        obtain ⟨i, rfl⟩ := Int.eq_ofNat_of_zero_le hon.2.2.1
        have hr := (hrange i (by omega)).2 (by rw [hlr.1, hlr.2]; cases left <;> simpa using hin)
        have hk := h (i - 1 - (max 0 (lo - 1)).toNat) (by omega)
        rw [hedge _ (by omega)] at hk
        rw [show max 0 (lo - 1) + ((i - 1 - (max 0 (lo - 1)).toNat : Nat) : Int) + 1 = (i : Int) by omega] at hk
        exact hk
      · intro h k hk
        rw [hedge k (by omega)]
        obtain ⟨i, hi'⟩ := Int.eq_ofNat_of_zero_le (show 0 ≤ max 0 (lo - 1) + k + 1 by omega)
        have hr := (hrange i (by omega)).1 (by omega)
        rw [hi']
        apply h
        refine ⟨?_, rfl, rfl, ?_, ?_⟩
        · unfold Grid.On; exact ⟨hn.1, hn.2.1, by simp, by simp; omega, hn.2.2.2.2⟩
        · simp [alongIdx]; omega
        · rw [hlr.1, hlr.2] at hr
          cases left <;> simpa using hr

/-- the two patches a request allows -/
def Candidate (q : PatchReq) (n : MIdx) (left : Bool) : Prop := n = q.bp ∧ left = q.bpLeft ∨ n = q.ep ∧ left = q.epLeft

/-- C97: the better end gets the patch. If one of the two candidates stays in the route box, the
chosen one does; if one of them is clean (in the box, nothing marked under it), the chosen one is. -/
theorem c97_better_end (g : Grid) (S : SeekTech) (T : PatchTech) (E : PatchEnv) (net : Nat) (q : PatchReq) :
    ∃ n left, Candidate q n left ∧
      patchMetal g S T E net q =
        patchWire g net n (T.horz q.bp.z) left (marLen T q.gap (T.width q.bp.z)) (T.width q.bp.z) ∧
      (∀ n' left', Candidate q n' left' →
        (E.routeBox.containsPt (patchEnd (g.pos n') (T.horz q.bp.z) left' (marLen T q.gap (T.width q.bp.z))) = true →
          E.routeBox.containsPt (patchEnd (g.pos n) (T.horz q.bp.z) left (marLen T q.gap (T.width q.bp.z))) = true) ∧
        (patchCost g S E n' (T.horz q.bp.z) left' (marLen T q.gap (T.width q.bp.z)) = some 0 →
          patchCost g S E n (T.horz q.bp.z) left (marLen T q.gap (T.width q.bp.z)) = some 0)) := by
  generalize hL : marLen T q.gap (T.width q.bp.z) = L
  have hsome : ∀ n left, (patchCost g S E n (T.horz q.bp.z) left L ≠ none ↔
      E.routeBox.containsPt (patchEnd (g.pos n) (T.horz q.bp.z) left L) = true) := by
    intro n left
    unfold patchCost Grid.pos
    dsimp only
    cases E.routeBox.containsPt (patchEnd ⟨coordAt g.xs n.x, coordAt g.ys n.y⟩ (T.horz q.bp.z) left L)
    · simp
    · cases T.horz q.bp.z <;> simp
  unfold patchMetal
  dsimp only
  rw [hL]
  have h1 := hsome q.bp q.bpLeft
  have h2 := hsome q.ep q.epLeft
  generalize hcL : patchCost g S E q.bp (T.horz q.bp.z) q.bpLeft L = cL at *
  generalize hcR : patchCost g S E q.ep (T.horz q.bp.z) q.epLeft L = cR at *
  split
  · rename_i hle
    refine ⟨q.bp, q.bpLeft, Or.inl ⟨rfl, rfl⟩, rfl, ?_⟩
    rintro n' left' (⟨rfl, rfl⟩ | ⟨rfl, rfl⟩)
    · exact ⟨fun h => h, fun h => h⟩
    · rw [hcL, hcR, ← h1, ← h2]
      cases cL <;> cases cR <;> simp_all [patchLe]
      omega
  · rename_i hle
    refine ⟨q.ep, q.epLeft, Or.inr ⟨rfl, rfl⟩, rfl, ?_⟩
    rintro n' left' (⟨rfl, rfl⟩ | ⟨rfl, rfl⟩)
    · rw [hcL, hcR, ← h1, ← h2]
      cases cL <;> cases cR <;> simp_all [patchLe]
      omega
    · exact ⟨fun h => h, fun h => h⟩

/-! ## C98 -/

/-- C98: the map of areas holds, for every node with access points of the net, the largest of their
areas, and nothing for other nodes. -/
theorem c98_area_map (aps : List (MIdx × Int)) (n : MIdx) :
    (areaMap aps n = none ↔ ∀ a ∈ aps, a.1 ≠ n) ∧
    (∀ v, areaMap aps n = some v → (n, v) ∈ aps ∧ ∀ a ∈ aps, a.1 = n → a.2 ≤ v) := by
  unfold areaMap
  suffices h : ∀ (aps done : List (MIdx × Int)) (m : MIdx → Option Int),
      ((m n = none ↔ ∀ a ∈ done, a.1 ≠ n) ∧ (∀ v, m n = some v → (n, v) ∈ done ∧ ∀ a ∈ done, a.1 = n → a.2 ≤ v)) →
      ((aps.foldl (fun m a n => if n = a.1 then some (match m n with | some v => max v a.2 | none => a.2) else m n) m n = none
          ↔ ∀ a ∈ done ++ aps, a.1 ≠ n) ∧
        (∀ v, aps.foldl (fun m a n => if n = a.1 then some (match m n with | some v => max v a.2 | none => a.2) else m n) m n = some v →
          (n, v) ∈ done ++ aps ∧ ∀ a ∈ done ++ aps, a.1 = n → a.2 ≤ v)) by
    exact h aps [] (fun _ => none) (by simp)
  intro aps
  induction aps with
  | nil => intro done m h; simpa using h
  | cons a aps ih =>
    intro done m h
    have := ih (done ++ [a]) (fun n => if n = a.1 then some (match m n with | some v => max v a.2 | none => a.2) else m n) ?_
    · simpa using this
    · by_cases hn : n = a.1
      · rw [if_pos hn]
        refine ⟨⟨fun h => by simp at h, fun h' => absurd hn.symm (h' a (by simp))⟩, ?_⟩
        intro v hv
        rw [Option.some.injEq] at hv
        cases hm : m n with
        | none =>
          rw [hm] at hv
          simp only at hv
          refine ⟨by rw [← hv, hn]; simp, ?_⟩
          intro b hb hbn
          rcases List.mem_append.1 hb with hb | hb
          · exact absurd hbn ((h.1.1 hm) b hb)
          · rw [List.mem_singleton] at hb; rw [hb]; omega
        | some u =>
          rw [hm] at hv
          simp only at hv
          obtain ⟨h1, h2⟩ := h.2 u hm
          refine ⟨?_, ?_⟩
          · rcases Int.le_total u a.2 with hle | hle
            · rw [← hv, Int.max_eq_right hle, hn]; simp
            · rw [← hv, Int.max_eq_left hle]; exact List.mem_append_left _ h1
          · intro b hb hbn
            rcases List.mem_append.1 hb with hb | hb
            · have := h2 b hb hbn; omega
            · rw [List.mem_singleton] at hb; rw [hb]; omega
      · rw [if_neg hn]
        refine ⟨?_, ?_⟩
        · rw [h.1]
          simp only [List.mem_append, List.mem_singleton]
          constructor
          · rintro h' b (hb | rfl)
            · exact h' b hb
            · exact Ne.symm hn
          · exact fun h' b hb => h' b (Or.inl hb)
        · intro v hv
          obtain ⟨h1, h2⟩ := h.2 v hv
          refine ⟨List.mem_append_left _ h1, ?_⟩
          intro b hb hbn
          rcases List.mem_append.1 hb with hb | hb
          · exact h2 b hb hbn
          · rw [List.mem_singleton] at hb; subst hb; exact absurd hbn.symm hn

theorem sum_filter_map {α : Type} (P : α → Bool) (f k : α → Int) : ∀ l : List α,
    (∀ o ∈ l, P o = true → f o = k o) → (∀ o ∈ l, P o = false → k o = 0) →
    ((l.filter P).map f).sum = (l.map k).sum
  | [], _, _ => rfl
  | o :: l, h1, h2 => by
    have hrec := sum_filter_map P f k l (fun o ho => h1 o (List.mem_cons_of_mem _ ho)) (fun o ho => h2 o (List.mem_cons_of_mem _ ho))
    rw [List.filter_cons]
    cases hb : P o with
    | true =>
      have := h1 o (by simp) hb
      simp only [if_true, List.map_cons, List.sum_cons]; omega
    | false =>
      have := h2 o (by simp) hb
      simp only [Bool.false_eq_true, if_false, List.map_cons, List.sum_cons]; omega

/-- the wires of the net that leave the route box at the point: one end there, the other outside -/
def leavingArea (routeBox : Box) (bp : Point) : AObj → Int
  | .seg b e w =>
    if (bp = b ∧ routeBox.containsPt e = false) ∨ (bp = e ∧ routeBox.containsPt b = false) then
      ((e.x - b.x).natAbs + (e.y - b.y).natAbs) * w else 0
  | _ => 0

/-- C98: the area at a point on the boundary is length times width of the wires of the net that end
at the point and leave the route box there; vias and patches at their far ends count only if their
own metal reaches the point, so without such ones nothing else counts. -/
theorem c98_boundary_area (routeBox : Box) (bp : Point) (objs : List (Box × AObj)) (hin : routeBox.containsPt bp = true)
    (hseg : ∀ o ∈ objs, ∀ b e w, o.2 = .seg b e w → o.1.containsPt b = true ∧ o.1.containsPt e = true)
    (hfar : ∀ o ∈ objs, ∀ p, (o.2 = .via p ∨ o.2 = .patch p) → o.1.containsPt bp = true → routeBox.containsPt p = true) :
    boundaryArea routeBox bp objs = (objs.map (fun o => leavingArea routeBox bp o.2)).sum := by
  unfold boundaryArea
  dsimp only
  have hz : ∀ p, routeBox.containsPt p = false → ∀ l : List (Box × AObj),
      (∀ o ∈ l, o ∈ objs ∧ o.1.containsPt bp = true) → farArea p l = 0 := by
    intro p hp l
    induction l with
    | nil => intro _; rfl
    | cons o l ih =>
      intro hl
      have hrec := ih (fun o ho => hl o (List.mem_cons_of_mem _ ho))
      obtain ⟨ho1, ho2⟩ := hl o (by simp)
      rcases o with ⟨b, _ | p' | p'⟩
      · exact hrec
      · have := hfar _ ho1 p' (Or.inl rfl) ho2
        simp only [farArea]
        rw [if_neg (by rintro rfl; rw [hp] at this; simp at this)]; exact hrec
      · have := hfar _ ho1 p' (Or.inr rfl) ho2
        simp only [farArea]
        rw [if_neg (by rintro rfl; rw [hp] at this; simp at this)]; exact hrec
  have hres : ∀ o ∈ objs.filter (fun o => o.1.containsPt bp), o ∈ objs ∧ o.1.containsPt bp = true := by
    intro o ho
    rw [List.mem_filter] at ho
    exact ho
  generalize hR : objs.filter (fun o => o.1.containsPt bp) = res at hres
  have hone : ∀ o ∈ objs, o.1.containsPt bp = true → segArea routeBox bp res o.2 = leavingArea routeBox bp o.2 := by
    rintro ⟨bx, _ | _ | _⟩ ho hb
    · rename_i b e w
      simp only [segArea, leavingArea]
      by_cases h1 : bp = b ∧ routeBox.containsPt e = false
      · rw [if_pos h1, if_pos (Or.inl h1), hz e h1.2 res hres, if_neg]
        · simp
        · rintro ⟨h2, -⟩
          rw [← h1.1, hin] at h2; simp at h2
      · rw [if_neg h1]
        by_cases h2 : bp = e ∧ routeBox.containsPt b = false
        · rw [if_pos ⟨h2.2, h2.1⟩, if_pos (Or.inr h2), hz b h2.2 res hres]; simp
        · rw [if_neg (fun h => h2 ⟨h.2, h.1⟩), if_neg (by rintro (h | h); exact h1 h; exact h2 h)]; simp
    · rfl
    · rfl
  have hout : ∀ o ∈ objs, o.1.containsPt bp = false → leavingArea routeBox bp o.2 = 0 := by
    rintro ⟨bx, _ | _ | _⟩ ho hb
    · rename_i b e w
      have := hseg _ ho b e w rfl
      simp only [leavingArea]
      rw [if_neg]
      rintro (⟨rfl, -⟩ | ⟨rfl, -⟩)
      · rw [this.1] at hb; simp at hb
      · rw [this.2] at hb; simp at hb
    · rfl
    · rfl
  rw [← hR]
  exact sum_filter_map _ _ _ objs (fun o ho hb => by rw [hR]; exact hone o ho hb) hout

/-- C98: a via outside the route box whose metal does not reach the point adds nothing to the area
there: with and without it the area is the same. The via sits at the far end of a wire that leaves
the box, so its metal is part of the shape the area is meant to measure. -/
theorem c98_far_via_missed (routeBox : Box) (bp : Point) (objs : List (Box × AObj)) (vb : Box) (p : Point)
    (h : vb.containsPt bp = false) : boundaryArea routeBox bp (objs ++ [(vb, .via p)]) = boundaryArea routeBox bp objs := by
  unfold boundaryArea
  rw [List.filter_append, List.filter_cons, if_neg (by simp [h])]
  simp

/-- C98: the query that was meant: with the objects at the far end, the via counts. Here a wire of
length 400 and width 60 leaves the box and ends on a via of 100 by 100. -/
example : let box : Box := ⟨⟨0, 0⟩, ⟨1000, 1000⟩⟩
    let objs : List (Box × AObj) := [(⟨⟨970, 470⟩, ⟨1430, 530⟩⟩, .seg ⟨1000, 500⟩ ⟨1400, 500⟩ 60), (⟨⟨1350, 450⟩, ⟨1450, 550⟩⟩, .via ⟨1400, 500⟩)]
    boundaryArea box ⟨1000, 500⟩ objs = 24000 ∧
      (24000 + farArea ⟨1400, 500⟩ (objs.filter (fun o => o.1.containsPt ⟨1400, 500⟩)) = 29000) := by
  decide +kernel

end TR
