import Verif.PA.Point.Spec
import Verif.PA.Track.Props
/-! # Access points: lemmas -/
namespace TR

/-! ## Coordinates -/

theorem drop_take (m : CMap) (h : CMap.Sorted m) (lo hi : Int) (e : Int × Nat) :
    e ∈ ((m.dropWhile (fun e => decide (e.1 < lo))).takeWhile (fun e => !decide (e.1 > hi))) ↔ e ∈ m ∧ lo ≤ e.1 ∧ e.1 ≤ hi := by
  have htake : ∀ (m : CMap), CMap.Sorted m → (e ∈ m.takeWhile (fun e => !decide (e.1 > hi)) ↔ e ∈ m ∧ e.1 ≤ hi) := by
    intro m h
    induction m with
    | nil => simp
    | cons a m ih =>
      have h' := List.pairwise_cons.1 h
      rw [List.takeWhile_cons]
      by_cases ha : a.1 > hi
      · simp only [ha, decide_true, Bool.not_true, Bool.false_eq_true, if_false, List.not_mem_nil, false_iff]
        rintro ⟨he, hle⟩
        rcases List.mem_cons.1 he with he | he
        · rw [he] at hle; omega
        · have := h'.1 e he; omega
      · simp only [ha, decide_false, Bool.not_false, if_true, List.mem_cons, ih h'.2]
        constructor
        · rintro (he | he)
          · exact ⟨Or.inl he, by rw [he]; omega⟩
          · exact ⟨Or.inr he.1, he.2⟩
        · rintro ⟨he | he, hle⟩
          · exact Or.inl he
          · exact Or.inr ⟨he, hle⟩
  induction m with
  | nil => simp
  | cons a m ih =>
    have h' := List.pairwise_cons.1 h
    rw [List.dropWhile_cons]
    by_cases ha : a.1 < lo
    · simp only [ha, decide_true, if_true, ih h'.2, List.mem_cons]
      constructor
      · rintro ⟨h1, h2⟩; exact ⟨Or.inr h1, h2⟩
      · rintro ⟨h1 | h1, h2⟩
        · rw [h1] at h2; omega
        · exact ⟨h1, h2⟩
    · simp only [ha, decide_false, Bool.false_eq_true, if_false, htake _ h]
      constructor
      · rintro ⟨h1, h2⟩
        refine ⟨h1, ?_, h2⟩
        rcases List.mem_cons.1 h1 with h1 | h1
        · rw [h1]; omega
        · have := h'.1 e h1; omega
      · rintro ⟨h1, _, h2⟩; exact ⟨h1, h2⟩

theorem drop_take_sorted (m : CMap) (h : CMap.Sorted m) (lo hi : Int) :
    CMap.Sorted ((m.dropWhile (fun e => decide (e.1 < lo))).takeWhile (fun e => !decide (e.1 > hi))) :=
  List.Pairwise.sublist ((List.takeWhile_sublist _).trans (List.dropWhile_sublist _)) h

theorem foldInsert (L : CMap) : ∀ m, CMap.Sorted m → CMap.Sorted L → (∀ e ∈ L, cFind m e.1 = none) →
    CMap.Sorted (L.foldl (fun m e => cInsert e.1 e.2 m) m) ∧
    ∀ j, cFind (L.foldl (fun m e => cInsert e.1 e.2 m) m) j = ((cFind m j).orElse (fun _ => cFind L j)) := by
  induction L with
  | nil =>
    intro m h _ _
    refine ⟨h, fun j => ?_⟩
    simp only [List.foldl_nil]
    cases cFind m j <;> rfl
  | cons a L ih =>
    intro m h hL hn
    obtain ⟨x, w⟩ := a
    have hL' := List.pairwise_cons.1 hL
    have hx : cFind m x = none := hn (x, w) (by simp)
    have hmx := cFind_cInsert x w m h
    have hnew : ∀ e ∈ L, cFind (cInsert x w m) e.1 = none := by
      intro e he
      rw [hmx]
      have := hL'.1 e he
      rw [if_neg (by simp only at this; omega)]
      exact hn e (List.mem_cons_of_mem _ he)
    obtain ⟨h1, h2⟩ := ih (cInsert x w m) (cInsert_sorted _ _ _ h) hL'.2 hnew
    refine ⟨h1, fun j => ?_⟩
    rw [List.foldl_cons, h2 j, hmx j, cFind_cons]
    by_cases hj : j = x
    · subst hj; simp [hx]
    · rw [if_neg hj, if_neg (fun h => hj h.symm)]

theorem genGrid_find (tracks : CMap) (h : CMap.Sorted tracks) (lo hi : Int) :
    CMap.Sorted (genGrid tracks lo hi []) ∧ ∀ c v, cFind (genGrid tracks lo hi []) c = some v ↔ (c, v) ∈ tracks ∧ lo ≤ c ∧ c ≤ hi := by
  obtain ⟨h1, h2⟩ := foldInsert _ [] nil_sorted (drop_take_sorted tracks h lo hi) (by simp [cFind])
  refine ⟨h1, fun c v => ?_⟩
  unfold genGrid
  rw [h2 c]
  simp only [cFind, List.find?_nil, Option.map_none, Option.orElse_none]
  rw [← cFind, ← cMem_iff _ (drop_take_sorted tracks h lo hi), drop_take tracks h]

theorem length_ge_two {α : Type} (l : List α) (hn : l.Nodup) : 2 ≤ l.length ↔ ∃ a b, a ∈ l ∧ b ∈ l ∧ a ≠ b := by
  match l, hn with
  | [], _ => simp
  | [x], _ =>
    simp only [List.length_singleton, List.mem_singleton]
    constructor
    · omega
    · rintro ⟨a, b, h1, h2, h3⟩; exact absurd (h1.trans h2.symm) h3
  | x :: y :: l, hn =>
    simp only [List.length_cons]
    constructor
    · intro _
      have := List.nodup_cons.1 hn
      refine ⟨x, y, by simp, by simp, ?_⟩
      intro e
      exact this.1 (by simp [e])
    · intro _; omega

theorem CMap.Sorted.nodup {m : CMap} (h : CMap.Sorted m) : m.Nodup := by
  apply List.Pairwise.imp _ h
  intro a b hab e
  rw [e] at hab
  omega

theorem onGrid_ge (m : CMap) (h : CMap.Sorted m) (lo hi : Int) :
    onGridCount lo hi m ≥ 2 ↔ ∃ c d, c ≠ d ∧ (c, 0) ∈ m ∧ (d, 0) ∈ m ∧ lo ≤ c ∧ c ≤ hi ∧ lo ≤ d ∧ d ≤ hi := by
  unfold onGridCount
  rw [ge_iff_le, length_ge_two _ ((drop_take_sorted m h lo hi).nodup.filter _)]
  simp only [List.mem_filter, drop_take m h, beq_iff_eq]
  constructor
  · rintro ⟨⟨c, v⟩, ⟨d, w⟩, ⟨⟨h1, h2, h3⟩, rfl⟩, ⟨⟨h4, h5, h6⟩, rfl⟩, hne⟩
    exact ⟨c, d, fun e => hne (by rw [e]), h1, h4, h2, h3, h5, h6⟩
  · rintro ⟨c, d, hne, h1, h4, h2, h3, h5, h6⟩
    exact ⟨(c, 0), (d, 0), ⟨⟨h1, h2, h3⟩, rfl⟩, ⟨⟨h4, h5, h6⟩, rfl⟩, fun e => hne (by injection e)⟩

/-- values at most 3 -/
def CMap.Small (m : CMap) : Prop := ∀ j w, cFind m j = some w → w ≤ 3

theorem capVal_le (o : Option Nat) (v : Nat) (h : v ≤ 3) : capVal o v ≤ 3 := by
  unfold capVal; split <;> omega

theorem cap3 (k : Int) (m : CMap) (h : CMap.Sorted m) (hs : CMap.Small m) :
    CMap.Sorted (cCap k 3 m) ∧ CMap.Small (cCap k 3 m) ∧
    ∀ j, cFind (cCap k 3 m) j = ((cFind m j).orElse (fun _ => if j = k then some 3 else none)) := by
  have hf := cFind_cCap k 3 m h
  refine ⟨cCap_sorted _ _ _ h, ?_, ?_⟩
  · intro j w hw
    rw [hf] at hw
    split at hw
    · injection hw with hw; rw [← hw]; exact capVal_le _ _ (by omega)
    · exact hs j w hw
  · intro j
    rw [hf]
    by_cases hj : j = k
    · subst hj
      rw [if_pos rfl, if_pos rfl]
      cases hc : cFind m j with
      | none => rfl
      | some w =>
        have := hs j w hc
        simp only [capVal, Option.orElse_some, Option.some.injEq]
        omega
    · rw [if_neg hj, if_neg hj]
      cases cFind m j <;> rfl

/-- where a via makes an entry -/
def encAt (rect : Box) (horz : Bool) (v : PVia) (c : Int) : Prop :=
  ¬ (v.l1.right - v.l1.left > rect.right - rect.left ∨ v.l1.top - v.l1.bottom > rect.top - rect.bottom) ∧
  (c + v.l1.hi horz = rect.hi horz ∨ c + v.l1.lo horz = rect.lo horz)

instance (rect : Box) (horz : Bool) (v : PVia) (c : Int) : Decidable (encAt rect horz v c) := by unfold encAt; exact inferInstance

theorem encVia_find (rect : Box) (horz : Bool) (v : PVia) (m : CMap) (h : CMap.Sorted m) (hs : CMap.Small m) :
    CMap.Sorted (encVia rect horz m v) ∧ CMap.Small (encVia rect horz m v) ∧
    ∀ j, cFind (encVia rect horz m v) j = ((cFind m j).orElse (fun _ => if encAt rect horz v j then some 3 else none)) := by
  unfold encVia
  by_cases hfit : v.l1.right - v.l1.left > rect.right - rect.left ∨ v.l1.top - v.l1.bottom > rect.top - rect.bottom
  · rw [if_pos hfit]
    refine ⟨h, hs, fun j => ?_⟩
    have : ¬ encAt rect horz v j := fun h => h.1 hfit
    rw [if_neg this]
    cases cFind m j <;> rfl
  · rw [if_neg hfit]
    have two : ∀ a b, CMap.Sorted (cCap b 3 (cCap a 3 m)) ∧ CMap.Small (cCap b 3 (cCap a 3 m)) ∧
        ∀ j, cFind (cCap b 3 (cCap a 3 m)) j = ((cFind m j).orElse (fun _ => if j = a ∨ j = b then some 3 else none)) := by
      intro a b
      obtain ⟨h1, h2, h3⟩ := cap3 a m h hs
      obtain ⟨h4, h5, h6⟩ := cap3 b _ h1 h2
      refine ⟨h4, h5, fun j => ?_⟩
      rw [h6, h3]
      cases cFind m j with
      | some w => rfl
      | none =>
        simp only [Option.orElse_none]
        by_cases ha : j = a
        · simp only [ha, true_or, if_true, Option.orElse_some]
        · simp only [ha, false_or, if_false, Option.orElse_none]
    cases horz
    · simp only [Bool.false_eq_true, if_false]
      obtain ⟨h1, h2, h3⟩ := two (rect.right - v.l1.right) (rect.left - v.l1.left)
      refine ⟨h1, h2, fun j => ?_⟩
      rw [h3]
      have e : (j = rect.right - v.l1.right ∨ j = rect.left - v.l1.left) ↔ encAt rect false v j := by
        unfold encAt
        simp only [hfit, not_false_eq_true, true_and, Box.hi, Box.lo, Bool.false_eq_true, if_false, Box.left, Box.right]
        omega
      simp only [e]
    · simp only [if_true]
      obtain ⟨h1, h2, h3⟩ := two (rect.top - v.l1.top) (rect.bottom - v.l1.bottom)
      refine ⟨h1, h2, fun j => ?_⟩
      rw [h3]
      have e : (j = rect.top - v.l1.top ∨ j = rect.bottom - v.l1.bottom) ↔ encAt rect true v j := by
        unfold encAt
        simp only [hfit, not_false_eq_true, true_and, Box.hi, Box.lo, if_true, Box.bottom, Box.top]
        omega
      simp only [e]

theorem foldEnc (rect : Box) (horz : Bool) (vs : List PVia) : ∀ m, CMap.Sorted m → CMap.Small m →
    CMap.Sorted (vs.foldl (encVia rect horz) m) ∧
    ∀ j w, cFind (vs.foldl (encVia rect horz) m) j = some w ↔ cFind m j = some w ∨ (cFind m j = none ∧ w = 3 ∧ ∃ v ∈ vs, encAt rect horz v j) := by
  induction vs with
  | nil =>
    intro m h _
    refine ⟨h, fun j w => ?_⟩
    simp
  | cons v vs ih =>
    intro m h hs
    obtain ⟨h1, h2, h3⟩ := encVia_find rect horz v m h hs
    obtain ⟨h4, h5⟩ := ih _ h1 h2
    refine ⟨h4, fun j w => ?_⟩
    rw [List.foldl_cons, h5, h3]
    cases cFind m j with
    | some x => simp
    | none =>
      simp only [Option.orElse_none, reduceCtorEq, false_or, true_and, List.mem_cons]
      by_cases hv : encAt rect horz v j
      · rw [if_pos hv]
        constructor
        · rintro (h | ⟨h, _⟩)
          · injection h with h; exact ⟨h.symm, v, Or.inl rfl, hv⟩
          · simp at h
        · rintro ⟨h, _⟩; left; rw [h]
      · rw [if_neg hv]
        simp only [reduceCtorEq, false_or, true_and]
        constructor
        · rintro ⟨h, v', hv', hh⟩; exact ⟨h, v', Or.inr hv', hh⟩
        · rintro ⟨h, v', hv' | hv', hh⟩
          · rw [hv'] at hh; exact absurd hh hv
          · exact ⟨h, v', hv', hh⟩

theorem encAt_flush (T : PaTech) (rect : Box) (l : Int) (horz : Bool) (c : Int) :
    (l + 1 ≤ T.top ∧ ∃ v ∈ (T.vias (l + 1)).take 2, encAt rect horz v c) ↔ T.Flush rect l horz c := by
  unfold PaTech.Flush encAt
  constructor
  · rintro ⟨h, v, hv, h1, h2⟩
    simp only [Box.left, Box.right, Box.bottom, Box.top] at h1
    exact ⟨h, v, hv, by omega, by omega, h2⟩
  · rintro ⟨h, v, hv, h1, h2, h3⟩
    refine ⟨h, v, hv, ?_, h3⟩
    simp only [Box.left, Box.right, Box.bottom, Box.top]
    omega

/-- the coordinates in one direction have the types they are meant to have -/
theorem axis_iff (T : PaTech) (hT : T.Ok) (rect : Box) (l tl : Int) (horz : Bool) (type : Nat) (c : Int)
    (hc : rect.lo horz ≤ c ∧ c ≤ rect.hi horz) : (c, type) ∈ axisCoords T rect l tl horz type ↔ T.Pos rect l tl horz type c := by
  obtain ⟨hcs, hciff⟩ := c64_coords_iff T.grid T.pats tl (T.vert tl) hT.1 (fun c h => hT.2 tl c h)
  have hlo : (if horz then rect.bottom else rect.left) = rect.lo horz := by unfold Box.lo; rfl
  have hhi : (if horz then rect.top else rect.right) = rect.hi horz := by unfold Box.hi; rfl
  obtain ⟨hs0, hf0⟩ := genGrid_find (T.coords tl) hcs (rect.lo horz) (rect.hi horz)
  unfold axisCoords
  simp only [hlo, hhi]
  generalize hm0 : genGrid (T.coords tl) (rect.lo horz) (rect.hi horz) [] = m0
  rw [hm0] at hs0 hf0
  have hf0' : ∀ c v, cFind m0 c = some v ↔ ((v = 0 ∧ T.Track tl c) ∨ (v = 1 ∧ T.Half tl c)) ∧ rect.lo horz ≤ c ∧ c ≤ rect.hi horz := by
    intro c v
    rw [hf0]
    exact and_congr_left (fun _ => hciff c v)
  have hexcl : ¬ (T.Track tl c ∧ T.Half tl c) := by
    rintro ⟨h1, p, q, hn, _, h2, h3⟩
    exact hn.2.2.2 c h1 ⟨h2, h3⟩
  have hfew : onGridCount (rect.lo horz) (rect.hi horz) m0 ≥ 2 ↔ ¬ T.FewTracks tl (rect.lo horz) (rect.hi horz) := by
    rw [onGrid_ge _ hs0]
    unfold PaTech.FewTracks
    rw [Classical.not_not]
    simp only [cMem_iff _ hs0, hf0']
    constructor
    · rintro ⟨c, d, hne, ⟨h1, _⟩, ⟨h2, _⟩, h3⟩
      simp only [true_and, Nat.zero_ne_one, false_and, or_false] at h1 h2
      exact ⟨c, d, hne, h1, h2, h3⟩
    · rintro ⟨c, d, hne, h1, h2, h3, h4, h5, h6⟩
      exact ⟨c, d, hne, ⟨Or.inl ⟨trivial, h1⟩, h3, h4⟩, ⟨Or.inl ⟨trivial, h2⟩, h5, h6⟩, h3, h4, h5, h6⟩
  -- after the centre
  have hcent : c = halfCoord T.grid (rect.lo horz) (rect.hi horz) ↔ HalfRounded T.grid (rect.lo horz + rect.hi horz) c := by
    constructor
    · rintro rfl; exact half_rounded _ _ _ hT.1
    · intro h; exact half_unique _ _ _ _ h (half_rounded _ _ _ hT.1)
  generalize hm1 : genCenter T.grid (rect.lo horz) (rect.hi horz) m0 = m1
  have h1 : CMap.Sorted m1 ∧ CMap.Small m1 ∧ ∀ v, cFind m1 c = some v ↔ cFind m0 c = some v ∨
      (cFind m0 c = none ∧ v = 2 ∧ T.FewTracks tl (rect.lo horz) (rect.hi horz) ∧ HalfRounded T.grid (rect.lo horz + rect.hi horz) c) := by
    have hsm : ∀ c v, cFind m0 c = some v → v ≤ 1 := by
      intro c v h
      rcases (hf0' c v).1 h with ⟨⟨h, _⟩ | ⟨h, _⟩, _⟩ <;> omega
    rw [← hm1]
    unfold genCenter
    by_cases hcnt : onGridCount (rect.lo horz) (rect.hi horz) m0 ≥ 2
    · rw [if_pos hcnt]
      have := hfew.1 hcnt
      refine ⟨hs0, fun j w h => by have := hsm j w h; omega, fun v => ?_⟩
      simp [this]
    · rw [if_neg hcnt]
      have hfew' : T.FewTracks tl (rect.lo horz) (rect.hi horz) := Classical.not_not.1 (fun h => hcnt (hfew.2 h))
      refine ⟨cCap_sorted _ _ _ hs0, ?_, ?_⟩
      · intro j w h
        rw [cFind_cCap _ _ _ hs0] at h
        split at h
        · injection h with h; rw [← h]; exact capVal_le _ _ (by omega)
        · have := hsm j w h; omega
      · intro v
        rw [cFind_cCap _ _ _ hs0]
        by_cases he : c = halfCoord T.grid (rect.lo horz) (rect.hi horz)
        · rw [if_pos he, ← he]
          have hr := hcent.1 he
          cases hf : cFind m0 c with
          | none =>
            simp only [capVal, Option.some.injEq, reduceCtorEq, false_or, true_and, hfew', hr, and_true]
            exact eq_comm
          | some w =>
            have := hsm c w hf
            simp only [capVal, Option.some.injEq, reduceCtorEq, false_and, or_false]
            constructor <;> intro h <;> omega
        · rw [if_neg he]
          have hr : ¬ HalfRounded T.grid (rect.lo horz + rect.hi horz) c := fun h => he (hcent.2 h)
          simp [hr]
  have hnone : cFind m0 c = none ↔ ¬ T.Track tl c ∧ ¬ T.Half tl c := by
    constructor
    · intro h
      constructor
      · intro ht
        have := (hf0' c 0).2 ⟨Or.inl ⟨rfl, ht⟩, hc⟩
        rw [h] at this; simp at this
      · intro ht
        have := (hf0' c 1).2 ⟨Or.inr ⟨rfl, ht⟩, hc⟩
        rw [h] at this; simp at this
    · intro h
      cases hf : cFind m0 c with
      | none => rfl
      | some v =>
        rcases (hf0' c v).1 hf with ⟨⟨_, h'⟩ | ⟨_, h'⟩, _⟩
        · exact absurd h' h.1
        · exact absurd h' h.2
  match type with
  | 0 =>
    simp only [ge_iff_le, Nat.not_le_of_lt, Nat.lt_add_one, Nat.zero_lt_succ, if_false, Nat.reduceLeDiff]
    rw [cMem_iff _ hs0, hf0']
    simp only [true_and, Nat.zero_ne_one, false_and, or_false, hc, and_self, and_true, PaTech.Pos]
  | 1 =>
    simp only [ge_iff_le, Nat.reduceLeDiff, if_false]
    rw [cMem_iff _ hs0, hf0']
    simp only [true_and, Nat.one_ne_zero, false_and, false_or, hc, and_self, and_true, PaTech.Pos]
  | 2 =>
    simp only [ge_iff_le, Nat.reduceLeDiff, if_false, Nat.le_refl, if_true]
    rw [cMem_iff _ h1.1, h1.2.2, hnone]
    simp only [PaTech.Pos, true_and]
    have : ¬ cFind m0 c = some 2 := by rw [hf0']; omega
    simp only [this, false_or, and_assoc]
  | 3 =>
    simp only [ge_iff_le, Nat.reduceLeDiff, Nat.le_refl, if_true]
    have hno3 : ∀ v, cFind m1 c = some v → v ≤ 2 := by
      intro v h
      rcases (h1.2.2 v).1 h with h | ⟨_, h, _⟩
      · rcases (hf0' c v).1 h with ⟨⟨h, _⟩ | ⟨h, _⟩, _⟩ <;> omega
      · omega
    have hnone1 : cFind m1 c = none ↔ (¬ T.Track tl c ∧ ¬ T.Half tl c) ∧
        ¬ (T.FewTracks tl (rect.lo horz) (rect.hi horz) ∧ HalfRounded T.grid (rect.lo horz + rect.hi horz) c) := by
      rw [← hnone]
      constructor
      · intro h
        have h0 : cFind m0 c = none := by
          cases hf : cFind m0 c with
          | none => rfl
          | some v =>
            have := (h1.2.2 v).2 (Or.inl hf)
            rw [h] at this; simp at this
        refine ⟨h0, fun hh => ?_⟩
        have := (h1.2.2 2).2 (Or.inr ⟨h0, rfl, hh.1, hh.2⟩)
        rw [h] at this; simp at this
      · rintro ⟨h, hh⟩
        cases hf : cFind m1 c with
        | none => rfl
        | some v =>
          rcases (h1.2.2 v).1 hf with h' | ⟨_, _, h'⟩
          · rw [h] at h'; simp at h'
          · exact absurd h' hh
    have hpos : T.Pos rect l tl horz 3 c ↔ cFind m1 c = none ∧ T.Flush rect l horz c := by
      rw [hnone1]; simp only [PaTech.Pos, and_assoc]
    rw [hpos, ← encAt_flush]
    unfold genEnc
    by_cases htop : l + 1 > T.top
    · rw [if_pos htop, cMem_iff _ h1.1]
      have : ¬ l + 1 ≤ T.top := by omega
      simp only [this, false_and, and_false, iff_false]
      intro h
      have := hno3 3 h
      omega
    · rw [if_neg htop]
      obtain ⟨h4, h5⟩ := foldEnc rect horz ((T.vias (l + 1)).take 2) m1 h1.1 h1.2.1
      rw [cMem_iff _ h4, h5]
      have h3 : ¬ cFind m1 c = some 3 := fun h => by have := hno3 3 h; omega
      have htop' : l + 1 ≤ T.top := by omega
      simp only [h3, false_or, true_and, htop']
  | n + 4 =>
    simp only [PaTech.Pos, iff_false, ge_iff_le]
    have : 2 ≤ n + 4 := by omega
    have : 3 ≤ n + 4 := by omega
    simp only [*, if_true]
    have hno : ∀ v, cFind m1 c = some v → v ≤ 2 := by
      intro v h
      rcases (h1.2.2 v).1 h with h | ⟨_, h, _⟩
      · rcases (hf0' c v).1 h with ⟨⟨h, _⟩ | ⟨h, _⟩, _⟩ <;> omega
      · omega
    unfold genEnc
    split
    · rw [cMem_iff _ h1.1]
      intro h
      have := hno _ h
      omega
    · obtain ⟨h4, h5⟩ := foldEnc rect horz ((T.vias (l + 1)).take 2) m1 h1.1 h1.2.1
      rw [cMem_iff _ h4, h5]
      rintro (h | ⟨_, h, _⟩)
      · have := hno _ h; omega
      · omega

end TR
