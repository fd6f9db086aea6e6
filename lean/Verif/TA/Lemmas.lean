import Verif.TA.Model
import Verif.RQueue.Lemmas
/-! Lemmas on the scans and the assignment loop. -/
namespace TR

theorem mem_upFrom (a b x : Int) : x ∈ upFrom a b ↔ a ≤ x ∧ x ≤ b := by
  unfold upFrom
  rw [List.mem_map]
  constructor
  · rintro ⟨k, hk, rfl⟩
    rw [List.mem_range] at hk
    omega
  · rintro ⟨h1, h2⟩
    exact ⟨(x - a).toNat, List.mem_range.2 (by omega), by omega⟩

theorem mem_downFrom (a b x : Int) : x ∈ downFrom a b ↔ b ≤ x ∧ x ≤ a := by
  unfold downFrom
  rw [List.mem_map]
  constructor
  · rintro ⟨k, hk, rfl⟩
    rw [List.mem_range] at hk
    omega
  · rintro ⟨h1, h2⟩
    exact ⟨(a - x).toNat, List.mem_range.2 (by omega), by omega⟩

/-- what a scan minimises: the total cost in the first pass, the violation cost later -/
def scanKey (init : Bool) (cost drc : Int → Nat) (i : Int) : Nat := if init then cost i else drc i

theorem tryTrack_eq (init : Bool) (cost drc : Int → Nat) (s : Best) (i : Int) : tryTrack init cost drc s i =
    if scanKey init cost drc i < s.cost then ⟨scanKey init cost drc i, some i, drc i⟩ else ⟨s.cost, s.idx, drc i⟩ := by
  unfold tryTrack scanKey
  cases init <;> simp

theorem tryTrack_drc (init : Bool) (cost drc : Int → Nat) (s : Best) (i : Int) : (tryTrack init cost drc s i).drc = drc i := by
  rw [tryTrack_eq]; split <;> rfl

/-- the accumulated best among the tracks `p` -/
def BestOf (key : Int → Nat) (p : List Int) (s : Best) : Prop :=
  (s.idx = none ∧ s.cost = 4294967295 ∧ ∀ i ∈ p, 4294967295 ≤ key i) ∨
  (∃ t ∈ p, s.idx = some t ∧ s.cost = key t ∧ key t < 4294967295 ∧ ∀ i ∈ p, key t ≤ key i)

theorem bestOf_try {init : Bool} {cost drc : Int → Nat} {p : List Int} {s : Best} (h : BestOf (scanKey init cost drc) p s) (i : Int) :
    BestOf (scanKey init cost drc) (p ++ [i]) (tryTrack init cost drc s i) := by
  rw [tryTrack_eq]
  rcases h with ⟨h1, h2, h3⟩ | ⟨t, h1, h2, h3, h4, h5⟩
  · split
    · rename_i hlt
      refine .inr ⟨i, by simp, rfl, rfl, by omega, ?_⟩
      intro j hj
      rcases List.mem_append.1 hj with hj | hj
      · have := h3 j hj; omega
      · simp at hj; subst hj; exact Nat.le_refl _
    · refine .inl ⟨h1, h2, ?_⟩
      intro j hj
      rcases List.mem_append.1 hj with hj | hj
      · exact h3 j hj
      · simp at hj; subst hj; omega
  · split
    · refine .inr ⟨i, by simp, rfl, rfl, by omega, ?_⟩
      intro j hj
      rcases List.mem_append.1 hj with hj | hj
      · have := h5 j hj; omega
      · simp at hj; subst hj; exact Nat.le_refl _
    · refine .inr ⟨t, List.mem_append_left _ h1, h2, h3, h4, ?_⟩
      intro j hj
      rcases List.mem_append.1 hj with hj | hj
      · exact h5 j hj
      · simp at hj; subst hj; omega

/-- a scan inspects a prefix of the list, up to the first violation-free track -/
theorem scan_spec {init : Bool} {cost drc : Int → Nat} : ∀ (L p : List Int) (s : Best), BestOf (scanKey init cost drc) p s →
    (scan init cost drc L s = s ∧ L = []) ∨ ∃ a z b, L = a ++ z :: b ∧ BestOf (scanKey init cost drc) (p ++ a ++ [z]) (scan init cost drc L s) ∧
      (scan init cost drc L s).drc = drc z ∧ (∀ i ∈ a, drc i ≠ 0) ∧ (b = [] ∨ drc z = 0)
  | [], _, _, _ => .inl ⟨rfl, rfl⟩
  | i :: r, p, s, h => by
    have h1 := bestOf_try (cost := cost) (drc := drc) h i
    right
    unfold scan
    simp only
    split
    · rename_i hz
      refine ⟨[], i, r, rfl, by simpa using h1, tryTrack_drc .., by simp, .inr ?_⟩
      rw [tryTrack_drc] at hz; exact hz
    · rename_i hz
      rw [tryTrack_drc] at hz
      rcases scan_spec r (p ++ [i]) _ h1 with ⟨h2, h3⟩ | ⟨a, z, b, h2, h3, h4, h5, h6⟩
      · refine ⟨[], i, r, rfl, ?_, ?_, by simp, .inl h3⟩
        · rw [h2]; simpa using h1
        · rw [h2]; exact tryTrack_drc ..
      · refine ⟨i :: a, z, b, by rw [h2]; rfl, ?_, h4, ?_, h6⟩
        · simpa using h3
        · intro j hj
          rcases List.mem_cons.1 hj with rfl | hj
          · exact hz
          · exact h5 j hj

theorem scan_append {init : Bool} {cost drc : Int → Nat} : ∀ (l1 l2 : List Int) (s : Best), l1 ≠ [] →
    scan2 init cost drc l1 l2 s = scan init cost drc (l1 ++ l2) s
  | [], _, _, h => absurd rfl h
  | [i], l2, s, _ => by
    unfold scan2
    simp only [scan, List.cons_append, List.nil_append]
    by_cases hz : (tryTrack init cost drc s i).drc = 0
    · simp [hz]
    · simp [hz]
  | i :: j :: r, l2, s, _ => by
    have ih := scan_append (init := init) (cost := cost) (drc := drc) (j :: r) l2 (tryTrack init cost drc s i) (by simp)
    unfold scan2 at ih ⊢
    have e1 : ∀ L, scan init cost drc (i :: L) s = if (tryTrack init cost drc s i).drc = 0 then tryTrack init cost drc s i
        else scan init cost drc L (tryTrack init cost drc s i) := fun L => by rw [scan]
    rw [List.cons_append, e1, e1]
    by_cases hz : (tryTrack init cost drc s i).drc = 0
    · simp [hz]
    · rw [if_neg hz, if_neg hz]
      exact ih

/-- order of the alternating loop -/
def altOrder (i1 i2 start : Int) (l : List Nat) : List Int :=
  (l.flatMap (fun (i : Nat) => [start + (i : Int), start - (i : Int) - 1])).filter (fun i => decide (i1 ≤ i) && decide (i ≤ i2))

theorem altScan_eq {init : Bool} {cost drc : Int → Nat} {i1 i2 start : Int} : ∀ (l : List Nat) (s : Best), s.drc ≠ 0 →
    altScan init cost drc i1 i2 start l s = scan init cost drc (altOrder i1 i2 start l) s
  | [], _, _ => rfl
  | i :: r, s, hs => by
    have key : ∀ (x : Int) (s : Best) (L : List Int), s.drc ≠ 0 →
        scan init cost drc ((if i1 ≤ x ∧ x ≤ i2 then [x] else []) ++ L) s =
          (let a := altTry init cost drc i1 i2 s x; if a.2 then a.1 else scan init cost drc L a.1) ∧
        ((altTry init cost drc i1 i2 s x).2 = false → (altTry init cost drc i1 i2 s x).1.drc ≠ 0) := by
      intro x s L hs
      unfold altTry
      by_cases hx : i1 ≤ x ∧ x ≤ i2
      · simp [hx, scan]
      · simp [hx, hs]
    have hord : altOrder i1 i2 start (i :: r) = (if i1 ≤ start + (i : Int) ∧ start + (i : Int) ≤ i2 then [start + (i : Int)] else []) ++
        ((if i1 ≤ start - (i : Int) - 1 ∧ start - (i : Int) - 1 ≤ i2 then [start - (i : Int) - 1] else []) ++ altOrder i1 i2 start r) := by
      unfold altOrder
      simp only [List.flatMap_cons, List.cons_append, List.nil_append, List.filter_cons, Bool.and_eq_true, decide_eq_true_eq]
      split <;> split <;> simp
    rw [hord, (key _ s _ hs).1, altScan]
    simp only
    by_cases h1 : (altTry init cost drc i1 i2 s (start + (i : Int))).2 = true
    · rw [if_pos h1, if_pos h1]
    · rw [if_neg h1, if_neg h1]
      have hs1 := (key _ s [] hs).2 (by simpa using h1)
      rw [(key _ _ _ hs1).1]
      simp only
      by_cases h2 : (altTry init cost drc i1 i2 (altTry init cost drc i1 i2 s (start + (i : Int))).1 (start - (i : Int) - 1)).2 = true
      · rw [if_pos h2, if_pos h2]
      · rw [if_neg h2, if_neg h2]
        exact altScan_eq r _ ((key _ _ [] hs1).2 (by simpa using h2))

theorem altScan_start {init : Bool} {cost drc : Int → Nat} {i1 i2 start : Int} (h1 : i1 ≤ start) (h2 : start ≤ i2) (n : Nat) (s : Best) :
    altScan init cost drc i1 i2 start (List.range (n + 1)) s = scan init cost drc (altOrder i1 i2 start (List.range (n + 1))) s := by
  rw [List.range_succ_eq_map]
  have hord : ∀ r, altOrder i1 i2 start (0 :: r) = start ::
      ((if i1 ≤ start - 1 ∧ start - 1 ≤ i2 then [start - 1] else []) ++ altOrder i1 i2 start r) := by
    intro r
    unfold altOrder
    simp only [List.flatMap_cons, List.cons_append, List.nil_append, List.filter_cons, Bool.and_eq_true, decide_eq_true_eq]
    rw [if_pos (by constructor <;> simp <;> omega)]
    simp only [Int.natCast_zero, Int.add_zero, Int.sub_zero]
    split <;> simp
  rw [hord, altScan, scan]
  have e0 : start + ((0 : Nat) : Int) = start := by omega
  have e1 : start - ((0 : Nat) : Int) - 1 = start - 1 := by omega
  have ha : altTry init cost drc i1 i2 s start = (tryTrack init cost drc s start, decide ((tryTrack init cost drc s start).drc = 0)) := by
    unfold altTry; rw [if_pos ⟨h1, h2⟩]
  simp only [e0, e1, ha, decide_eq_true_eq]
  by_cases hz : (tryTrack init cost drc s start).drc = 0
  · rw [if_pos hz, if_pos hz]
  · rw [if_neg hz, if_neg hz]
    by_cases hx : i1 ≤ start - 1 ∧ start - 1 ≤ i2
    · have hb : altTry init cost drc i1 i2 (tryTrack init cost drc s start) (start - 1) =
          (tryTrack init cost drc (tryTrack init cost drc s start) (start - 1),
            decide ((tryTrack init cost drc (tryTrack init cost drc s start) (start - 1)).drc = 0)) := by
        unfold altTry; rw [if_pos hx]
      rw [hb, if_pos hx]
      simp only [List.cons_append, List.nil_append, decide_eq_true_eq]
      rw [scan]
      by_cases hz2 : (tryTrack init cost drc (tryTrack init cost drc s start) (start - 1)).drc = 0
      · rw [if_pos hz2, if_pos hz2]
      · rw [if_neg hz2, if_neg hz2]
        exact altScan_eq _ _ hz2
    · have hb : altTry init cost drc i1 i2 (tryTrack init cost drc s start) (start - 1) = (tryTrack init cost drc s start, false) := by
        unfold altTry; rw [if_neg hx]; simp [hz]
      rw [hb, if_neg hx]
      simp only [List.nil_append]
      exact altScan_eq _ _ hz

/-! ### the assignment loop -/

theorem updateOther_spec {maxRetry : Nat} {cnt : Nat → Nat} {U : List Nat} : ∀ (xs : List (Nat × Bool)) (todo : List Nat),
    todo.Nodup → (∀ i ∈ todo, i ∈ U) → (∀ x ∈ xs, x.1 ∈ U) →
    (xs.foldl (updateOther maxRetry cnt) todo).Nodup ∧ ∀ i ∈ xs.foldl (updateOther maxRetry cnt) todo, i ∈ U
  | [], todo, h1, h2, _ => ⟨h1, h2⟩
  | x :: r, todo, h1, h2, h3 => by
    have hn : (updateOther maxRetry cnt todo x).Nodup ∧ ∀ i ∈ updateOther maxRetry cnt todo x, i ∈ U := by
      unfold updateOther
      simp only
      have hf : (todo.filter (fun i => decide (i ≠ x.1))).Nodup := h1.filter _
      split
      · refine ⟨List.nodup_cons.2 ⟨by simp, hf⟩, ?_⟩
        intro i hi
        rcases List.mem_cons.1 hi with rfl | hi
        · exact h3 x List.mem_cons_self
        · exact h2 i (List.mem_filter.1 hi).1
      · exact ⟨hf, fun i hi => h2 i (List.mem_filter.1 hi).1⟩
    exact updateOther_spec r _ hn.1 hn.2 (fun y hy => h3 y (List.mem_cons_of_mem _ hy))

/-- invariant of the assignment loop -/
structure TAInv (U : List Nat) (maxRetry : Nat) (s : TAState) : Prop where
  nodup : s.todo.Nodup
  sub : ∀ i ∈ s.todo, i ∈ U
  cap : ∀ i, s.cnt i ≤ maxRetry

/-- assignments left -/
def taLeft (U : List Nat) (maxRetry : Nat) (cnt : Nat → Nat) : Nat := (U.map (fun i => maxRetry - cnt i)).sum

theorem taLeft_assign {U : List Nat} (hU : U.Nodup) {maxRetry : Nat} {cnt : Nat → Nat} {i : Nat} (hi : i ∈ U) (h : cnt i < maxRetry) :
    taLeft U maxRetry (fun x => if x = i then cnt x + 1 else cnt x) + 1 = taLeft U maxRetry cnt := by
  unfold taLeft
  rw [erase_sum _ U i hi, erase_sum (fun i => maxRetry - cnt i) U i hi]
  have : (U.erase i).map (fun x => maxRetry - (if x = i then cnt x + 1 else cnt x)) = (U.erase i).map (fun i => maxRetry - cnt i) := by
    apply List.map_congr_left
    intro x hx
    rw [if_neg]
    rintro rfl
    exact hU.not_mem_erase hx
  rw [this]
  show maxRetry - (if i = i then cnt i + 1 else cnt i) + _ + 1 = _
  rw [if_pos rfl]
  omega

def taMeasure (U : List Nat) (maxRetry : Nat) (s : TAState) : Nat := taLeft U maxRetry s.cnt * (U.length + 1) + s.todo.length

theorem filter_ne_length {l : List Nat} (h : l.Nodup) {i : Nat} (hi : i ∈ l) : (l.filter (fun x => decide (x ≠ i))).length + 1 = l.length := by
  induction l with
  | nil => simp at hi
  | cons a r ih =>
    obtain ⟨h1, h2⟩ := List.nodup_cons.1 h
    by_cases ha : a = i
    · subst ha
      rw [List.filter_cons, if_neg (by simp)]
      have : r.filter (fun x => decide (x ≠ a)) = r := by
        rw [List.filter_eq_self]
        intro x hx
        simp only [decide_eq_true_eq]
        rintro rfl
        exact h1 hx
      rw [this]; rfl
    · rw [List.filter_cons, if_pos (by simp [ha])]
      have hi' : i ∈ r := by
        rcases List.mem_cons.1 hi with rfl | h
        · exact absurd rfl ha
        · exact h
      have := ih h2 hi'
      simp only [List.length_cons]
      omega

theorem taStep_inv {U : List Nat} (hU : U.Nodup) {init : Bool} {maxRetry : Nat} {pick : Nat → Nat} {others : Nat → List (Nat × Bool)}
    (ho : ∀ t, ∀ x ∈ others t, x.1 ∈ U) {s : TAState} (h : TAInv U maxRetry s) (hne : s.todo ≠ []) :
    TAInv U maxRetry (taStep init maxRetry pick others s) ∧
    taMeasure U maxRetry (taStep init maxRetry pick others s) < taMeasure U maxRetry s ∧
    (∀ i, s.cnt i ≤ (taStep init maxRetry pick others s).cnt i) := by
  have hlen : 0 < s.todo.length := by
    cases hh : s.todo with
    | nil => exact absurd hh hne
    | cons a r => simp
  have hlt := Nat.mod_lt (pick s.time) hlen
  unfold taStep
  rw [List.getElem?_eq_getElem hlt]
  generalize hi : s.todo[pick s.time % s.todo.length] = i
  have him : i ∈ s.todo := by rw [← hi]; exact List.getElem_mem hlt
  have hfl := filter_ne_length h.nodup him
  have hfn : (s.todo.filter (fun x => decide (x ≠ i))).Nodup := h.nodup.filter _
  have hfs : ∀ x ∈ s.todo.filter (fun x => decide (x ≠ i)), x ∈ U := fun x hx => h.sub x (List.mem_filter.1 hx).1
  simp only
  split
  · refine ⟨⟨hfn, hfs, h.cap⟩, ?_, fun _ => Nat.le_refl _⟩
    unfold taMeasure
    simp only
    omega
  · rename_i hcond
    have hlim : s.cnt i < maxRetry := by
      have := h.cap i
      simp only [not_or] at hcond
      omega
    have hnew : (if init then s.todo.filter (fun x => decide (x ≠ i)) else
        (others s.time).foldl (updateOther maxRetry (fun x => if x = i then s.cnt x + 1 else s.cnt x)) (s.todo.filter (fun x => decide (x ≠ i)))).Nodup ∧
        ∀ j ∈ (if init then s.todo.filter (fun x => decide (x ≠ i)) else
        (others s.time).foldl (updateOther maxRetry (fun x => if x = i then s.cnt x + 1 else s.cnt x)) (s.todo.filter (fun x => decide (x ≠ i)))), j ∈ U := by
      cases init with
      | true => exact ⟨hfn, hfs⟩
      | false => exact updateOther_spec _ _ hfn hfs (ho _)
    refine ⟨⟨hnew.1, hnew.2, ?_⟩, ?_, ?_⟩
    · intro j
      simp only
      split
      · rename_i hj; subst hj; omega
      · exact h.cap j
    · have hl := taLeft_assign hU (h.sub i him) hlim
      have hb := nodup_length_le hnew.1 hnew.2
      unfold taMeasure
      simp only
      rw [← hl, Nat.add_mul]
      omega
    · intro j
      simp only
      split <;> omega

theorem taRun_spec {U : List Nat} (hU : U.Nodup) {init : Bool} {maxRetry : Nat} {pick : Nat → Nat} {others : Nat → List (Nat × Bool)}
    (ho : ∀ t, ∀ x ∈ others t, x.1 ∈ U) : ∀ (fuel : Nat) (s : TAState), TAInv U maxRetry s → 
    TAInv U maxRetry (taRun init maxRetry pick others fuel s) ∧ (∀ i, s.cnt i ≤ (taRun init maxRetry pick others fuel s).cnt i) ∧
    (taMeasure U maxRetry s ≤ fuel → (taRun init maxRetry pick others fuel s).todo = [])
  | 0, s, h => by
    refine ⟨h, fun _ => Nat.le_refl _, fun hm => ?_⟩
    unfold taMeasure at hm
    have : s.todo.length = 0 := by omega
    exact List.eq_nil_of_length_eq_zero this
  | f + 1, s, h => by
    unfold taRun
    by_cases hn : s.todo = []
    · rw [if_pos (by simp [hn])]
      exact ⟨h, fun _ => Nat.le_refl _, fun _ => hn⟩
    · rw [if_neg (by simpa using hn)]
      obtain ⟨h1, h2, h3⟩ := taStep_inv (init := init) (pick := pick) hU ho h hn
      obtain ⟨a1, a2, a3⟩ := taRun_spec hU ho f _ h1
      exact ⟨a1, fun i => Nat.le_trans (h3 i) (a2 i), fun hm => a3 (by omega)⟩

end TR
