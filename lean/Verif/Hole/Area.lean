import Verif.Hole.Spec
import Verif.GC.Lemmas
import Verif.GC.Cut.Props
/-! # The area of a polygon is the number of cells inside of it -/
namespace TR

theorem sum_swap {α β : Type} (g : α → β → Int) (l : List α) (es : List β) :
    (l.map (fun c => (es.map (g c)).sum)).sum = (es.map (fun e => (l.map (fun c => g c e)).sum)).sum := by
  induction es with
  | nil =>
    simp only [List.map_nil, List.sum_nil]
    induction l with
    | nil => rfl
    | cons a t ih => simp only [List.map_cons, List.sum_cons, ih]; rfl
  | cons e t ih =>
    simp only [List.map_cons, List.sum_cons]
    rw [← ih]
    clear ih
    induction l with
    | nil => simp
    | cons a l ih => simp only [List.map_cons, List.sum_cons, ih]; omega

/-- a constant summed over the integers from `a` on -/
theorem sum_from (a k B : Int) (h : B ≤ a) (n : Nat) :
    ((List.range n).map (fun i : Nat => if a ≤ B + (i : Int) then k else 0)).sum = if a ≤ B + n then (B + n - a) * k else 0 := by
  induction n with
  | zero =>
    simp only [List.range_zero, List.map_nil, List.sum_nil]
    split
    · rename_i h2
      rw [show B + ((0 : Nat) : Int) - a = 0 by omega, Int.zero_mul]
    · rfl
  | succ n ih =>
    rw [List.range_succ, List.map_append, List.sum_append_int, ih]
    simp only [List.map_cons, List.map_nil, List.sum_cons, List.sum_nil, Int.add_zero]
    by_cases h1 : a ≤ B + (n : Int)
    · rw [if_pos h1, if_pos h1, if_pos (by omega), show B + ((n + 1 : Nat) : Int) - a = (B + n - a) + 1 by omega, Int.add_mul, Int.one_mul]
    · rw [if_neg h1, if_neg h1]
      split
      · rename_i h2
        rw [show B + ((n + 1 : Nat) : Int) - a = 0 by omega, Int.zero_mul]; rfl
      · rfl

theorem sum_ints (a k B T : Int) (h : B ≤ a) (h2 : a ≤ T) : ((intsFrom B T).map (fun v => if a ≤ v then k else 0)).sum = (T - a) * k := by
  unfold intsFrom
  rw [List.map_map]
  have := sum_from a k B h (T - B).toNat
  have e : ((T - B).toNat : Int) = T - B := Int.toNat_of_nonneg (by omega)
  rw [e, if_pos (by omega), show B + (T - B) - a = T - a by omega] at this
  exact this

theorem sum_cells (f : Point → Int) (b : Box) :
    ((unitCells b).map f).sum = ((intsFrom b.left b.right).map (fun x => ((intsFrom b.bottom b.top).map (fun y => f ⟨x, y⟩)).sum)).sum := by
  unfold unitCells
  induction intsFrom b.left b.right with
  | nil => rfl
  | cons x t ih => rw [List.flatMap_cons, List.map_append, List.sum_append_int, ih, List.map_map]; rfl

theorem sum_sub {α : Type} (f g : α → Int) (l : List α) : (l.map (fun x => f x - g x)).sum = (l.map f).sum - (l.map g).sum := by
  induction l with
  | nil => rfl
  | cons a t ih => simp only [List.map_cons, List.sum_cons, ih]; omega

/-- one side crosses the rays of as many cells as lie to the right of it -/
theorem sum_ray (b : Box) (e : Point × Point) (h1 : b.Has e.1) (h2 : b.Has e.2) (hs : e.1.x = e.2.x ∨ e.1.y = e.2.y) :
    ((unitCells b).map (fun c => rayCross c e)).sum = (b.right - e.1.x) * (e.2.y - e.1.y) := by
  unfold Box.Has at h1 h2
  rw [sum_cells]
  have hr : ∀ x y : Int, rayCross ⟨x, y⟩ e = if e.1.x = e.2.x ∧ e.1.x ≤ x then (if e.1.y ≤ y then 1 else 0) - (if e.2.y ≤ y then 1 else 0) else 0 := by
    intro x y
    unfold rayCross
    simp only
    repeat' split
    all_goals first | rfl | omega
  simp only [hr]
  by_cases hx : e.1.x = e.2.x
  · have hin : ∀ x : Int, ((intsFrom b.bottom b.top).map (fun y => if e.1.x = e.2.x ∧ e.1.x ≤ x then (if e.1.y ≤ y then (1 : Int) else 0) - (if e.2.y ≤ y then 1 else 0) else 0)).sum
        = if e.1.x ≤ x then e.2.y - e.1.y else 0 := by
      intro x
      by_cases h : e.1.x ≤ x
      · simp only [hx, true_and]
        rw [← hx]
        simp only [h, if_true]
        rw [sum_sub, sum_ints _ _ _ _ (by omega) (by omega), sum_ints _ _ _ _ (by omega) (by omega)]
        omega
      · have : ¬ (e.1.x = e.2.x ∧ e.1.x ≤ x) := fun hh => h hh.2
        simp only [if_neg this, if_neg h]
        induction intsFrom b.bottom b.top with
        | nil => rfl
        | cons a t ih => simp only [List.map_cons, List.sum_cons, ih]; rfl
    simp only [hin]
    exact sum_ints _ _ _ _ (by omega) (by omega)
  · have hy : e.2.y - e.1.y = 0 := by omega
    have : ∀ x : Int, ¬ (e.1.x = e.2.x ∧ e.1.x ≤ x) := fun x hh => hx hh.1
    simp only [this, if_false, hy, Int.mul_zero]
    have z : ∀ {α : Type} (l : List α), (l.map (fun _ => (0 : Int))).sum = 0 := by
      intro α l
      induction l with
      | nil => rfl
      | cons a t ih => simp only [List.map_cons, List.sum_cons, ih]; rfl
    simp only [z]

/-- anything that only depends on the corners sums up to zero around a polygon -/
theorem sides_sum (f : Point → Int) (p0 : Point) : ∀ (a : Point) (t : List Point),
    ((sidesFrom p0 (a :: t)).map (fun e => f e.2 - f e.1)).sum = f p0 - f a
  | a, [] => by simp [sidesFrom]
  | a, b :: t => by
    have := sides_sum f p0 b t
    simp only [sidesFrom, List.map_cons, List.sum_cons, this]; omega

theorem poly_sum (f : Point → Int) (ps : List Point) : ((polySides ps).map (fun e => f e.2 - f e.1)).sum = 0 := by
  cases ps with
  | nil => rfl
  | cons p t => unfold polySides; rw [sides_sum]; omega

theorem sidesFrom_mem (p0 : Point) : ∀ (l : List Point) (e : Point × Point), e ∈ sidesFrom p0 l → e.1 ∈ l ∧ (e.2 ∈ l ∨ e.2 = p0)
  | [], e, h => by cases h
  | [a], e, h => by simp [sidesFrom] at h; subst h; simp
  | a :: b :: t, e, h => by
    simp only [sidesFrom, List.mem_cons] at h
    rcases h with rfl | h
    · simp
    · have := sidesFrom_mem p0 (b :: t) e h
      refine ⟨List.mem_cons_of_mem _ this.1, ?_⟩
      rcases this.2 with h2 | h2
      · exact .inl (List.mem_cons_of_mem _ h2)
      · exact .inr h2

theorem polySides_mem {ps : List Point} {e : Point × Point} (h : e ∈ polySides ps) : e.1 ∈ ps ∧ e.2 ∈ ps := by
  cases ps with
  | nil => cases h
  | cons p t =>
    unfold polySides at h
    have := sidesFrom_mem p _ e h
    refine ⟨this.1, ?_⟩
    rcases this.2 with h2 | h2
    · exact h2
    · rw [h2]; exact List.mem_cons_self

/-- the sum of the windings is the signed area -/
theorem winding_sum {ps : List Point} {b : Box} (hb : ∀ p ∈ ps, b.Has p) (hs : ∀ e ∈ polySides ps, e.1.x = e.2.x ∨ e.1.y = e.2.y) :
    ((unitCells b).map (winding ps)).sum = - ((polySides ps).map (fun e : Point × Point => e.1.x * (e.2.y - e.1.y))).sum := by
  have h1 : ((unitCells b).map (winding ps)).sum = ((polySides ps).map (fun e => (b.right - e.1.x) * (e.2.y - e.1.y))).sum := by
    unfold winding
    rw [sum_swap]
    apply congrArg
    apply List.map_congr_left
    intro e he
    obtain ⟨m1, m2⟩ := polySides_mem he
    exact sum_ray b e (hb _ m1) (hb _ m2) (hs e he)
  rw [h1]
  have h2 := poly_sum (fun p => b.right * p.y) ps
  have h3 : ∀ e : Point × Point, (b.right - e.1.x) * (e.2.y - e.1.y) = (b.right * e.2.y - b.right * e.1.y) - e.1.x * (e.2.y - e.1.y) := by
    intro e
    rw [Int.sub_mul, Int.mul_sub b.right]
  simp only [h3]
  rw [sum_sub, h2]
  omega

/-- cells inside of a polygon lie in any rectangle around its corners -/
theorem inside_cell {ps : List Point} {b : Box} (hb : ∀ p ∈ ps, b.Has p)
    (hs : ∀ e ∈ polySides ps, e.1.x = e.2.x ∨ e.1.y = e.2.y) {c : Point} (h : Inside ps c) : CellOf b c := by
  have hex : ∃ e ∈ polySides ps, rayCross c e ≠ 0 := by
    by_cases hh : ∃ e ∈ polySides ps, rayCross c e ≠ 0
    · exact hh
    · exfalso
      apply h
      unfold winding
      have : ∀ l : List (Point × Point), (∀ e ∈ l, rayCross c e = 0) → (l.map (rayCross c)).sum = 0 := by
        intro l
        induction l with
        | nil => intro _; rfl
        | cons a t ih =>
          intro hl
          rw [List.map_cons, List.sum_cons, hl a (by simp), ih (fun e he => hl e (by simp [he]))]; rfl
      exact this _ (fun e he => Classical.not_not.1 (fun hne => hh ⟨e, he, hne⟩))
  obtain ⟨e, he, hne⟩ := hex
  obtain ⟨m1, m2⟩ := polySides_mem he
  have b1 := hb _ m1; have b2 := hb _ m2
  unfold Box.Has at b1 b2
  unfold rayCross at hne
  have hk : b.left ≤ c.x ∧ b.bottom ≤ c.y ∧ c.y < b.top := by
    repeat' split at hne
    all_goals first | omega | exact absurd rfl hne
  refine ⟨hk.1, ?_, hk.2.1, hk.2.2⟩
  apply Classical.not_not.1
  intro hr
  apply h
  unfold winding
  have h2 := poly_sum (fun p => if p.y ≤ c.y then -1 else 0) ps
  rw [← h2]
  apply congrArg
  apply List.map_congr_left
  intro e he
  obtain ⟨m1, m2⟩ := polySides_mem he
  have b1 := hb _ m1; have b2 := hb _ m2
  unfold Box.Has at b1 b2
  have := hs e he
  unfold rayCross
  repeat' split
  all_goals omega

theorem intsFrom_nodup (a b : Int) : (intsFrom a b).Nodup := by
  unfold intsFrom List.Nodup
  rw [List.pairwise_map]
  exact List.Pairwise.imp (fun {x y} h e => h (by omega)) List.nodup_range

theorem unitCells_nodup (b : Box) : (unitCells b).Nodup := by
  unfold unitCells
  have hn := intsFrom_nodup b.left b.right
  revert hn
  generalize intsFrom b.left b.right = xs
  intro hn
  induction xs with
  | nil => exact List.nodup_nil
  | cons x t ih =>
    rw [List.flatMap_cons, List.nodup_append]
    obtain ⟨h1, h2⟩ := List.nodup_cons.1 hn
    refine ⟨?_, ih h2, ?_⟩
    · unfold List.Nodup
      rw [List.pairwise_map]
      exact List.Pairwise.imp (fun {u v} h e => h (by cases e; rfl)) (intsFrom_nodup _ _)
    · rintro c hc d hd rfl
      rw [List.mem_map] at hc
      obtain ⟨y, _, rfl⟩ := hc
      rw [List.mem_flatMap] at hd
      obtain ⟨x', hx', hd⟩ := hd
      rw [List.mem_map] at hd
      obtain ⟨y', _, e⟩ := hd
      cases e
      exact h1 hx'

theorem sum_pm (s : Int) (w : Point → Int) (l : List Point) (h : ∀ c, w c = 0 ∨ w c = s) :
    (l.map w).sum = s * ((l.filter (fun c => decide (w c ≠ 0))).length : Nat) := by
  induction l with
  | nil => simp
  | cons a t ih =>
    rw [List.map_cons, List.sum_cons, ih, List.filter_cons]
    by_cases ha : w a = 0
    · simp [ha]
    · have := h a
      rw [if_pos (by simp [ha])]
      have e : w a = s := by omega
      rw [e, List.length_cons, show ((((t.filter (fun c => decide (w c ≠ 0))).length + 1 : Nat)) : Int) = ((t.filter (fun c => decide (w c ≠ 0))).length : Nat) + 1 by omega,
        Int.mul_add, Int.mul_one]
      omega

theorem hasSize_unique {S : Point → Prop} {m n : Nat} (h : HasSize S m) (h' : HasSize S n) : m = n := by
  obtain ⟨l, a1, a2, rfl⟩ := h
  obtain ⟨k, b1, b2, rfl⟩ := h'
  have h1 := nodup_len (U := k) a1 (fun x hx => (b2 x).2 ((a2 x).1 hx))
  have h2 := nodup_len (U := l) b1 (fun x hx => (a2 x).2 ((b2 x).1 hx))
  omega

/-- `extents` is the smallest rectangle around the corners -/
theorem extents_tight {ps : List Point} (h : ps ≠ []) : Tight ps (extents ps) := by
  cases ps with
  | nil => exact absurd rfl h
  | cons p t =>
    clear h
    have key : ∀ (t l : List Point) (b : Box), Tight l b →
        Tight (l ++ t) (t.foldl (fun b q => ⟨⟨min b.left q.x, min b.bottom q.y⟩, ⟨max b.right q.x, max b.top q.y⟩⟩) b) := by
      intro t
      induction t with
      | nil => intro l b h; simpa using h
      | cons q t ih =>
        intro l b h
        rw [List.foldl_cons, show l ++ q :: t = (l ++ [q]) ++ t by simp]
        apply ih
        have pick : ∀ (f : Point → Int) (v w : Int), (∃ p ∈ l, f p = v) → (w = v ∨ w = f q) → ∃ p ∈ l ++ [q], f p = w := by
          rintro f v w ⟨p, hp, hv⟩ (rfl | rfl)
          · exact ⟨p, by simp [hp], hv⟩
          · exact ⟨q, by simp, rfl⟩
        constructor
        · intro p hp
          rw [List.mem_append] at hp
          unfold Box.Has
          simp only [Box.left, Box.right, Box.bottom, Box.top]
          rcases hp with hp | hp
          · have := h.holds p hp
            unfold Box.Has at this
            simp only [Box.left, Box.right, Box.bottom, Box.top] at this
            omega
          · simp only [List.mem_singleton] at hp
            subst hp
            omega
        · exact pick (·.x) _ _ h.left (by simp only [Box.left]; omega)
        · exact pick (·.x) _ _ h.right (by simp only [Box.right]; omega)
        · exact pick (·.y) _ _ h.bottom (by simp only [Box.bottom]; omega)
        · exact pick (·.y) _ _ h.top (by simp only [Box.top]; omega)
    have h0 : Tight [p] ⟨p, p⟩ := by
      constructor
      · intro q hq
        simp only [List.mem_singleton] at hq
        subst hq
        exact ⟨Int.le_refl _, Int.le_refl _, Int.le_refl _, Int.le_refl _⟩
      all_goals exact ⟨p, by simp, rfl⟩
    exact key t [p] ⟨p, p⟩ h0

theorem tight_unique {ps : List Point} {a b : Box} (h : Tight ps a) (h' : Tight ps b) : a = b := by
  obtain ⟨⟨ax, ay⟩, ⟨aX, aY⟩⟩ := a
  obtain ⟨⟨bx, by'⟩, ⟨bX, bY⟩⟩ := b
  have key : ∀ {u v : Box}, Tight ps u → Tight ps v → u.left ≤ v.left ∧ v.right ≤ u.right ∧ u.bottom ≤ v.bottom ∧ v.top ≤ u.top := by
    intro u v hu hv
    obtain ⟨p1, m1, e1⟩ := hv.left
    obtain ⟨p2, m2, e2⟩ := hv.right
    obtain ⟨p3, m3, e3⟩ := hv.bottom
    obtain ⟨p4, m4, e4⟩ := hv.top
    have q1 := hu.holds _ m1; have q2 := hu.holds _ m2; have q3 := hu.holds _ m3; have q4 := hu.holds _ m4
    unfold Box.Has at q1 q2 q3 q4
    omega
  have h1 := key h h'; have h2 := key h' h
  simp only [Box.left, Box.right, Box.bottom, Box.top] at h1 h2
  simp only [Box.mk.injEq, Point.mk.injEq]
  omega

/-- **C160** the area that is compared is the number of unit cells inside of the polygon, for every simple rectilinear polygon, whichever
way round its corners are listed -/
theorem c160_area (ps : List Point) (h : SimplePoly ps) : HasSize (Inside ps) (polyArea ps) := by
  have hb := (extents_tight h.ne).holds
  have hsum := winding_sum hb h.sides
  refine ⟨(unitCells (extents ps)).filter (fun c => decide (winding ps c ≠ 0)), (unitCells_nodup _).filter _, ?_, ?_⟩
  · intro c
    rw [List.mem_filter, decide_eq_true_eq, mem_unitCells]
    exact ⟨fun hh => hh.2, fun hh => ⟨inside_cell hb h.sides hh, hh⟩⟩
  · unfold polyArea
    rcases h.once with ho | ho
    · rw [sum_pm 1 _ _ ho] at hsum
      omega
    · rw [sum_pm (-1) _ _ ho] at hsum
      omega

end TR
