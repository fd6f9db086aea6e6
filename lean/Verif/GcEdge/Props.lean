import Verif.GcEdge.Spec
import Verif.GC.CornerEx
/-! # Properties of the edges and corners of metal -/
namespace TR

theorem modify_map_range {β : Type} {f g : Nat → β} {F : β → β} {n i : Nat} (h : ∀ k, k < n → g k = if k = i then F (f k) else f k) :
    ((List.range n).map f).modify i F = (List.range n).map g := by
  apply List.ext_getElem?
  intro k
  rw [List.getElem?_modify]
  by_cases hk : k < n
  · rw [List.getElem?_map, List.getElem?_map, List.getElem?_range hk]
    simp only [Option.map_some, h k hk]
    by_cases e : k = i
    · simp [e]
    · simp [e, Ne.symm e]
  · have h1 : ((List.range n).map f)[k]? = none := List.getElem?_eq_none (by simp; omega)
    have h2 : ((List.range n).map g)[k]? = none := List.getElem?_eq_none (by simp; omega)
    simp [h1, h2]

theorem snoc_map_range {β : Type} {f g : Nat → β} {n : Nat} {x : β} (h : ∀ k, k < n → g k = f k) (hx : g n = x) :
    (List.range n).map f ++ [x] = (List.range (n + 1)).map g := by
  rw [List.range_succ, List.map_append]
  congr 1
  · exact List.map_congr_left (fun k hk => (h k (List.mem_range.1 hk)).symm)
  · simp [hx]

theorem map_range_nil {β : Type} {f : Nat → β} {n : Nat} : (List.range n).map f = [] ↔ n = 0 := by
  simp

/-- the edges after `m` rounds of the loop -/
def geOpen (fx : List (Point × Point)) (vs : List Point) (m : Nat) : List GeEdge :=
  (List.range m).map (fun k => ⟨vs.getD k default, vs.getD (k + 1) default, decide ((vs.getD k default, vs.getD (k + 1) default) ∈ fx),
    if k = 0 then none else some (k - 1), if k + 1 = m then none else some (k + 1)⟩)

theorem geOpen_length (fx : List (Point × Point)) (vs : List Point) (m : Nat) : (geOpen fx vs m).length = m := by simp [geOpen]

theorem geLink_open (fx : List (Point × Point)) (vs : List Point) (m : Nat) :
    geLink (geOpen fx vs m) = (List.range m).map (fun k => ⟨vs.getD k default, vs.getD (k + 1) default,
      decide ((vs.getD k default, vs.getD (k + 1) default) ∈ fx), if k = 0 then none else some (k - 1), some (k + 1)⟩) := by
  rw [geLink, geOpen_length, geOpen]
  apply modify_map_range
  intro k hk
  by_cases e : k = m - 1
  · rw [if_pos e]; have : k + 1 = m := by omega
    simp [this]
  · rw [if_neg e]; have : ¬ k + 1 = m := by omega
    simp [this]

theorem geLoop_open (fx : List (Point × Point)) (vs : List Point) : ∀ (t : List Point) (m : Nat), vs.drop (m + 1) = t → m < vs.length →
    geLoop fx (vs.getD m default) t (geOpen fx vs m) = (vs.getD (vs.length - 1) default, geOpen fx vs (vs.length - 1))
  | [], m, h, hm => by
    have : m = vs.length - 1 := by
      have := List.drop_eq_nil_iff.1 h; omega
    rw [geLoop, ← this]
  | ep :: t, m, h, hm => by
    have hlen : m + 1 < vs.length := by
      have := congrArg List.length h
      simp at this; omega
    have hep : vs.getD (m + 1) default = ep := by
      have := congrArg (fun l : List Point => l[0]?) h
      simp at this
      simp [List.getD, this]
    have ht : vs.drop (m + 1 + 1) = t := by
      have := congrArg List.tail h
      simpa using this
    rw [geLoop]
    have key : (if geOpen fx vs m = [] then geOpen fx vs m else geLink (geOpen fx vs m)) ++
        [(⟨vs.getD m default, ep, decide ((vs.getD m default, ep) ∈ fx), if geOpen fx vs m = [] then none else some ((geOpen fx vs m).length - 1), none⟩ : GeEdge)]
        = geOpen fx vs (m + 1) := by
      have hn : geOpen fx vs m = [] ↔ m = 0 := by simp [geOpen]
      by_cases h0 : m = 0
      · subst h0
        simp [geOpen, List.range_succ]
        simp [← hep]
      · have hne : ¬ geOpen fx vs m = [] := fun e => h0 (hn.1 e)
        rw [if_neg hne, if_neg hne, geLink_open, geOpen_length]
        rw [geOpen]
        apply snoc_map_range
        · intro k hk
          have : ¬ k = m := by omega
          simp [this]
        · rw [hep, if_neg h0, if_pos rfl]
    rw [key, ← hep]
    exact geLoop_open fx vs t (m + 1) ht hlen

/-- the closed form of an outline -/
def geClosed (fx : List (Point × Point)) (vs : List Point) : List GeEdge :=
  (List.range vs.length).map (fun k => ⟨vs.getD k default, vs.getD ((k + 1) % vs.length) default,
    decide ((vs.getD k default, vs.getD ((k + 1) % vs.length) default) ∈ fx), some ((k + vs.length - 1) % vs.length), some ((k + 1) % vs.length)⟩)

theorem geRing_closed (fx : List (Point × Point)) (vs : List Point) (h : 2 ≤ vs.length) : geRing fx vs = some (geClosed fx vs) := by
  match vs, h with
  | v :: t, h =>
    have hl := geLoop_open fx (v :: t) t 0 (by simp) (by simp)
    simp only [List.getD_cons_zero] at hl
    have h0 : geOpen fx (v :: t) 0 = [] := by simp [geOpen]
    rw [h0] at hl
    rw [geRing]
    simp only [hl]
    have hne : ¬ geOpen fx (v :: t) ((v :: t).length - 1) = [] := by
      simp only [geOpen, List.map_eq_nil_iff, List.range_eq_nil]
      omega
    rw [if_neg hne, geLink_open, geOpen_length]
    generalize hn : (v :: t).length = n at *
    obtain ⟨m, rfl⟩ : ∃ m, n = m + 1 := ⟨n - 1, by omega⟩
    have hv : (v :: t).getD 0 default = v := rfl
    generalize hvs : v :: t = vs at *
    simp only [Nat.add_sub_cancel]
    congr 1
    rw [geClosed, hn]
    rw [modify_map_range (g := fun k => ⟨vs.getD k default, vs.getD (k + 1) default, decide ((vs.getD k default, vs.getD (k + 1) default) ∈ fx),
      some (if k = 0 then m else k - 1), some (k + 1)⟩)]
    · apply snoc_map_range
      · intro k hk
        have e1 : (k + 1) % (m + 1) = k + 1 := Nat.mod_eq_of_lt (by omega)
        have e2 : (k + (m + 1) - 1) % (m + 1) = if k = 0 then m else k - 1 := by
          split
          · subst k
            rw [show 0 + (m + 1) - 1 = m by omega]
            exact Nat.mod_eq_of_lt (by omega)
          · rw [show k + (m + 1) - 1 = (k - 1) + (m + 1) by omega, Nat.add_mod_right]
            exact Nat.mod_eq_of_lt (by omega)
        rw [e1, e2]
      · have e1 : (m + 1) % (m + 1) = 0 := Nat.mod_self _
        have e2 : (m + (m + 1) - 1) % (m + 1) = m - 1 := by
          rw [show m + (m + 1) - 1 = (m - 1) + (m + 1) by omega, Nat.add_mod_right]
          exact Nat.mod_eq_of_lt (by omega)
        rw [e1, e2, hv]
    · intro k hk
      by_cases e : k = 0 <;> simp [e]

theorem nextVertex_loop (first p q : Point) : ∀ (t : List Point) (bp : Point), (p, q) ∈ geFixedLoop first bp t ↔
    (∃ k, (bp :: t)[k]? = some p ∧ (bp :: t)[k + 1]? = some q) ∨ ((bp :: t)[t.length]? = some p ∧ q = first)
  | [], bp => by
    simp only [geFixedLoop, List.mem_singleton, Prod.mk.injEq, List.length_nil]
    constructor
    · rintro ⟨rfl, rfl⟩; right; simp
    · rintro (⟨k, _, h⟩ | ⟨h, rfl⟩)
      · simp at h
      · simp at h; simp [h]
  | ep :: t, bp => by
    rw [geFixedLoop, List.mem_cons, nextVertex_loop first p q t ep, Prod.mk.injEq]
    constructor
    · rintro (⟨rfl, rfl⟩ | ⟨k, h1, h2⟩ | ⟨h, rfl⟩)
      · exact Or.inl ⟨0, by simp, by simp⟩
      · exact Or.inl ⟨k + 1, by simpa using h1, by simpa using h2⟩
      · exact Or.inr ⟨by simpa using h, rfl⟩
    · rintro (⟨k, h1, h2⟩ | ⟨h, rfl⟩)
      · cases k with
        | zero => simp at h1 h2; exact Or.inl ⟨h1.symm, h2.symm⟩
        | succ k => exact Or.inr (Or.inl ⟨k, by simpa using h1, by simpa using h2⟩)
      · exact Or.inr (Or.inr ⟨by simpa using h, rfl⟩)

theorem geFixedRing_mem (vs : List Point) (p q : Point) : (p, q) ∈ geFixedRing vs ↔ NextVertex vs p q := by
  match vs with
  | [] => simp [geFixedRing, NextVertex]
  | v :: t =>
    rw [geFixedRing, nextVertex_loop, NextVertex]
    have hl : (v :: t).length = t.length + 1 := rfl
    constructor
    · rintro (⟨k, h1, h2⟩ | ⟨h, rfl⟩)
      · have : k + 1 < (v :: t).length := (List.getElem?_eq_some_iff.1 h2).1
        exact ⟨k, h1, by rw [Nat.mod_eq_of_lt this]; exact h2⟩
      · exact ⟨t.length, h, by rw [hl, Nat.mod_self]; rfl⟩
    · rintro ⟨k, h1, h2⟩
      have hk : k < t.length + 1 := (List.getElem?_eq_some_iff.1 h1).1
      by_cases e : k = t.length
      · subst e
        rw [hl, Nat.mod_self] at h2
        exact Or.inr ⟨h1, by simpa using h2.symm⟩
      · rw [hl, Nat.mod_eq_of_lt (by omega)] at h2
        exact Or.inl ⟨k, h1, h2⟩

theorem geFixed_mem (s : GeShapes) (p q : Point) : (p, q) ∈ geFixed s ↔ FixedSide s p q := by
  have hr : ∀ b : Box, geFixedRect b = geFixedRing [⟨b.left, b.bottom⟩, ⟨b.right, b.bottom⟩, ⟨b.right, b.top⟩, ⟨b.left, b.top⟩] := fun b => rfl
  simp only [geFixed, List.mem_append, List.mem_flatMap, FixedSide, hr, geFixedRing_mem]
  constructor
  · rintro (⟨g, hg, h | ⟨r, hr, h⟩⟩ | h)
    · exact Or.inl ⟨g, hg, g.outer, Or.inl rfl, h⟩
    · exact Or.inl ⟨g, hg, r, Or.inr hr, h⟩
    · exact Or.inr h
  · rintro (⟨g, hg, r, rfl | hr, h⟩ | h)
    · exact Or.inl ⟨g, hg, Or.inl h⟩
    · exact Or.inl ⟨g, hg, Or.inr ⟨r, hr, h⟩⟩
    · exact Or.inr h

theorem geClosed_get (fx : List (Point × Point)) (vs : List Point) {k : Nat} (hk : k < vs.length) :
    (geClosed fx vs)[k]? = some ⟨vs.getD k default, vs.getD ((k + 1) % vs.length) default,
      decide ((vs.getD k default, vs.getD ((k + 1) % vs.length) default) ∈ fx), some ((k + vs.length - 1) % vs.length), some ((k + 1) % vs.length)⟩ := by
  rw [geClosed, List.getElem?_map, List.getElem?_range hk]; rfl

theorem getD_some' {β : Type} [Inhabited β] {l : List β} {k : Nat} (hk : k < l.length) : l[k]? = some (l.getD k default) := by
  simp [List.getD, List.getElem?_eq_getElem hk]

/-- **C174 (edges).** For every outline of two or more vertices the checker makes exactly one edge from each vertex to the next one around; the links from edge to edge
lead once around the outline, forwards and backwards; and an edge counts as fixed exactly when the fixed metal alone has that edge. -/
theorem c174_edges (s : GeShapes) (vs : List Point) (h : 2 ≤ vs.length) :
    ∃ es, geRing (geFixed s) vs = some es ∧ es.length = vs.length ∧ ∀ k, k < vs.length → ∃ e, es[k]? = some e ∧ SideOf s vs k e := by
  refine ⟨_, geRing_closed _ vs h, by simp [geClosed], fun k hk => ⟨_, geClosed_get _ vs hk, ?_⟩⟩
  refine ⟨getD_some' hk, getD_some' (Nat.mod_lt _ (by omega)), rfl, rfl, ?_⟩
  simp only [decide_eq_true_eq]
  exact geFixed_mem s _ _

/-- **C174 (undefined case).** The construction is undefined exactly for outlines of less than two vertices. -/
theorem c174_undefined (s : GeShapes) (vs : List Point) : geRing (geFixed s) vs = none ↔ vs.length < 2 := by
  constructor
  · intro h
    apply Classical.byContradiction
    intro hn
    rw [geRing_closed _ vs (by omega)] at h
    cases h
  · intro h
    match vs, h with
    | [], _ => rfl
    | [v], _ => rfl

/-- a pin has one list of edges for its outer outline and one for each of its holes, in order -/
theorem gePin_rings (s : GeShapes) (p : GePoly) (h : ∀ r, r = p.outer ∨ r ∈ p.holes → 2 ≤ r.length) :
    gePin s p = some ((p.outer :: p.holes).map (geClosed (geFixed s))) := by
  rw [gePin]
  have : ∀ (rs : List (List Point)), (∀ r ∈ rs, 2 ≤ r.length) → rs.mapM (geRing (geFixed s)) = some (rs.map (geClosed (geFixed s))) := by
    intro rs
    induction rs with
    | nil => intro _; rfl
    | cons r rs ih =>
      intro h
      rw [List.mapM_cons, geRing_closed _ r (h r List.mem_cons_self), ih (fun r' hr' => h r' (List.mem_cons_of_mem _ hr'))]
      rfl
  apply this
  intro r hr
  rcases List.mem_cons.1 hr with e | e
  · exact h r (Or.inl e)
  · exact h r (Or.inr e)

/-- **C174 (cuts).** Each cut of the net is a pin of its own with four edges counterclockwise around it, and all edges of a fixed cut count as fixed. -/
theorem c174_cuts (s : GeShapes) (b : Box) (hb : b ∈ s.routeRects ∨ b ∈ s.fixedRects) :
    ∃ p ∈ gePins s, ∃ es, gePin s p = some [es] ∧
      es.map (fun e => (e.lo, e.hi)) = [(⟨b.left, b.bottom⟩, ⟨b.right, b.bottom⟩), (⟨b.right, b.bottom⟩, ⟨b.right, b.top⟩),
        (⟨b.right, b.top⟩, ⟨b.left, b.top⟩), (⟨b.left, b.top⟩, ⟨b.left, b.bottom⟩)] ∧
      (b ∈ s.fixedRects → ∀ e ∈ es, e.fixed = true) := by
  refine ⟨geRectPoly b, ?_, _, gePin_rings s _ ?_, by simp [geClosed, geRectPoly, List.range_succ], ?_⟩
  · simp only [gePins, List.mem_append, List.mem_map]
    rcases hb with hb | hb
    · exact Or.inl (Or.inr ⟨b, hb, rfl⟩)
    · exact Or.inr ⟨b, hb, rfl⟩
  · intro r hr
    rcases hr with rfl | hr
    · simp [geRectPoly]
    · simp [geRectPoly] at hr
  · intro hf e he
    have hlen : (geRectPoly b).outer.length = 4 := rfl
    obtain ⟨k, hk, rfl⟩ := List.getElem_of_mem he
    have hk' : k < (geRectPoly b).outer.length := by simpa [geClosed] using hk
    have hg := geClosed_get (geFixed s) (geRectPoly b).outer hk'
    rw [List.getElem?_eq_getElem hk] at hg
    injection hg with hg
    rw [hg]
    simp only [decide_eq_true_eq]
    rw [geFixed_mem]
    exact Or.inr ⟨b, hf, k, getD_some' hk', getD_some' (Nat.mod_lt _ (by simp [geRectPoly]))⟩

/-- **C174 (pins).** The pins of a net on a layer are its merged polygons and its cuts, and nothing else. -/
theorem c174_pins (s : GeShapes) (p : GePoly) : p ∈ gePins s ↔ p ∈ s.merged ∨ ∃ b, (b ∈ s.routeRects ∨ b ∈ s.fixedRects) ∧
    p = ⟨[⟨b.left, b.bottom⟩, ⟨b.right, b.bottom⟩, ⟨b.right, b.top⟩, ⟨b.left, b.top⟩], []⟩ := by
  simp only [gePins, List.mem_append, List.mem_map, geRectPoly]
  constructor
  · rintro ((h | ⟨b, hb, rfl⟩) | ⟨b, hb, rfl⟩)
    · exact Or.inl h
    · exact Or.inr ⟨b, Or.inl hb, rfl⟩
    · exact Or.inr ⟨b, Or.inr hb, rfl⟩
  · rintro (h | ⟨b, hb | hb, rfl⟩)
    · exact Or.inl (Or.inl h)
    · exact Or.inl (Or.inr ⟨b, hb, rfl⟩)
    · exact Or.inr ⟨b, hb, rfl⟩

/-- **C174 (largest rectangles).** A largest rectangle of a pin counts as fixed exactly when it is a largest rectangle of the fixed metal alone or a fixed cut. -/
theorem c174_rects (s : GeShapes) (maxFixed maxPin : List Box) (b : Box) (f : Bool) :
    (b, f) ∈ geRects s maxFixed maxPin ↔ b ∈ maxPin ∧ (f = true ↔ b ∈ maxFixed ∨ b ∈ s.fixedRects) := by
  have hm : ∀ l : List Box, (b.ll, b.ur) ∈ l.map (fun r => (r.ll, r.ur)) ↔ b ∈ l := by
    intro l
    simp only [List.mem_map, Prod.mk.injEq]
    constructor
    · rintro ⟨r, hr, h1, h2⟩
      have : r = b := by cases r; cases b; simp_all
      rwa [← this]
    · intro h; exact ⟨b, h, rfl, rfl⟩
  simp only [geRects, List.mem_map, Prod.mk.injEq]
  constructor
  · rintro ⟨b', hb, rfl, rfl⟩
    refine ⟨hb, ?_⟩
    rw [decide_eq_true_eq, List.mem_append, hm, hm]
  · rintro ⟨hb, hf⟩
    refine ⟨b, hb, rfl, ?_⟩
    rw [Bool.eq_iff_iff, hf, decide_eq_true_eq, List.mem_append, hm, hm]

/-! ### corners -/

theorem geDir_ok {n : Nat} {p q : Point} (h : (p.x = q.x ∧ p.y ≠ q.y) ∨ (p.y = q.y ∧ p.x ≠ q.x)) : GEdge.Ok ⟨n, geDir p q, p, q⟩ := by
  unfold GEdge.Ok geDir
  rcases h with ⟨h1, h2⟩ | ⟨h1, h2⟩
  · by_cases h3 : p.y < q.y
    · simp [h1, h3]
    · simp [h1, h3]; omega
  · by_cases h3 : p.x < q.x
    · simp [h1, h2, h3]
    · simp [h1, h2, h3]; omega

/-- **C174 (outlines).** For an outline with right angles, the edges that the checker makes satisfy what its checks of corners and spacing rely on: each runs in its
direction, begins where the one before ends, and makes a right angle with it. -/
theorem c174_outline (s : GeShapes) (vs : List Point) (h : RightAngled vs) (n : Nat) :
    ∃ es, geRing (geFixed s) vs = some es ∧ Outline n (es.map (GeEdge.seen n)) := by
  have h4 := h.four
  refine ⟨_, geRing_closed _ vs (by omega), ?_⟩
  have hlen : ((geClosed (geFixed s) vs).map (GeEdge.seen n)).length = vs.length := by simp [geClosed]
  have hget : ∀ k, k < vs.length → ((geClosed (geFixed s) vs).map (GeEdge.seen n))[k]? =
      some ⟨n, geDir (vs.getD k default) (vs.getD ((k + 1) % vs.length) default), vs.getD k default, vs.getD ((k + 1) % vs.length) default⟩ := by
    intro k hk
    rw [List.getElem?_map, geClosed_get _ vs hk]; rfl
  have hang : ∀ k, k < vs.length → ((vs.getD k default).x = (vs.getD ((k + 1) % vs.length) default).x ∧ (vs.getD k default).y ≠ (vs.getD ((k + 1) % vs.length) default).y) ∨
      ((vs.getD k default).y = (vs.getD ((k + 1) % vs.length) default).y ∧ (vs.getD k default).x ≠ (vs.getD ((k + 1) % vs.length) default).x) := by
    intro k hk
    have := h.angle k _ _ _ (by rw [Nat.mod_eq_of_lt hk]; exact getD_some' hk) (getD_some' (Nat.mod_lt _ (by omega))) (getD_some' (Nat.mod_lt _ (by omega)))
    rcases this with ⟨a, b, _, _⟩ | ⟨a, b, _, _⟩
    · exact Or.inl ⟨a, b⟩
    · exact Or.inr ⟨a, b⟩
  refine ⟨by omega, ?_, ?_, ?_⟩
  · intro e he
    obtain ⟨e', _, rfl⟩ := List.mem_map.1 he
    rfl
  · intro e he
    obtain ⟨k, hk, rfl⟩ := List.getElem_of_mem he
    have hk' : k < vs.length := by omega
    have := hget k hk'
    rw [List.getElem?_eq_getElem hk] at this
    injection this with this
    rw [this]
    exact geDir_ok (hang k hk')
  · intro i a b ha hb
    rw [hlen] at ha hb
    have hi := Nat.mod_lt i (show 0 < vs.length by omega)
    rw [hget _ hi] at ha
    rw [hget _ (Nat.mod_lt _ (by omega))] at hb
    have e2 : ((i + 1) % vs.length + 1) % vs.length = (i + 2) % vs.length := by rw [Nat.mod_add_mod]
    rw [Nat.mod_add_mod] at ha
    rw [e2] at hb
    injection ha with ha
    injection hb with hb
    subst ha hb
    refine ⟨rfl, ?_⟩
    have := h.angle i _ _ _ (getD_some' hi) (getD_some' (Nat.mod_lt _ (by omega))) (getD_some' (Nat.mod_lt _ (by omega)))
    simp only [crossEdge]
    rcases this with ⟨a, b, c, d⟩ | ⟨a, b, c, d⟩
    · rw [a, c]
      have := Int.mul_ne_zero (show (vs.getD ((i + 1) % vs.length) default).y - (vs.getD (i % vs.length) default).y ≠ 0 by omega)
        (show (vs.getD ((i + 2) % vs.length) default).x - (vs.getD ((i + 1) % vs.length) default).x ≠ 0 by omega)
      rw [c] at this
      simp only [Int.sub_self, Int.zero_mul]
      omega
    · rw [a, c]
      have := Int.mul_ne_zero (show (vs.getD ((i + 1) % vs.length) default).x - (vs.getD (i % vs.length) default).x ≠ 0 by omega)
        (show (vs.getD ((i + 2) % vs.length) default).y - (vs.getD ((i + 1) % vs.length) default).y ≠ 0 by omega)
      rw [c] at this
      simp only [Int.sub_self, Int.zero_mul]
      omega

end TR
