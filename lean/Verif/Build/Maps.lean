import Verif.Build.Spec
/-! The coordinate maps. -/
namespace TR

/-- look an entry up -/
def CoordMap.look : CoordMap → Int → Int → Option Bool
  | [], _, _ => none
  | (a, f) :: m, c, l => if a = c then f l else CoordMap.look m c l

/-- keys strictly increasing, no empty inner map -/
def CoordMap.Wf (m : CoordMap) : Prop :=
  StrictInc (m.map (·.1)) ∧ ∀ e ∈ m, ∃ l v, e.2 l = some v

theorem look_none {m : CoordMap} {c : Int} (h : ∀ e ∈ m, e.1 ≠ c) (l : Int) : CoordMap.look m c l = none := by
  induction m with
  | nil => rfl
  | cons e m ih =>
    obtain ⟨a, f⟩ := e
    have h1 := h (a, f) (by simp)
    simp only [CoordMap.look]
    rw [if_neg h1]
    exact ih fun e he => h e (List.mem_cons_of_mem _ he)

theorem wf_tail {e : Int × (Int → Option Bool)} {m : CoordMap} (h : CoordMap.Wf (e :: m)) : CoordMap.Wf m :=
  ⟨(List.pairwise_cons.1 h.1).2, fun x hx => h.2 x (List.mem_cons_of_mem _ hx)⟩

theorem wf_head {e : Int × (Int → Option Bool)} {m : CoordMap} (h : CoordMap.Wf (e :: m)) :
    ∀ x ∈ m, e.1 < x.1 := fun x hx =>
  (List.pairwise_cons.1 h.1).1 x.1 (List.mem_map.2 ⟨x, hx, rfl⟩)

theorem put_keys (c l : Int) (v : Bool) (m : CoordMap) (k : Int) :
    k ∈ (m.put c l v).map (·.1) ↔ k = c ∨ k ∈ m.map (·.1) := by
  induction m with
  | nil => simp [CoordMap.put]
  | cons e m ih =>
    obtain ⟨a, f⟩ := e
    simp only [CoordMap.put]
    by_cases h1 : c < a
    · rw [if_pos h1]; simp
    · rw [if_neg h1]
      by_cases h2 : a < c
      · rw [if_pos h2]
        simp only [List.map_cons, List.mem_cons, ih]
        constructor
        · rintro (h | h | h)
          · exact Or.inr (Or.inl h)
          · exact Or.inl h
          · exact Or.inr (Or.inr h)
        · rintro (h | h | h)
          · exact Or.inr (Or.inl h)
          · exact Or.inl h
          · exact Or.inr (Or.inr h)
      · rw [if_neg h2]
        have : c = a := by omega
        subst this
        simp

theorem put_wf (c l : Int) (v : Bool) (m : CoordMap) (h : m.Wf) : (m.put c l v).Wf := by
  induction m with
  | nil =>
    refine ⟨by simp [CoordMap.put, StrictInc], ?_⟩
    intro e he
    simp only [CoordMap.put, List.mem_singleton] at he
    subst he
    exact ⟨l, v, by simp⟩
  | cons e m ih =>
    obtain ⟨a, f⟩ := e
    have ih' := ih (wf_tail h)
    have hh := wf_head h
    simp only [CoordMap.put]
    by_cases h1 : c < a
    · rw [if_pos h1]
      refine ⟨?_, ?_⟩
      · simp only [List.map_cons]
        refine List.pairwise_cons.2 ⟨?_, h.1⟩
        intro k hk
        rcases List.mem_cons.1 hk with rfl | hk
        · exact h1
        · obtain ⟨x, hx, rfl⟩ := List.mem_map.1 hk
          exact Int.lt_trans h1 (hh x hx)
      · intro x hx
        rcases List.mem_cons.1 hx with rfl | hx
        · exact ⟨l, v, by simp⟩
        · exact h.2 x hx
    · rw [if_neg h1]
      by_cases h2 : a < c
      · rw [if_pos h2]
        refine ⟨?_, ?_⟩
        · simp only [List.map_cons]
          refine List.pairwise_cons.2 ⟨?_, ih'.1⟩
          intro k hk
          rcases (put_keys c l v m k).1 hk with rfl | hk
          · exact h2
          · obtain ⟨x, hx, rfl⟩ := List.mem_map.1 hk
            exact hh x hx
        · intro x hx
          rcases List.mem_cons.1 hx with rfl | hx
          · exact h.2 _ (by simp)
          · exact ih'.2 x hx
      · rw [if_neg h2]
        refine ⟨?_, ?_⟩
        · have := h.1
          simpa using this
        · intro x hx
          rcases List.mem_cons.1 hx with rfl | hx
          · exact ⟨l, v, by simp⟩
          · exact h.2 x (List.mem_cons_of_mem _ hx)

theorem put_look (c l : Int) (v : Bool) (m : CoordMap) (h : m.Wf) (c' l' : Int) :
    (m.put c l v).look c' l' = if c' = c ∧ l' = l then some v else m.look c' l' := by
  induction m with
  | nil =>
    simp only [CoordMap.put, CoordMap.look]
    by_cases hc : c = c'
    · subst hc; simp
    · rw [if_neg hc, if_neg (by omega)]
  | cons e m ih =>
    obtain ⟨a, f⟩ := e
    have ih' := ih (wf_tail h)
    have hh := wf_head h
    simp only [CoordMap.put]
    by_cases h1 : c < a
    · rw [if_pos h1]
      simp only [CoordMap.look]
      by_cases hc : c = c'
      · subst hc
        rw [if_pos rfl, if_neg (show ¬ a = c by omega),
          look_none (fun e he => by have := hh e he; simp only at this; omega)]
        simp
      · rw [if_neg hc, if_neg (show ¬ (c' = c ∧ l' = l) by omega)]
    · rw [if_neg h1]
      by_cases h2 : a < c
      · rw [if_pos h2]
        simp only [CoordMap.look, ih']
        by_cases ha : a = c'
        · rw [if_pos ha, if_neg (by omega), if_pos ha]
        · rw [if_neg ha, if_neg ha]
      · rw [if_neg h2]
        have : c = a := by omega
        subst this
        simp only [CoordMap.look]
        by_cases hc : c = c'
        · subst hc; simp
        · rw [if_neg hc, if_neg hc, if_neg (by omega)]

/-- an entry of the list is what the map answers -/
theorem look_at {m : CoordMap} (h : m.Wf) {i : Nat} {c : Int} {f : Int → Option Bool}
    (hi : m[i]? = some (c, f)) (l : Int) : m.look c l = f l := by
  induction m generalizing i with
  | nil => simp at hi
  | cons e m ih =>
    obtain ⟨a, f'⟩ := e
    simp only [CoordMap.look]
    cases i with
    | zero =>
      simp only [List.getElem?_cons_zero, Option.some.injEq, Prod.mk.injEq] at hi
      obtain ⟨rfl, rfl⟩ := hi
      rw [if_pos rfl]
    | succ i =>
      simp only [List.getElem?_cons_succ] at hi
      have := wf_head h _ (List.mem_of_getElem? hi)
      simp only at this
      rw [if_neg (by omega)]
      exact ih (wf_tail h) hi

/-- keys are the coordinates with an entry -/
theorem key_iff {m : CoordMap} (h : m.Wf) (c : Int) :
    c ∈ m.map (·.1) ↔ ∃ l v, m.look c l = some v := by
  constructor
  · intro hc
    obtain ⟨⟨a, f⟩, he, rfl⟩ := List.mem_map.1 hc
    obtain ⟨i, hi⟩ := List.getElem?_of_mem he
    obtain ⟨l, v, hv⟩ := h.2 _ he
    exact ⟨l, v, by rw [look_at h hi]; exact hv⟩
  · rintro ⟨l, v, hv⟩
    by_cases hc : ∃ e ∈ m, e.1 = c
    · obtain ⟨e, he, rfl⟩ := hc
      exact List.mem_map.2 ⟨e, he, rfl⟩
    · rw [look_none (fun e he h' => hc ⟨e, he, h'⟩)] at hv
      cases hv

/-- `m'` is `m` with the entries of `PX` and `PY` set to `v` -/
def Adds (m m' : CoordMaps) (v : Bool) (PX PY : Int → Int → Prop) : Prop :=
  m.x.Wf → m.y.Wf → m'.x.Wf ∧ m'.y.Wf ∧
    (∀ c l, (PX l c → m'.x.look c l = some v) ∧ (¬ PX l c → m'.x.look c l = m.x.look c l)) ∧
    (∀ c l, (PY l c → m'.y.look c l = some v) ∧ (¬ PY l c → m'.y.look c l = m.y.look c l))

theorem adds_refl (m : CoordMaps) (v : Bool) : Adds m m v (fun _ _ => False) (fun _ _ => False) :=
  fun hx hy => ⟨hx, hy, fun _ _ => ⟨False.elim, fun _ => rfl⟩, fun _ _ => ⟨False.elim, fun _ => rfl⟩⟩

theorem adds_trans {m m' m'' : CoordMaps} {v : Bool} {PX PY QX QY : Int → Int → Prop}
    (h1 : Adds m m' v PX PY) (h2 : Adds m' m'' v QX QY) :
    Adds m m'' v (fun l c => PX l c ∨ QX l c) (fun l c => PY l c ∨ QY l c) := by
  classical
  intro hx hy
  obtain ⟨a1, a2, a3, a4⟩ := h1 hx hy
  obtain ⟨b1, b2, b3, b4⟩ := h2 a1 a2
  refine ⟨b1, b2, fun c l => ⟨fun h => ?_, fun h => ?_⟩, fun c l => ⟨fun h => ?_, fun h => ?_⟩⟩
  · by_cases hq : QX l c
    · exact (b3 c l).1 hq
    · rw [(b3 c l).2 hq]; exact (a3 c l).1 (h.resolve_right hq)
  · rw [(b3 c l).2 fun hq => h (Or.inr hq), (a3 c l).2 fun hp => h (Or.inl hp)]
  · by_cases hq : QY l c
    · exact (b4 c l).1 hq
    · rw [(b4 c l).2 hq]; exact (a4 c l).1 (h.resolve_right hq)
  · rw [(b4 c l).2 fun hq => h (Or.inr hq), (a4 c l).2 fun hp => h (Or.inl hp)]

theorem adds_congr {m m' : CoordMaps} {v : Bool} {PX PY QX QY : Int → Int → Prop} (h : Adds m m' v PX PY)
    (hX : ∀ l c, QX l c ↔ PX l c) (hY : ∀ l c, QY l c ↔ PY l c) : Adds m m' v QX QY := by
  intro hx hy
  obtain ⟨a1, a2, a3, a4⟩ := h hx hy
  refine ⟨a1, a2, fun c l => ?_, fun c l => ?_⟩
  · rw [hX]; exact a3 c l
  · rw [hY]; exact a4 c l

theorem adds_putX (m : CoordMaps) (c l : Int) (v : Bool) :
    Adds m (m.putX c l v) v (fun l' c' => c' = c ∧ l' = l) (fun _ _ => False) := by
  intro hx hy
  refine ⟨put_wf c l v m.x hx, hy, fun c' l' => ?_, fun _ _ => ⟨False.elim, fun _ => rfl⟩⟩
  have := put_look c l v m.x hx c' l'
  exact ⟨fun h => by show (m.x.put c l v).look c' l' = _; rw [this, if_pos h],
    fun h => by show (m.x.put c l v).look c' l' = _; rw [this, if_neg h]⟩

theorem adds_putY (m : CoordMaps) (c l : Int) (v : Bool) :
    Adds m (m.putY c l v) v (fun _ _ => False) (fun l' c' => c' = c ∧ l' = l) := by
  intro hx hy
  refine ⟨hx, put_wf c l v m.y hy, fun _ _ => ⟨False.elim, fun _ => rfl⟩, fun c' l' => ?_⟩
  have := put_look c l v m.y hy c' l'
  exact ⟨fun h => by show (m.y.put c l v).look c' l' = _; rw [this, if_pos h],
    fun h => by show (m.y.put c l v).look c' l' = _; rw [this, if_neg h]⟩

theorem adds_fold {α : Type} (step : CoordMaps → α → CoordMaps) (v : Bool) (PX PY : α → Int → Int → Prop)
    (L : List α) (h : ∀ a ∈ L, ∀ m, Adds m (step m a) v (PX a) (PY a)) :
    ∀ m, Adds m (L.foldl step m) v (fun l c => ∃ a ∈ L, PX a l c) (fun l c => ∃ a ∈ L, PY a l c) := by
  induction L with
  | nil => intro m; exact adds_congr (adds_refl m v) (by simp) (by simp)
  | cons a L ih =>
    intro m
    simp only [List.foldl_cons]
    exact adds_congr (adds_trans (h a (by simp) m) (ih (fun b hb => h b (List.mem_cons_of_mem _ hb)) _))
      (by simp) (by simp)

/-! ### the objects -/

theorem otherLayer_pair (T : GTech) (l : Int) (h : 2 ≤ l) : T.otherLayer l = some (T.pairLayer l) := by
  unfold GTech.otherLayer GTech.pairLayer
  by_cases h1 : T.top < l + 2
  · rw [if_neg (by omega), if_pos (by omega), if_pos h1]
  · rw [if_pos (by omega), if_neg h1]

theorem nonPref_pair (T : GTech) (l : Int) (h : 2 ≤ l) : T.nonPrefLayer l = T.pairLayer l := by
  unfold GTech.nonPrefLayer GTech.pairLayer
  by_cases h1 : T.top < l + 2
  · rw [if_neg (by omega), if_pos (by omega), if_pos h1]
  · rw [if_pos (by omega), if_neg h1]

theorem adds_line (T : GTech) (l : Int) (p : Point) (m : CoordMaps) :
    Adds m (coordsLine T l p m) false (fun k c => c = p.x ∧ k = l ∧ T.hor l = false)
      (fun k c => c = p.y ∧ k = l ∧ T.hor l = true) := by
  unfold coordsLine
  by_cases h : T.hor l = true
  · rw [if_pos h]
    exact adds_congr (adds_putY m _ _ _) (by simp [h]) (by simp [h])
  · rw [if_neg h]
    exact adds_congr (adds_putX m _ _ _) (by simp [h]) (by simp [h])

theorem adds_obj (T : GTech) (ht : T.Ok) (o : BObj) (ho : o.Ok T) (m : CoordMaps) :
    Adds m (coordsObj T m o) false (fun l c => o.LineX T l c) (fun l c => o.LineY T l c) := by
  cases o with
  | wire l a b =>
    obtain ⟨hl, hab⟩ := ho
    have h2 := (ht.low l hl).1
    simp only [coordsObj, coordsWire, otherLayer_pair T l h2, BObj.LineX, BObj.LineY]
    by_cases hx : a.x = b.x
    · rw [if_pos hx]
      by_cases hh : T.hor l = true
      · simp only [hh, if_true]
        refine adds_congr (adds_trans (adds_trans (adds_putX m _ _ _) (adds_putY _ _ _ _)) (adds_putY _ _ _ _))
          (fun k c => ?_) (fun k c => ?_)
        · rw [hx]; simp
        · simp only [false_or]
          constructor
          · rintro ⟨h | h, e⟩
            · exact Or.inl ⟨h, e⟩
            · exact Or.inr ⟨h, e⟩
          · rintro (h | h)
            · exact ⟨Or.inl h.1, h.2⟩
            · exact ⟨Or.inr h.1, h.2⟩
      · have hh' : T.hor l = false := by simpa using hh
        simp only [hh', Bool.false_eq_true, if_false]
        refine adds_congr (adds_trans (adds_trans (adds_putX m _ _ _) (adds_putY _ _ _ _)) (adds_putY _ _ _ _))
          (fun k c => ?_) (fun k c => ?_)
        · rw [hx]; simp
        · simp only [false_or]
          constructor
          · rintro ⟨h | h, e⟩
            · exact Or.inl ⟨h, e⟩
            · exact Or.inr ⟨h, e⟩
          · rintro (h | h)
            · exact ⟨Or.inl h.1, h.2⟩
            · exact ⟨Or.inr h.1, h.2⟩
    · rw [if_neg hx]
      have hy : a.y = b.y := by omega
      by_cases hh : T.hor l = true
      · simp only [hh, Bool.not_true, Bool.false_eq_true, if_false, if_true]
        refine adds_congr (adds_trans (adds_trans (adds_putY m _ _ _) (adds_putX _ _ _ _)) (adds_putX _ _ _ _))
          (fun k c => ?_) (fun k c => ?_)
        · simp only [false_or]
          constructor
          · rintro ⟨h | h, e⟩
            · exact Or.inl ⟨h, e⟩
            · exact Or.inr ⟨h, e⟩
          · rintro (h | h)
            · exact ⟨Or.inl h.1, h.2⟩
            · exact ⟨Or.inr h.1, h.2⟩
        · rw [hy]; simp
      · have hh' : T.hor l = false := by simpa using hh
        simp only [hh', Bool.not_false, if_true, Bool.false_eq_true, if_false]
        refine adds_congr (adds_trans (adds_trans (adds_putY m _ _ _) (adds_putX _ _ _ _)) (adds_putX _ _ _ _))
          (fun k c => ?_) (fun k c => ?_)
        · simp only [false_or]
          constructor
          · rintro ⟨h | h, e⟩
            · exact Or.inl ⟨h, e⟩
            · exact Or.inr ⟨h, e⟩
          · rintro (h | h)
            · exact ⟨Or.inl h.1, h.2⟩
            · exact ⟨Or.inr h.1, h.2⟩
        · rw [hy]; simp
  | via l1 l2 p =>
    refine adds_congr (adds_trans (adds_line T l1 p m) (adds_line T l2 p _)) (fun k c => ?_) (fun k c => ?_)
    all_goals
      simp only [BObj.LineX, BObj.LineY]
      constructor
      · rintro ⟨h, h1 | h1⟩
        · exact Or.inl ⟨h, h1⟩
        · exact Or.inr ⟨h, h1⟩
      · rintro (h | h)
        · exact ⟨h.1, Or.inl h.2⟩
        · exact ⟨h.1, Or.inr h.2⟩
  | ap l p =>
    have h2 := (ht.low l ho).1
    simp only [coordsObj, otherLayer_pair T l h2, Option.getD_some]
    refine adds_congr (adds_trans (adds_line T l p m) (adds_line T _ p _)) (fun k c => ?_) (fun k c => ?_)
    all_goals
      simp only [BObj.LineX, BObj.LineY]
      constructor
      · rintro ⟨h, h1 | h1⟩
        · exact Or.inl ⟨h, h1⟩
        · exact Or.inr ⟨h, h1⟩
      · rintro (h | h)
        · exact ⟨h.1, Or.inl h.2⟩
        · exact ⟨h.1, Or.inr h.2⟩

theorem adds_pat (T : GTech) (w : Box) (l : Int) (tp : Bool × TrackPat) (htp : 0 < tp.2.spacing) (m : CoordMaps) :
    Adds m (patTracks T w l m tp) true
      (fun k c => k = l ∧ tp.1 = true ∧ (T.nonPref = true → T.hor l = false) ∧ IsTrackIn tp.2 w.left w.right c)
      (fun k c => k = l ∧ tp.1 = false ∧ (T.nonPref = true → T.hor l = true) ∧ IsTrackIn tp.2 w.bottom w.top c) := by
  obtain ⟨b, p⟩ := tp
  simp only [patTracks]
  have fx : ∀ L : List Int, Adds m (L.foldl (fun m c => m.putX c l true) m) true
      (fun k c => k = l ∧ c ∈ L) (fun _ _ => False) := fun L =>
    adds_congr (adds_fold (fun m c => m.putX c l true) true (fun a k c => c = a ∧ k = l) (fun _ _ _ => False) L
      (fun a _ m => adds_putX m a l true) m)
      (fun k c => ⟨fun h => ⟨c, h.2, rfl, h.1⟩, fun ⟨a, ha, h1, h2⟩ => ⟨h2, h1 ▸ ha⟩⟩)
      (fun k c => ⟨False.elim, fun ⟨_, _, h⟩ => h⟩)
  have fy : ∀ L : List Int, Adds m (L.foldl (fun m c => m.putY c l true) m) true
      (fun _ _ => False) (fun k c => k = l ∧ c ∈ L) := fun L =>
    adds_congr (adds_fold (fun m c => m.putY c l true) true (fun _ _ _ => False) (fun a k c => c = a ∧ k = l) L
      (fun a _ m => adds_putY m a l true) m)
      (fun k c => ⟨False.elim, fun ⟨_, _, h⟩ => h⟩)
      (fun k c => ⟨fun h => ⟨c, h.2, rfl, h.1⟩, fun ⟨a, ha, h1, h2⟩ => ⟨h2, h1 ▸ ha⟩⟩)
  cases b with
  | true =>
    by_cases hf : T.nonPref = true → T.hor l = false
    · have : (if T.nonPref = true then true && !T.hor l || !true && T.hor l else true) = true := by
        by_cases hn : T.nonPref = true
        · rw [if_pos hn, hf hn]; rfl
        · rw [if_neg hn]
      rw [if_pos this]
      simp only [if_true]
      refine adds_congr (fx _) (fun k c => ?_) (fun k c => by simp)
      rw [c12_tracks_exact p htp]
      exact ⟨fun h => ⟨h.1, h.2.2.2⟩, fun h => ⟨h.1, trivial, hf, h.2⟩⟩
    · have : ¬ (if T.nonPref = true then true && !T.hor l || !true && T.hor l else true) = true := by
        by_cases hn : T.nonPref = true
        · rw [if_pos hn]
          intro h
          apply hf
          intro _
          simpa using h
        · exact absurd (fun h => absurd h hn) hf
      rw [if_neg this]
      exact adds_congr (adds_refl m true) (fun k c => ⟨fun h => hf h.2.2.1, False.elim⟩) (fun k c => by simp)
  | false =>
    by_cases hf : T.nonPref = true → T.hor l = true
    · have : (if T.nonPref = true then false && !T.hor l || !false && T.hor l else true) = true := by
        by_cases hn : T.nonPref = true
        · rw [if_pos hn, hf hn]; rfl
        · rw [if_neg hn]
      rw [if_pos this]
      simp only [Bool.false_eq_true, if_false]
      refine adds_congr (fy _) (fun k c => by simp) (fun k c => ?_)
      rw [c12_tracks_exact p htp]
      exact ⟨fun h => ⟨h.1, h.2.2.2⟩, fun h => ⟨h.1, trivial, hf, h.2⟩⟩
    · have : ¬ (if T.nonPref = true then false && !T.hor l || !false && T.hor l else true) = true := by
        by_cases hn : T.nonPref = true
        · rw [if_pos hn]
          intro h
          apply hf
          intro _
          simpa using h
        · exact absurd (fun h => absurd h hn) hf
      rw [if_neg this]
      exact adds_congr (adds_refl m true) (fun k c => by simp) (fun k c => ⟨fun h => hf h.2.2.1, False.elim⟩)

theorem adds_tracks (T : GTech) (ht : T.Ok) (w : Box) (m : CoordMaps) :
    Adds m (gridTracks T w m) true (fun l c => T.TrackX w l c) (fun l c => T.TrackY w l c) := by
  unfold gridTracks
  refine adds_congr (adds_fold _ true
    (fun l k c => ∃ tp ∈ T.pats l, k = l ∧ tp.1 = true ∧ (T.nonPref = true → T.hor l = false) ∧
      IsTrackIn tp.2 w.left w.right c)
    (fun l k c => ∃ tp ∈ T.pats l, k = l ∧ tp.1 = false ∧ (T.nonPref = true → T.hor l = true) ∧
      IsTrackIn tp.2 w.bottom w.top c) T.layers
    (fun l _ m => adds_fold _ true _ _ (T.pats l) (fun tp htp m => adds_pat T w l tp (ht.gap l tp htp) m) m) m)
    (fun k c => ?_) (fun k c => ?_)
  · constructor
    · rintro ⟨hk, p, hp, hf, hi⟩
      exact ⟨k, hk, (true, p), hp, rfl, rfl, hf, hi⟩
    · rintro ⟨l, hl, ⟨b, p⟩, hp, rfl, rfl, hf, hi⟩
      exact ⟨hl, p, hp, hf, hi⟩
  · constructor
    · rintro ⟨hk, p, hp, hf, hi⟩
      exact ⟨k, hk, (false, p), hp, rfl, rfl, hf, hi⟩
    · rintro ⟨l, hl, ⟨b, p⟩, hp, rfl, rfl, hf, hi⟩
      exact ⟨hl, p, hp, hf, hi⟩

/-- a coordinate of one of the two boxes -/
def BoxX (r e : Box) (c : Int) : Prop := c = r.left ∨ c = r.right ∨ c = e.left ∨ c = e.right
def BoxY (r e : Box) (c : Int) : Prop := c = r.bottom ∨ c = r.top ∨ c = e.bottom ∨ c = e.top

theorem adds_coords (T : GTech) (ht : T.Ok) (r e : Box) (objs : List BObj) (ho : ∀ o ∈ objs, o.Ok T) :
    Adds ⟨[], []⟩ (trackCoordMaps T r e objs) false
      (fun l c => (l = -10 ∧ BoxX r e c) ∨ ∃ o ∈ objs, o.LineX T l c)
      (fun l c => (l = -10 ∧ BoxY r e c) ∨ ∃ o ∈ objs, o.LineY T l c) := by
  unfold trackCoordMaps
  refine adds_congr (adds_trans (adds_trans (adds_trans (adds_trans (adds_trans (adds_trans (adds_trans
    (adds_trans (adds_putY _ _ _ _) (adds_putY _ _ _ _)) (adds_putY _ _ _ _)) (adds_putY _ _ _ _))
    (adds_putX _ _ _ _)) (adds_putX _ _ _ _)) (adds_putX _ _ _ _)) (adds_putX _ _ _ _))
    (adds_fold (coordsObj T) false (fun o l c => o.LineX T l c) (fun o l c => o.LineY T l c) objs
      (fun o h m => adds_obj T ht o (ho o h) m) _)) (fun l c => ?_) (fun l c => ?_)
  · refine or_congr ?_ Iff.rfl
    simp only [BoxX, false_or, or_false]
    omega
  · refine or_congr ?_ Iff.rfl
    simp only [BoxY, false_or, or_false]
    omega

/-- What the finished maps answer. -/
theorem region_look (T : GTech) (ht : T.Ok) (r e : Box) (objs : List BObj) (ho : ∀ o ∈ objs, o.Ok T) :
    (regionMaps T r e objs).x.Wf ∧ (regionMaps T r e objs).y.Wf ∧
    (∀ l c, ((regionMaps T r e objs).x.look c l = some true ↔ T.TrackX e l c) ∧
      ((regionMaps T r e objs).x.look c l = some false ↔
        ¬ T.TrackX e l c ∧ ((l = -10 ∧ BoxX r e c) ∨ ∃ o ∈ objs, o.LineX T l c))) ∧
    (∀ l c, ((regionMaps T r e objs).y.look c l = some true ↔ T.TrackY e l c) ∧
      ((regionMaps T r e objs).y.look c l = some false ↔
        ¬ T.TrackY e l c ∧ ((l = -10 ∧ BoxY r e c) ∨ ∃ o ∈ objs, o.LineY T l c))) := by
  classical
  have w0 : CoordMap.Wf [] := ⟨List.Pairwise.nil, fun e he => by cases he⟩
  obtain ⟨a1, a2, a3, a4⟩ := adds_coords T ht r e objs ho w0 w0
  obtain ⟨b1, b2, b3, b4⟩ := adds_tracks T ht e (trackCoordMaps T r e objs) a1 a2
  refine ⟨b1, b2, fun l c => ?_, fun l c => ?_⟩
  · show ((gridTracks T e (trackCoordMaps T r e objs)).x.look c l = some true ↔ _) ∧
      ((gridTracks T e (trackCoordMaps T r e objs)).x.look c l = some false ↔ _)
    by_cases h1 : T.TrackX e l c
    · rw [(b3 c l).1 h1]; simp [h1]
    · rw [(b3 c l).2 h1]
      by_cases h2 : (l = -10 ∧ BoxX r e c) ∨ ∃ o ∈ objs, o.LineX T l c
      · rw [(a3 c l).1 h2]; simp only [Option.some.injEq, h1, h2]; simp
      · rw [(a3 c l).2 h2]; simp only [CoordMap.look, h1, h2]; simp
  · show ((gridTracks T e (trackCoordMaps T r e objs)).y.look c l = some true ↔ _) ∧
      ((gridTracks T e (trackCoordMaps T r e objs)).y.look c l = some false ↔ _)
    by_cases h1 : T.TrackY e l c
    · rw [(b4 c l).1 h1]; simp [h1]
    · rw [(b4 c l).2 h1]
      by_cases h2 : (l = -10 ∧ BoxY r e c) ∨ ∃ o ∈ objs, o.LineY T l c
      · rw [(a4 c l).1 h2]; simp only [Option.some.injEq, h1, h2]; simp
      · rw [(a4 c l).2 h2]; simp only [CoordMap.look, h1, h2]; simp

end TR
