import Verif.RouteNet.Props
import Verif.RouteNet.AimSpec

namespace TR

/-! ## Boxes -/

theorem intMin_spec (f : MIdx → Int) (l : List MIdx) : ∀ a : Int, (l.foldl (fun a n => min a (f n)) a) ≤ a ∧
    (∀ n ∈ l, (l.foldl (fun a n => min a (f n)) a) ≤ f n) ∧
    ((l.foldl (fun a n => min a (f n)) a) = a ∨ ∃ n ∈ l, f n = (l.foldl (fun a n => min a (f n)) a)) := by
  induction l with
  | nil => intro a; simp
  | cons m l ih =>
      intro a
      rw [List.foldl_cons]
      obtain ⟨h1, h2, h3⟩ := ih (min a (f m))
      generalize l.foldl (fun a n => min a (f n)) (min a (f m)) = r at *
      have e1 : r ≤ a ∧ r ≤ f m := by clear h3; omega
      refine ⟨e1.1, ?_, ?_⟩
      · intro n hn
        rcases List.mem_cons.1 hn with rfl | hn
        · exact e1.2
        · exact h2 n hn
      · rcases h3 with h | ⟨n, hn, h⟩
        · by_cases hc : a ≤ f m
          · left; omega
          · right; exact ⟨m, by simp, by omega⟩
        · exact Or.inr ⟨n, by simp [hn], h⟩

theorem intMax_spec (f : MIdx → Int) (l : List MIdx) : ∀ a : Int, a ≤ (l.foldl (fun a n => max a (f n)) a) ∧
    (∀ n ∈ l, f n ≤ (l.foldl (fun a n => max a (f n)) a)) ∧
    ((l.foldl (fun a n => max a (f n)) a) = a ∨ ∃ n ∈ l, f n = (l.foldl (fun a n => max a (f n)) a)) := by
  induction l with
  | nil => intro a; simp
  | cons m l ih =>
      intro a
      rw [List.foldl_cons]
      obtain ⟨h1, h2, h3⟩ := ih (max a (f m))
      generalize l.foldl (fun a n => max a (f n)) (max a (f m)) = r at *
      have e1 : a ≤ r ∧ f m ≤ r := by clear h3; omega
      refine ⟨e1.1, ?_, ?_⟩
      · intro n hn
        rcases List.mem_cons.1 hn with rfl | hn
        · exact e1.2
        · exact h2 n hn
      · rcases h3 with h | ⟨n, hn, h⟩
        · by_cases hc : f m ≤ a
          · left; omega
          · right; exact ⟨m, by simp, by omega⟩
        · exact Or.inr ⟨n, by simp [hn], h⟩

theorem foldMin_xyz (l : List MIdx) : ∀ a, l.foldl ccMin a =
    ⟨l.foldl (fun a n => min a n.x) a.x, l.foldl (fun a n => min a n.y) a.y, l.foldl (fun a n => min a n.z) a.z⟩ := by
  induction l with
  | nil => intro a; rfl
  | cons m l ih => intro a; simp only [List.foldl_cons, ih]; rfl

theorem foldMax_xyz (l : List MIdx) : ∀ a, l.foldl ccMax a =
    ⟨l.foldl (fun a n => max a n.x) a.x, l.foldl (fun a n => max a n.y) a.y, l.foldl (fun a n => max a n.z) a.z⟩ := by
  induction l with
  | nil => intro a; rfl
  | cons m l ih => intro a; simp only [List.foldl_cons, ih]; rfl

theorem foldMin_spec (l : List MIdx) (a : MIdx) : (l.foldl ccMin a).x ≤ a.x ∧ (l.foldl ccMin a).y ≤ a.y ∧ (l.foldl ccMin a).z ≤ a.z ∧
    (∀ n ∈ l, (l.foldl ccMin a).x ≤ n.x ∧ (l.foldl ccMin a).y ≤ n.y ∧ (l.foldl ccMin a).z ≤ n.z) ∧
    ((l.foldl ccMin a).x = a.x ∨ ∃ n ∈ l, n.x = (l.foldl ccMin a).x) ∧
    ((l.foldl ccMin a).y = a.y ∨ ∃ n ∈ l, n.y = (l.foldl ccMin a).y) ∧
    ((l.foldl ccMin a).z = a.z ∨ ∃ n ∈ l, n.z = (l.foldl ccMin a).z) := by
  rw [foldMin_xyz]
  obtain ⟨x1, x2, x3⟩ := intMin_spec (·.x) l a.x
  obtain ⟨y1, y2, y3⟩ := intMin_spec (·.y) l a.y
  obtain ⟨z1, z2, z3⟩ := intMin_spec (·.z) l a.z
  exact ⟨x1, y1, z1, fun n hn => ⟨x2 n hn, y2 n hn, z2 n hn⟩, x3, y3, z3⟩

theorem foldMax_spec (l : List MIdx) (a : MIdx) : a.x ≤ (l.foldl ccMax a).x ∧ a.y ≤ (l.foldl ccMax a).y ∧ a.z ≤ (l.foldl ccMax a).z ∧
    (∀ n ∈ l, n.x ≤ (l.foldl ccMax a).x ∧ n.y ≤ (l.foldl ccMax a).y ∧ n.z ≤ (l.foldl ccMax a).z) ∧
    ((l.foldl ccMax a).x = a.x ∨ ∃ n ∈ l, n.x = (l.foldl ccMax a).x) ∧
    ((l.foldl ccMax a).y = a.y ∨ ∃ n ∈ l, n.y = (l.foldl ccMax a).y) ∧
    ((l.foldl ccMax a).z = a.z ∨ ∃ n ∈ l, n.z = (l.foldl ccMax a).z) := by
  rw [foldMax_xyz]
  obtain ⟨x1, x2, x3⟩ := intMax_spec (·.x) l a.x
  obtain ⟨y1, y2, y3⟩ := intMax_spec (·.y) l a.y
  obtain ⟨z1, z2, z3⟩ := intMax_spec (·.z) l a.z
  exact ⟨x1, y1, z1, fun n hn => ⟨x2 n hn, y2 n hn, z2 n hn⟩, x3, y3, z3⟩

/-- the box of the first pin: it starts inside out -/
theorem box_first (g : Grid) (l : List MIdx) (hne : l ≠ []) (hon : ∀ n ∈ l, g.On n) :
    BoxOf (l.foldl ccMin ⟨g.xs.length - 1, g.ys.length - 1, g.zs.length - 1⟩) (l.foldl ccMax ⟨0, 0, 0⟩) l := by
  obtain ⟨a1, a2, a3, a4, a5, a6, a7⟩ := foldMin_spec l ⟨g.xs.length - 1, g.ys.length - 1, g.zs.length - 1⟩
  obtain ⟨b1, b2, b3, b4, b5, b6, b7⟩ := foldMax_spec l ⟨0, 0, 0⟩
  obtain ⟨m, hm⟩ := List.exists_mem_of_ne_nil _ hne
  have ho := hon m hm
  unfold Grid.On at ho
  have a4m := a4 m hm
  have b4m := b4 m hm
  dsimp only at a5 a6 a7 b5 b6 b7
  generalize l.foldl ccMin ⟨g.xs.length - 1, g.ys.length - 1, g.zs.length - 1⟩ = lo at *
  generalize l.foldl ccMax ⟨0, 0, 0⟩ = hi at *
  have pick : ∀ (f : MIdx → Int) (v w : Int), (v = w → f m = v) → (v = w ∨ ∃ n ∈ l, f n = v) → ∃ n ∈ l, f n = v := by
    rintro f v w h (e' | h')
    · exact ⟨m, hm, h e'⟩
    · exact h'
  clear a1 a2 a3 b1 b2 b3
  refine ⟨fun n hn => ⟨(a4 n hn).1, (b4 n hn).1, (a4 n hn).2.1, (b4 n hn).2.1, (a4 n hn).2.2, (b4 n hn).2.2⟩,
    pick (·.x) _ _ ?_ a5, pick (·.x) _ _ ?_ b5, pick (·.y) _ _ ?_ a6, pick (·.y) _ _ ?_ b6, pick (·.z) _ _ ?_ a7, pick (·.z) _ _ ?_ b7⟩
  all_goals
    clear a5 a6 a7 b5 b6 b7 a4 b4 pick
    intro e
    omega

/-- more nodes `p` in the box of `l`; other nodes only if they lie between them -/
theorem box_more (lo hi : MIdx) (l p l' : List MIdx) (h : BoxOf lo hi l)
    (h1 : ∀ n ∈ l, n ∈ l') (h2 : ∀ n ∈ p, n ∈ l')
    (h3 : ∀ n ∈ l', n ∈ l ∨ ∃ u ∈ p, ∃ v ∈ p, min u.x v.x ≤ n.x ∧ n.x ≤ max u.x v.x ∧ min u.y v.y ≤ n.y ∧ n.y ≤ max u.y v.y ∧
      min u.z v.z ≤ n.z ∧ n.z ≤ max u.z v.z) :
    BoxOf (p.foldl ccMin lo) (p.foldl ccMax hi) l' := by
  obtain ⟨a1, a2, a3, a4, a5, a6, a7⟩ := foldMin_spec p lo
  obtain ⟨b1, b2, b3, b4, b5, b6, b7⟩ := foldMax_spec p hi
  generalize p.foldl ccMin lo = lo' at *
  generalize p.foldl ccMax hi = hi' at *
  have pick : ∀ (f : MIdx → Int) (v w : Int), (∃ n ∈ l, f n = w) → (v = w ∨ ∃ n ∈ p, f n = v) → ∃ n ∈ l', f n = v := by
    rintro f v w ⟨n, hn, e⟩ (e' | ⟨m, hm, e'⟩)
    · exact ⟨n, h1 n hn, by omega⟩
    · exact ⟨m, h2 m hm, e'⟩
  refine ⟨fun n hn => ?_, pick (·.x) _ _ h.x1 a5, pick (·.x) _ _ h.x2 b5, pick (·.y) _ _ h.y1 a6, pick (·.y) _ _ h.y2 b6,
    pick (·.z) _ _ h.z1 a7, pick (·.z) _ _ h.z2 b7⟩
  rcases h3 n hn with hn | ⟨u, hu, v, hv, hb⟩
  · have := h.inside n hn
    clear a5 a6 a7 b5 b6 b7 pick
    omega
  · clear a5 a6 a7 b5 b6 b7 pick
    have := a4 u hu; have := a4 v hv; have := b4 u hu; have := b4 v hv
    omega

/-- cells of a polyline lie between corners -/
theorem cells_between : ∀ (path : List MIdx), Consecutive Straight path → ∀ n ∈ cells path,
    ∃ u ∈ path, ∃ v ∈ path, min u.x v.x ≤ n.x ∧ n.x ≤ max u.x v.x ∧ min u.y v.y ≤ n.y ∧ n.y ≤ max u.y v.y ∧
      min u.z v.z ≤ n.z ∧ n.z ≤ max u.z v.z
  | [], _, n, h => by simp [cells, openCells] at h
  | [a], _, n, h => by
    simp [cells, openCells] at h
    subst h
    exact ⟨n, by simp, n, by simp, by omega⟩
  | a :: b :: t, hs, n, h => by
    rw [cells_cons_cons, List.mem_append] at h
    rcases h with h | h
    · have := (mem_cellsTo a b n hs.1).1 (Or.inl h)
      refine ⟨a, by simp, b, by simp, ?_⟩
      unfold Between at this
      omega
    · obtain ⟨u, hu, v, hv, hb⟩ := cells_between (b :: t) hs.2 n h
      exact ⟨u, by simp [hu], v, by simp [hv], hb⟩

theorem corners_cells : ∀ (path : List MIdx), Consecutive Straight path → ∀ n ∈ path, n ∈ cells path
  | [], _, n, h => by simp at h
  | [a], _, n, h => by simpa [cells, openCells] using h
  | a :: b :: t, hs, n, h => by
    rcases List.mem_cons.1 h with rfl | h
    · obtain ⟨l, hl⟩ := cells_head n (b :: t) hs
      rw [hl]; simp
    · rw [cells_cons_cons, List.mem_append]
      exact Or.inr (corners_cells (b :: t) hs.2 n h)

/-! ## The loop -/

/-- the points already connected after one more search -/
theorem round_comps {pins g0 s} (real : List MIdx) (pick : Nat → Nat) (fuel : Nat) (r : SearchResult)
    (hr : NetReady g0 pins) (h : RInv pins g0 s)
    (hs : s.grid.resetAllPrev.search pick fuel s.comps = some r) (hf : r.found = true) :
    Consecutive Straight r.path ∧ (r.path.length = 1 → ∀ n ∈ r.path, n ∈ s.comps) ∧
    ∀ n, n ∈ (afterPath real s r).comps ↔ (s.first = false ∧ n ∈ s.comps) ∨ n ∈ cells r.path := by
  have hready := ready_of_inv h hr.edges
  obtain ⟨gp, -, hcomps, hgrid⟩ := search_found hready hs hf
  obtain ⟨b, hb, hbc⟩ := gp.last
  obtain ⟨mi, hmi, hmid⟩ := gp.head
  have hstr := gp.straight
  have hsplit := mem_cells_split r.path b hb
  obtain ⟨t, hpath⟩ : ∃ t, r.path = mi :: t := by
    cases hp : r.path with
    | nil => rw [hp] at hmi; simp at hmi
    | cons x t => rw [hp] at hmi; simp at hmi; exact ⟨t, by rw [hmi]⟩
  have hcomps1 : ∀ n, n ∈ r.comps ↔ n ∈ s.comps ∨ n ∈ (cells r.path).dropLast := by
    intro n; rw [hcomps, List.mem_append]
  have hdl : ∀ n, n ∈ (cells r.path).dropLast → n ∈ cells r.path := fun n hn => (hsplit n).2 (Or.inl hn)
  have hlen1 : r.path.length = 1 → r.path = [mi] := by
    intro hl; rw [hpath] at hl ⊢
    cases t with
    | nil => rfl
    | cons y t => simp at hl
  have hlen2 : r.path.length ≠ 1 → 2 ≤ r.path.length := by
    intro hl; rw [hpath] at hl ⊢
    cases t with
    | nil => simp at hl
    | cons y t => simp
  have hone : r.path.length = 1 → ∀ n ∈ r.path, n ∈ s.comps := by
    intro hl n hn
    have e := hlen1 hl
    rw [e] at hb hn
    simp at hb hn
    subst hb; subst hn; exact hbc
  refine ⟨hstr, hone, ?_⟩
  have hst : (afterPath real s r).comps =
      (if s.first then (if r.path.length = 1 then [mi] else []) else r.comps) ++
        (if s.first then pathNodes r.path else (pathNodes r.path).filter (fun n => decide (n ≠ mi))) := by
    simp only [afterPath]
    rw [hpath, postUpdate_cons]
    cases s.first
    · simp
    · by_cases hl : (mi :: t).length = 1 <;> simp only [hl, if_true, if_false]
  intro n
  rw [hst]
  cases hfst : s.first with
  | true =>
    simp only [if_true, Bool.true_eq_false, false_and, false_or]
    by_cases hl : r.path.length = 1
    · rw [if_pos hl, hlen1 hl]; simp [pathNodes, cells, openCells]
    · rw [if_neg hl]
      simp only [List.nil_append]
      exact mem_pathNodes r.path hstr (hlen2 hl) n
  | false =>
    simp only [Bool.false_eq_true, if_false, true_and, List.mem_append, List.mem_filter, decide_eq_true_eq, hcomps1]
    by_cases hl : r.path.length = 1
    · have e := hlen1 hl
      rw [e] at hb hsplit
      simp at hb
      rw [e]
      simp only [pathNodes, cells, openCells, List.getLast?_singleton, Option.toList, List.nil_append, List.dropLast_singleton,
        List.not_mem_nil, or_false, false_and, List.mem_singleton]
      constructor
      · exact Or.inl
      · rintro (h | h)
        · exact h
        · rw [h, hb]; exact hbc
    · rw [mem_pathNodes r.path hstr (hlen2 hl) n]
      constructor
      · rintro ((h | h) | h)
        · exact Or.inl h
        · exact Or.inr (hdl n h)
        · exact Or.inr h.1
      · rintro (h | h)
        · exact Or.inl (Or.inl h)
        · rcases (hsplit n).1 h with h' | h'
          · exact Or.inl (Or.inr h')
          · rw [h']; exact Or.inl (Or.inl hbc)

theorem after_cc (real : List MIdx) (s : RState) (r : SearchResult) (hne : r.path ≠ []) :
    ((afterPath real s r).cc1, (afterPath real s r).cc2) =
      if r.path.length = 1 then (s.cc1, s.cc2) else (r.path.foldl ccMin s.cc1, r.path.foldl ccMax s.cc2) := by
  cases hp : r.path with
  | nil => exact absurd hp hne
  | cons mi t =>
      simp only [afterPath, hp, postUpdate_cons]

theorem routeAt_step {zH pick fuel pins g it s r} (h : RouteAt zH pick fuel pins g it s) (h1 : s.unconn ≠ [])
    (h2 : s.grid.resetAllPrev.search (pick it) fuel s.comps = some r) (h3 : r.found = true) :
    RouteAt zH pick fuel pins g (it + 1) (afterPath ((pins.filter (·.hasTerm)).flatMap fun p => p.aps.map (·.mi)) s r) := by
  have := RouteAt.step it s r h h1 h2 h3
  unfold afterPath
  split
  rename_i c1 c2 e
  rw [e] at this
  exact this

theorem setSrc_parts (zH : ZHeights) (pins : List RPin) (m : PinMap) (g : Grid) (s : RState)
    (h : routeSetSrc zH pins m g = some s) :
    ∃ p, farmost zH ((centerSums zH pins).1.tdiv (centerSums zH pins).2.2.2, (centerSums zH pins).2.1.tdiv (centerSums zH pins).2.2.2,
        (centerSums zH pins).2.2.1.tdiv (centerSums zH pins).2.2.2) pins = some p ∧
      s.unconn = pins.filter (fun x => decide (x ≠ p)) ∧ s.first = true ∧
      s.cc1 = (p.aps.map (·.mi)).foldl ccMin ⟨g.xs.length - 1, g.ys.length - 1, g.zs.length - 1⟩ ∧
      s.cc2 = (p.aps.map (·.mi)).foldl ccMax ⟨0, 0, 0⟩ ∧ s.m2p = (p.aps.foldl (srcAP p) (m, g, [])).1 ∧
      s.comps = p.aps.map (·.mi) := by
  simp only [routeSetSrc] at h
  split at h
  · cases h
  · split at h
    · cases h
    · rename_i p hp
      have hcomps : ∀ (aps : List AP) (x : PinMap × Grid × List MIdx), (aps.foldl (srcAP p) x).2.2 = x.2.2 ++ aps.map (·.mi) := by
        intro aps
        induction aps with
        | nil => intro x; simp
        | cons a aps ih =>
            intro x
            rw [List.foldl_cons, ih]
            have : (srcAP p x a).2.2 = x.2.2 ++ [a.mi] := by
              simp only [srcAP]; repeat' split
              all_goals rfl
            rw [this]; simp
      simp only [Option.some.injEq] at h
      subst h
      exact ⟨p, hp, rfl, rfl, rfl, rfl, rfl, by rw [hcomps]; simp⟩

/-! ## The map from nodes to pins has every node once -/

def KeysOnce (m : PinMap) : Prop := m.Pairwise (fun e f => e.1 ≠ f.1)

theorem keysOnce_erase {m : PinMap} (k : MIdx) (h : KeysOnce m) : KeysOnce (m.erase k) := List.Pairwise.filter _ h

theorem keysOnce_put {m : PinMap} (k : MIdx) (v : List RPin) (h : KeysOnce m) : KeysOnce (m.put k v) := by
  refine List.pairwise_cons.2 ⟨?_, keysOnce_erase k h⟩
  intro e he
  simp only [PinMap.erase, List.mem_filter] at he
  intro hk
  dsimp only at hk
  rw [← hk] at he
  simp at he

theorem keysOnce_get : ∀ {m : PinMap}, KeysOnce m → ∀ e ∈ m, m.get e.1 = e.2
  | [], _, e, he => by cases he
  | f :: m, h, e, he => by
    rcases List.mem_cons.1 he with rfl | he'
    · simp [PinMap.get, PinMap.find]
    · have hne : f.1 ≠ e.1 := (List.pairwise_cons.1 h).1 e he'
      have := keysOnce_get (List.pairwise_cons.1 h).2 e he'
      simp only [PinMap.get, PinMap.find] at this ⊢
      rw [List.find?_cons_of_neg (by simpa using hne)]
      exact this

theorem keysOnce_fold {α β : Type} (f : PinMap × β → α → PinMap × β) (hf : ∀ s a, KeysOnce s.1 → KeysOnce (f s a).1) :
    ∀ (l : List α) (s : PinMap × β), KeysOnce s.1 → KeysOnce (l.foldl f s).1
  | [], _, h => h
  | a :: l, s, h => keysOnce_fold f hf l (f s a) (hf s a h)

theorem keysOnce_prep (pins : List RPin) (g : Grid) : KeysOnce (routePrep pins g).1 := by
  refine keysOnce_fold _ (fun s p hs => keysOnce_fold _ (fun s ap hs => ?_) p.aps s hs) pins _ List.Pairwise.nil
  exact keysOnce_put _ _ hs

theorem keysOnce_src (p : RPin) (aps : List AP) (s : PinMap × Grid × List MIdx) (h : KeysOnce s.1) :
    KeysOnce (aps.foldl (srcAP p) s).1 := by
  refine keysOnce_fold _ (fun s ap hs => ?_) aps s h
  simp only [srcAP]
  repeat' split
  all_goals first | exact hs | exact keysOnce_erase _ hs | exact keysOnce_put _ _ hs

theorem keysOnce_drop (ps : List RPin) (s : PinMap × Grid) (h : KeysOnce s.1) :
    KeysOnce (ps.foldl (fun r p => p.aps.foldl (dropAP p) r) s).1 := by
  refine keysOnce_fold _ (fun s p hs => keysOnce_fold _ (fun s ap hs => ?_) p.aps s hs) ps s h
  simp only [dropAP]
  repeat' split
  all_goals first | exact hs | exact keysOnce_erase _ hs | exact keysOnce_put _ _ hs

theorem keysOnce_after (real : List MIdx) (s : RState) (r : SearchResult) (h : KeysOnce s.m2p) :
    KeysOnce (afterPath real s r).m2p := by
  cases hp : r.path with
  | nil => simp only [afterPath, hp, postUpdate]; exact h
  | cons mi t =>
      simp only [afterPath, hp, postUpdate_cons]
      exact keysOnce_drop _ _ h

/-! ## The invariant -/

theorem farmost_mem (zH : ZHeights) (c : Int × Int × Int) (pins : List RPin) (p : RPin) (h : farmost zH c pins = some p) : p ∈ pins :=
  (farmost_fold zH c pins pins (0, none) (fun _ h => h) (fun _ => rfl) (by simp)).1 p h

theorem aim_inv {zH pick fuel pins g it s} (hr : NetReady g pins) (h : RouteAt zH pick fuel pins g it s) :
    RInv pins g s ∧ KeysOnce s.m2p ∧ ∃ p0 ∈ pins, p0 ∉ s.unconn ∧ (s.first = true → s.comps = p0.aps.map (·.mi)) ∧
      BoxOf s.cc1 s.cc2 (p0.aps.map (·.mi) ++ s.comps) := by
  induction h with
  | start s hs =>
      obtain ⟨p, hp, hu, -, h1, h2, hm, hc⟩ := setSrc_parts _ _ _ _ _ hs
      have hpm := farmost_mem _ _ _ _ hp
      obtain ⟨s', e1, e2, -⟩ := start_inv zH pins g hr (by rintro rfl; cases hpm)
      rw [hs] at e1
      cases e1
      refine ⟨e2, by rw [hm]; exact keysOnce_src _ _ _ (keysOnce_prep pins g), p, hpm, by rw [hu]; simp, fun _ => hc, ?_⟩
      have hb := e2.map.base
      have hne : p.aps.map (·.mi) ≠ [] := by simpa using hr.ap p hpm
      have hpre := (prep_all pins (([] : PinMap), g) hr.on
        ⟨Base.refl _, by simp, fun n hn => by rw [hr.nodst n hn]; simp [PinMap.get, PinMap.find]⟩).1.base
      have hbox := box_first (routePrep pins g).2 (p.aps.map (·.mi)) hne (by
        intro n hn
        obtain ⟨a, ha, rfl⟩ := List.mem_map.1 hn
        exact (hpre.on _).2 (hr.on p hpm a ha))
      rw [← h1, ← h2] at hbox
      rw [hc]
      have : BoxOf (([] : List MIdx).foldl ccMin s.cc1) (([] : List MIdx).foldl ccMax s.cc2) (p.aps.map (·.mi) ++ p.aps.map (·.mi)) :=
        box_more s.cc1 s.cc2 _ [] _ hbox (by intro n hn; simp at hn ⊢; exact hn) (by simp) (by intro n hn; left; simpa using hn)
      exact this
  | step it s r hat hu hs hf ih =>
      obtain ⟨hi, hk, p0, hp0, hp0u, hfirst, hbox⟩ := ih
      have e := routeAt_step hat hu hs hf
      suffices hh : RInv pins g (afterPath ((pins.filter (·.hasTerm)).flatMap fun p => p.aps.map (·.mi)) s r) ∧
          KeysOnce (afterPath ((pins.filter (·.hasTerm)).flatMap fun p => p.aps.map (·.mi)) s r).m2p ∧
          ∃ p0 ∈ pins, p0 ∉ (afterPath ((pins.filter (·.hasTerm)).flatMap fun p => p.aps.map (·.mi)) s r).unconn ∧
          ((afterPath ((pins.filter (·.hasTerm)).flatMap fun p => p.aps.map (·.mi)) s r).first = true →
            (afterPath ((pins.filter (·.hasTerm)).flatMap fun p => p.aps.map (·.mi)) s r).comps = p0.aps.map (·.mi)) ∧
          BoxOf (afterPath ((pins.filter (·.hasTerm)).flatMap fun p => p.aps.map (·.mi)) s r).cc1
            (afterPath ((pins.filter (·.hasTerm)).flatMap fun p => p.aps.map (·.mi)) s r).cc2
            (p0.aps.map (·.mi) ++ (afterPath ((pins.filter (·.hasTerm)).flatMap fun p => p.aps.map (·.mi)) s r).comps) by
        have e2 : afterPath ((pins.filter (·.hasTerm)).flatMap fun p => p.aps.map (·.mi)) s r = _ := rfl
        unfold afterPath at hh
        split at hh
        rename_i c1 c2 e
        rw [e]
        exact hh
      generalize (pins.filter (·.hasTerm)).flatMap (fun p => p.aps.map (·.mi)) = real
      obtain ⟨i1, -⟩ := round_inv real (pick it) fuel r hr hi hs hf
      obtain ⟨hstr, hone, hcm⟩ := round_comps real (pick it) fuel r hr hi hs hf
      obtain ⟨gp, -⟩ := search_found (ready_of_inv hi hr.edges) hs hf
      have hne : r.path ≠ [] := by
        obtain ⟨b, hb, -⟩ := gp.last
        intro e; rw [e] at hb; simp at hb
      have hsub : ∀ q, q ∈ (afterPath real s r).unconn → q ∈ s.unconn := by
        intro q hq
        cases hp : r.path with
        | nil => exact absurd hp hne
        | cons mi t =>
            simp only [afterPath, hp, postUpdate_cons] at hq
            exact (List.mem_filter.1 hq).1
      refine ⟨i1, keysOnce_after real s r hk, p0, hp0, fun hq => hp0u (hsub _ hq), ?_, ?_⟩
      · intro hh
        cases hp : r.path with
        | nil => exact absurd hp hne
        | cons mi t =>
            simp only [afterPath, hp, postUpdate_cons] at hh
            cases hh
      · have hcc := after_cc real s r hne
        have g1 : ∀ n ∈ p0.aps.map (·.mi) ++ s.comps, n ∈ p0.aps.map (·.mi) ++ (afterPath real s r).comps := by
          intro n hn
          rcases List.mem_append.1 hn with hn | hn
          · exact List.mem_append.2 (Or.inl hn)
          · cases hfs : s.first with
            | true => rw [hfirst hfs] at hn; exact List.mem_append.2 (Or.inl hn)
            | false => exact List.mem_append.2 (Or.inr ((hcm n).2 (Or.inl ⟨hfs, hn⟩)))
        by_cases hl : r.path.length = 1
        · rw [if_pos hl] at hcc
          have c1 := congrArg Prod.fst hcc
          have c2 := congrArg Prod.snd hcc
          dsimp only at c1 c2
          rw [c1, c2]
          refine box_more s.cc1 s.cc2 _ [] _ hbox g1 (by simp) ?_
          intro n hn
          left
          rcases List.mem_append.1 hn with hn | hn
          · exact List.mem_append.2 (Or.inl hn)
          · rcases (hcm n).1 hn with h | h
            · exact List.mem_append.2 (Or.inr h.2)
            · refine List.mem_append.2 (Or.inr (hone hl n ?_))
              match hp : r.path, hl with
              | [a], _ => rw [hp] at h; simpa [cells, openCells] using h
        · rw [if_neg hl] at hcc
          have c1 := congrArg Prod.fst hcc
          have c2 := congrArg Prod.snd hcc
          dsimp only at c1 c2
          rw [c1, c2]
          refine box_more s.cc1 s.cc2 _ r.path _ hbox g1
            (fun n hn => List.mem_append.2 (Or.inr ((hcm n).2 (Or.inr (corners_cells _ hstr n hn))))) ?_
          intro n hn
          rcases List.mem_append.1 hn with hn | hn
          · exact Or.inl (List.mem_append.2 (Or.inl hn))
          · rcases (hcm n).1 hn with h | h
            · exact Or.inl (List.mem_append.2 (Or.inr h.2))
            · exact Or.inr (cells_between _ hstr n h)

/-! ## The nearest and the farthest -/

theorem nearest_fold (d : MIdx × List RPin → Int) : ∀ (m : PinMap) (s : Int × Option RPin),
    (∀ e ∈ m, e.2 ≠ []) →
    let r := m.foldl (fun s e => if d e < s.1 then (d e, e.2.head?) else s) s
    r.1 ≤ s.1 ∧ (∀ e ∈ m, r.1 ≤ d e) ∧ (r = s ∨ ∃ e ∈ m, r = (d e, e.2.head?))
  | [], s, _ => by simp
  | e :: m, s, hne => by
    simp only [List.foldl_cons]
    by_cases hc : d e < s.1
    · rw [if_pos hc]
      obtain ⟨h1, h2, h3⟩ := nearest_fold d m (d e, e.2.head?) (fun x hx => hne x (by simp [hx]))
      dsimp only at h1 h2 h3
      generalize m.foldl (fun s e => if d e < s.1 then (d e, e.2.head?) else s) (d e, e.2.head?) = r at *
      refine ⟨by clear h3; omega, ?_, ?_⟩
      · intro x hx
        rcases List.mem_cons.1 hx with rfl | hx
        · exact h1
        · exact h2 x hx
      · rcases h3 with h3 | ⟨x, hx, h3⟩
        · exact Or.inr ⟨e, by simp, h3⟩
        · exact Or.inr ⟨x, by simp [hx], h3⟩
    · rw [if_neg hc]
      obtain ⟨h1, h2, h3⟩ := nearest_fold d m s (fun x hx => hne x (by simp [hx]))
      try dsimp only at h1 h2 h3
      generalize m.foldl (fun s e => if d e < s.1 then (d e, e.2.head?) else s) s = r at *
      refine ⟨h1, ?_, ?_⟩
      · intro x hx
        rcases List.mem_cons.1 hx with rfl | hx
        · clear h3; omega
        · exact h2 x hx
      · rcases h3 with h3 | ⟨x, hx, h3⟩
        · exact Or.inl h3
        · exact Or.inr ⟨x, by simp [hx], h3⟩

theorem gap_max (lo hi v : Int) (h : lo ≤ hi) : max (max (lo - v) (v - hi)) 0 = gapTo lo hi v := by
  unfold gapTo
  split
  · omega
  · split <;> omega

theorem nextDst_least (g : Grid) (zH : ZHeights) (lo hi : MIdx) (m : PinMap) (p : RPin) (hne : ∀ e ∈ m, e.2 ≠ [])
    (hx : (g.loc lo).x ≤ (g.loc hi).x) (hy : (g.loc lo).y ≤ (g.loc hi).y) (hz : zH lo.z ≤ zH hi.z)
    (h : nextDst g zH lo hi m = some p) :
    ∃ e ∈ m, e.2.head? = some p ∧ ∀ f ∈ m, toBox g zH lo hi e.1 ≤ toBox g zH lo hi f.1 := by
  unfold nextDst at h
  have hd : ∀ e : MIdx × List RPin, max (max ((g.loc lo).x - (g.loc e.1).x) ((g.loc e.1).x - (g.loc hi).x)) 0 +
      max (max ((g.loc lo).y - (g.loc e.1).y) ((g.loc e.1).y - (g.loc hi).y)) 0 +
      max (max (zH lo.z - zH e.1.z) (zH e.1.z - zH hi.z)) 0 = toBox g zH lo hi e.1 := by
    intro e
    rw [gap_max _ _ _ hx, gap_max _ _ _ hy, gap_max _ _ _ hz]; rfl
  simp only [hd] at h
  obtain ⟨h1, h2, h3⟩ := nearest_fold (fun e => toBox g zH lo hi e.1) m (2147483647, none) hne
  dsimp only at h1 h2 h3
  generalize m.foldl (fun s e => if toBox g zH lo hi e.1 < s.1 then (toBox g zH lo hi e.1, e.2.head?) else s) (2147483647, none) = r at *
  rcases h3 with h3 | ⟨e, he, h3⟩
  · rw [h3] at h; cases h
  · rw [h3] at h h2
    exact ⟨e, he, h, h2⟩

theorem farthest_inner (f : AP → Int) (p : RPin) : ∀ (aps : List AP) (s : Int × Option RPin),
    let r := aps.foldl (fun s ap => if f ap ≥ s.1 then (f ap, some p) else s) s
    s.1 ≤ r.1 ∧ (∀ a ∈ aps, f a ≤ r.1) ∧ (r = s ∨ ∃ a ∈ aps, r = (f a, some p))
  | [], s => by simp
  | a :: aps, s => by
    simp only [List.foldl_cons]
    by_cases hc : f a ≥ s.1
    · rw [if_pos hc]
      obtain ⟨h1, h2, h3⟩ := farthest_inner f p aps (f a, some p)
      dsimp only at h1 h2 h3
      generalize aps.foldl (fun s ap => if f ap ≥ s.1 then (f ap, some p) else s) (f a, some p) = r at *
      refine ⟨by clear h3; omega, ?_, ?_⟩
      · intro x hx
        rcases List.mem_cons.1 hx with rfl | hx
        · exact h1
        · exact h2 x hx
      · rcases h3 with h3 | ⟨x, hx, h3⟩
        · exact Or.inr ⟨a, by simp, h3⟩
        · exact Or.inr ⟨x, by simp [hx], h3⟩
    · rw [if_neg hc]
      obtain ⟨h1, h2, h3⟩ := farthest_inner f p aps s
      try dsimp only at h1 h2 h3
      generalize aps.foldl (fun s ap => if f ap ≥ s.1 then (f ap, some p) else s) s = r at *
      refine ⟨h1, ?_, ?_⟩
      · intro x hx
        rcases List.mem_cons.1 hx with rfl | hx
        · clear h3; omega
        · exact h2 x hx
      · rcases h3 with h3 | ⟨x, hx, h3⟩
        · exact Or.inl h3
        · exact Or.inr ⟨x, by simp [hx], h3⟩

theorem farthest_outer (f : AP → Int) : ∀ (pins : List RPin) (s : Int × Option RPin),
    let r := pins.foldl (fun s p => p.aps.foldl (fun s ap => if f ap ≥ s.1 then (f ap, some p) else s) s) s
    s.1 ≤ r.1 ∧ (∀ p ∈ pins, ∀ a ∈ p.aps, f a ≤ r.1) ∧ (r = s ∨ ∃ p ∈ pins, ∃ a ∈ p.aps, r = (f a, some p))
  | [], s => by simp
  | p :: pins, s => by
    simp only [List.foldl_cons]
    obtain ⟨g1, g2, g3⟩ := farthest_inner f p p.aps s
    try dsimp only at g1 g2 g3
    generalize p.aps.foldl (fun s ap => if f ap ≥ s.1 then (f ap, some p) else s) s = t at *
    obtain ⟨h1, h2, h3⟩ := farthest_outer f pins t
    try dsimp only at h1 h2 h3
    generalize pins.foldl (fun s p => p.aps.foldl (fun s ap => if f ap ≥ s.1 then (f ap, some p) else s) s) t = r at *
    refine ⟨by clear h3 g3; omega, ?_, ?_⟩
    · intro q hq a ha
      rcases List.mem_cons.1 hq with rfl | hq
      · have := g2 a ha; clear h3 g3; omega
      · exact h2 q hq a ha
    · rcases h3 with h3 | ⟨q, hq, a, ha, h3⟩
      · rcases g3 with g3 | ⟨a, ha, g3⟩
        · exact Or.inl (h3.trans g3)
        · exact Or.inr ⟨p, by simp, a, ha, h3.trans g3⟩
      · exact Or.inr ⟨q, by simp [hq], a, ha, h3⟩

theorem apDist_from (zH : ZHeights) (c : Int × Int × Int) (a : AP) : apDist zH c a = apFrom zH c a := by
  unfold apDist apFrom
  repeat' split
  all_goals omega

theorem centerSums_spec (zH : ZHeights) (pins : List RPin) :
    centerSums zH pins = (((pins.filterMap (·.aps.head?)).map (·.pt.x)).sum, ((pins.filterMap (·.aps.head?)).map (·.pt.y)).sum,
      ((pins.filterMap (·.aps.head?)).map (fun a => zH a.mi.z)).sum, ((pins.filterMap (·.aps.head?)).length : Int)) := by
  have key : ∀ (pins : List RPin) (s : Int × Int × Int × Int), pins.foldl (centerStep zH) s =
      (s.1 + ((pins.filterMap (·.aps.head?)).map (·.pt.x)).sum, s.2.1 + ((pins.filterMap (·.aps.head?)).map (·.pt.y)).sum,
      s.2.2.1 + ((pins.filterMap (·.aps.head?)).map (fun a => zH a.mi.z)).sum, s.2.2.2 + ((pins.filterMap (·.aps.head?)).length : Int)) := by
    intro pins
    induction pins with
    | nil => intro s; simp
    | cons p pins ih =>
        intro s
        rw [List.foldl_cons, ih]
        cases hp : p.aps with
        | nil => simp [centerStep, hp]
        | cons a as =>
            simp only [centerStep, hp, List.filterMap_cons, List.head?_cons, List.map_cons, List.sum_cons, List.length_cons]
            refine Prod.ext ?_ (Prod.ext ?_ (Prod.ext ?_ ?_)) <;> dsimp only <;> omega
  have := key pins (0, 0, 0, 0)
  simp only [Int.zero_add] at this
  exact this

theorem loc_mono (g : Grid) (hx : g.xs.Pairwise (· < ·)) (hy : g.ys.Pairwise (· < ·)) (a b : MIdx) (ha : g.On a) (hb : g.On b)
    (h1 : a.x ≤ b.x) (h2 : a.y ≤ b.y) : (g.loc a).x ≤ (g.loc b).x ∧ (g.loc a).y ≤ (g.loc b).y := by
  have mono : ∀ (l : List Int), l.Pairwise (· < ·) → ∀ (i j : Nat) (hj : j < l.length) (hij : i ≤ j),
      l[i]'(by omega) ≤ l[j] := by
    intro l hl i j hj hij
    rcases Nat.lt_or_eq_of_le hij with h | rfl
    · exact Int.le_of_lt (List.pairwise_iff_getElem.1 hl i j (by omega) hj h)
    · exact Int.le_refl _
  obtain ⟨a1, a2, a3, a4, -, -⟩ := ha
  obtain ⟨b1, b2, b3, b4, -, -⟩ := hb
  have e : ∀ n : MIdx, ∀ (h1 : n.x.toNat < g.xs.length) (h2 : n.y.toNat < g.ys.length),
      g.loc n = ⟨g.xs[n.x.toNat], g.ys[n.y.toNat]⟩ := by
    intro n h1 h2
    simp [Grid.loc, Grid.point, h1, h2]
  rw [e a (by omega) (by omega), e b (by omega) (by omega)]
  exact ⟨mono _ hx _ _ (by omega) (by omega), mono _ hy _ _ (by omega) (by omega)⟩

theorem box_on (g : Grid) (lo hi : MIdx) (l : List MIdx) (h : BoxOf lo hi l) (hon : ∀ n ∈ l, g.On n) : g.On lo ∧ g.On hi := by
  have get : ∀ (f : MIdx → Int) (v : Int), (∃ n ∈ l, f n = v) → ∃ n, g.On n ∧ f n = v := by
    rintro f v ⟨n, hn, e⟩; exact ⟨n, hon n hn, e⟩
  obtain ⟨n1, o1, e1⟩ := get _ _ h.x1
  obtain ⟨n2, o2, e2⟩ := get _ _ h.x2
  obtain ⟨n3, o3, e3⟩ := get _ _ h.y1
  obtain ⟨n4, o4, e4⟩ := get _ _ h.y2
  obtain ⟨n5, o5, e5⟩ := get _ _ h.z1
  obtain ⟨n6, o6, e6⟩ := get _ _ h.z2
  unfold Grid.On at *
  clear h get hon
  constructor <;> omega

/-! ## The theorems -/

/-- C190: a net is begun at a pin one of whose access patterns is farthest from the mean place of the pins; all
access patterns of this pin, and nothing else, are sources of the first search, and the other pins are to be reached. -/
theorem c190_start (zH : ZHeights) (pins : List RPin) (m : PinMap) (g : Grid) (s : RState)
    (h : routeSetSrc zH pins m g = some s) :
    ∃ p ∈ pins, (∃ a ∈ p.aps, ∀ q ∈ pins, ∀ b ∈ q.aps, apFrom zH (pinCentre zH pins) b ≤ apFrom zH (pinCentre zH pins) a) ∧
      s.comps = p.aps.map (·.mi) ∧ ∀ q, q ∈ s.unconn ↔ q ∈ pins ∧ q ≠ p := by
  obtain ⟨p, hp, hu, -, -, -, -, hc⟩ := setSrc_parts _ _ _ _ _ h
  rw [centerSums_spec] at hp
  have hp' : farmost zH (pinCentre zH pins) pins = some p := by simpa [pinCentre, meanOf] using hp
  refine ⟨p, farmost_mem _ _ _ _ hp', ?_, hc, fun q => by rw [hu]; simp⟩
  unfold farmost at hp'
  simp only [apDist_from] at hp'
  obtain ⟨-, h2, h3⟩ := farthest_outer (apFrom zH (pinCentre zH pins)) pins (0, none)
  try dsimp only at h2 h3
  generalize pins.foldl (fun s p => p.aps.foldl (fun s ap =>
    if apFrom zH (pinCentre zH pins) ap ≥ s.1 then (apFrom zH (pinCentre zH pins) ap, some p) else s) s) (0, none) = r at *
  rcases h3 with h3 | ⟨q, hq, a, ha, h3⟩
  · rw [h3] at hp'; cases hp'
  · rw [h3] at hp' h2
    dsimp only at hp'
    cases hp'
    exact ⟨a, ha, h2⟩

/-- C190: at the head of the loop, the two corners that the router keeps are those of the smallest box around the
access patterns of the pin it began with and all nodes connected so far. -/
theorem c190_box {zH pick fuel pins g it s} (hr : NetReady g pins) (h : RouteAt zH pick fuel pins g it s) :
    ∃ p ∈ pins, p ∉ s.unconn ∧ BoxOf s.cc1 s.cc2 (p.aps.map (·.mi) ++ s.comps) := by
  obtain ⟨-, -, p, hp, hu, -, hb⟩ := aim_inv hr h
  exact ⟨p, hp, hu, hb⟩

/-- C190: the pin the next search aims at is not connected yet, and no access pattern of an unconnected pin is
closer to that box than one of this pin. -/
theorem c190_next {zH pick fuel pins g it s} (hr : NetReady g pins) (hz : SmallCoords g zH) (hm : ∀ i j, i ≤ j → zH i ≤ zH j)
    (h : RouteAt zH pick fuel pins g it s) (hu : s.unconn ≠ []) :
    ∃ p, nextDst s.grid.resetAllPrev zH s.cc1 s.cc2 s.m2p = some p ∧ p ∈ s.unconn ∧
      ∃ a ∈ p.aps, ∀ q ∈ s.unconn, ∀ b ∈ q.aps, toBox g zH s.cc1 s.cc2 a.mi ≤ toBox g zH s.cc1 s.cc2 b.mi := by
  obtain ⟨hi, hk, p0, hp0, -, -, hbox⟩ := aim_inv hr h
  have hb := hi.map.base.resetAllPrev
  have hm2 : s.m2p ≠ [] := by
    obtain ⟨p, hp⟩ := List.exists_mem_of_ne_nil _ hu
    obtain ⟨ap, hap⟩ := List.exists_mem_of_ne_nil _ (hr.ap p (hi.sub p hp))
    intro e
    have := (hi.mem ap.mi p).2 ⟨hp, ap, hap, rfl⟩
    rw [e] at this
    simp [PinMap.get, PinMap.find] at this
  have hz' : SmallCoords s.grid.resetAllPrev zH := by
    unfold SmallCoords; rw [hb.xs, hb.ys]; exact hz
  obtain ⟨p, hp⟩ := nextDst_some s.grid.resetAllPrev zH s.cc1 s.cc2 s.m2p hz' (fun e he => (hi.map.ne e he).1) hm2
  obtain ⟨n0, hn0, -⟩ := hbox.x1
  have hin := hbox.inside n0 hn0
  obtain ⟨o1, o2⟩ := box_on g s.cc1 s.cc2 _ hbox (by
    intro n hn
    rcases List.mem_append.1 hn with hn | hn
    · obtain ⟨a, ha, rfl⟩ := List.mem_map.1 hn
      exact hr.on p0 hp0 a ha
    · exact hi.compsOn n hn)
  have hl := loc_mono g hr.xs hr.ys s.cc1 s.cc2 o1 o2 (by omega) (by omega)
  have hloc : ∀ n, s.grid.resetAllPrev.loc n = g.loc n := fun n => hb.loc n
  obtain ⟨e, he, h1, h2⟩ := nextDst_least s.grid.resetAllPrev zH s.cc1 s.cc2 s.m2p p (fun e he => (hi.map.ne e he).1)
    (by rw [hloc, hloc]; exact hl.1) (by rw [hloc, hloc]; exact hl.2) (hm _ _ (by omega)) hp
  have hbox' : ∀ n, toBox s.grid.resetAllPrev zH s.cc1 s.cc2 n = toBox g zH s.cc1 s.cc2 n := by
    intro n; simp only [toBox, hloc]
  have hpe : p ∈ s.m2p.get e.1 := by
    rw [keysOnce_get hk e he]
    exact List.mem_of_mem_head? h1
  obtain ⟨hpu, a, ha, hae⟩ := (hi.mem e.1 p).1 hpe
  refine ⟨p, hp, hpu, a, ha, ?_⟩
  intro q hq b hbq
  have hqb := (hi.mem b.mi q).2 ⟨hq, b, hbq, rfl⟩
  obtain ⟨f, hf, hfe⟩ : ∃ f ∈ s.m2p, f.1 = b.mi := by
    unfold PinMap.get PinMap.find at hqb
    cases hfd : List.find? (fun e => e.1 == b.mi) s.m2p with
    | none => rw [hfd] at hqb; simp at hqb
    | some f => exact ⟨f, List.mem_of_find?_eq_some hfd, by simpa using List.find?_some hfd⟩
  have := h2 f hf
  rw [hbox', hbox', hfe, ← hae] at this
  exact this

/-- C190: a net that is routed completely went through these states. -/
theorem c190_run (zH : ZHeights) (pick : Nat → Nat → Nat) (fuel : Nat) (pins : List RPin) (g : Grid) (s : RState) (k : Nat)
    (h : routeNet zH pick fuel pins g = some (.ok s k)) : RouteAt zH pick fuel pins g k s := by
  have loop : ∀ (n it : Nat) (t : RState), RouteAt zH pick fuel pins g it t →
      routeLoop zH ((pins.filter (·.hasTerm)).flatMap fun p => p.aps.map (·.mi)) pick fuel n it t = .ok s k →
      RouteAt zH pick fuel pins g k s := by
    intro n
    induction n with
    | zero =>
        intro it t ht hl
        simp only [routeLoop] at hl
        split at hl
        · cases hl; exact ht
        · cases hl
    | succ n ih =>
        intro it t ht hl
        rw [routeLoop_succ] at hl
        split at hl
        · cases hl; exact ht
        · rename_i hu
          split at hl
          · cases hl
          · split at hl
            · cases hl
            · rename_i r hs
              split at hl
              · rename_i hf
                exact ih _ _ (routeAt_step ht hu hs hf) hl
              · cases hl
  unfold routeNet at h
  split at h
  · simp at h
  · dsimp only at h
    split at h
    · simp at h
    · rename_i t ht
      simp only [Option.some.injEq] at h
      exact loop _ _ t (.start t ht) h

/-! ## Instances -/

set_option maxRecDepth 100000 in
example : ∃ s, RouteAt (fun z => if z ≤ 0 then 0 else 4) (fun _ k => k) 40 demoPins demoNetGrid 2 s ∧ s.figs.length = 5 := by
  have h : (demoOut (routeNet (fun z => if z ≤ 0 then 0 else 4) (fun _ k => k) 40 demoPins demoNetGrid)).map
      (fun o => (o.1, o.2.1, o.2.2.length)) = some (true, 2, 5) := by decide
  cases hr : routeNet (fun z => if z ≤ 0 then 0 else 4) (fun _ k => k) 40 demoPins demoNetGrid with
  | none => rw [hr] at h; cases h
  | some o =>
      rw [hr] at h
      cases o with
      | ok s k =>
          simp only [demoOut, Option.map_some, Option.some.injEq, Prod.mk.injEq, true_and] at h
          have := c190_run _ _ _ _ _ _ _ hr
          rw [h.1] at this
          exact ⟨s, this, h.2⟩
      | fail s k => simp [demoOut] at h
      | crash => simp [demoOut] at h
      | outOfFuel => simp [demoOut] at h

/-- before the first search of the example two pins are left, so that `c190_next` says something -/
example : ∃ s, RouteAt (fun z => if z ≤ 0 then 0 else 4) (fun _ k => k) 40 demoPins demoNetGrid 0 s ∧ s.unconn.length = 2 := by
  refine ⟨(routeSetSrc (fun z => if z ≤ 0 then 0 else 4) demoPins (routePrep demoPins demoNetGrid).1
    (routePrep demoPins demoNetGrid).2).get (by decide), .start _ (by simp), by decide⟩

end TR
