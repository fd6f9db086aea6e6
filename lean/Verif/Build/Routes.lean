import Verif.Build.Marks
/-! Property theorems C88 (existing objects find their nodes), C89 (existing routes are paths of the
grid) and C90 (track flags of access points). -/
namespace TR

/-- the index of a point of the grid -/
theorem at_mazeIdx (g : Grid) (hs : g.Sorted) (p : Point) (l : Int) (hx : p.x ∈ g.xs) (hy : p.y ∈ g.ys)
    (hl : l ∈ g.zs) : g.hasMazeIdx p l = true ∧ g.At (g.mazeIdx p l) p l := by
  refine ⟨(c13_has_maze_index g hs p l).2 ⟨hx, hy, hl⟩, ?_⟩
  obtain ⟨i, hi⟩ := List.getElem?_of_mem hx
  obtain ⟨j, hj⟩ := List.getElem?_of_mem hy
  obtain ⟨k, hk⟩ := List.getElem?_of_mem hl
  have := c13_maze_index_of_member g hs i j k p.x p.y l hi hj hk
  rw [this]
  exact ⟨by simp, by simp, by simp, by simpa using hi, by simpa using hj, by simpa using hk⟩

theorem at_same {g : Grid} (hs : g.Sorted) {n m : MIdx} {p : Point} {l : Int} (h1 : g.At n p l) (h2 : g.At m p l) :
    n = m := by
  obtain ⟨a1, a2, a3, a4, a5, a6⟩ := h1
  obtain ⟨b1, b2, b3, b4, b5, b6⟩ := h2
  have e1 := lowerBound_member hs.1 _ _ a4
  have e2 := lowerBound_member hs.2.1 _ _ a5
  have e3 := lowerBound_member hs.2.2 _ _ a6
  rw [lowerBound_member hs.1 _ _ b4] at e1
  rw [lowerBound_member hs.2.1 _ _ b5] at e2
  rw [lowerBound_member hs.2.2 _ _ b6] at e3
  obtain ⟨x, y, z⟩ := n
  obtain ⟨x', y', z'⟩ := m
  simp only at *
  simp only [MIdx.mk.injEq]
  omega

/-! ## C88 -/

/-- C88: every existing wire of a net finds the nodes of its two ends (of their part inside the
extended box). -/
theorem c88_wire (T : GTech) (ht : T.Ok) (r e : Box) (objs : List BObj) (ho : ∀ o ∈ objs, o.Ok T)
    (initDR followGuide : Bool) (g : Grid) (hg : g = buildGrid T r e objs initDR followGuide)
    (l : Int) (a b : Point) (hw : BObj.wire l a b ∈ objs) :
    ∃ i j, figMazeIdx g e (.wire l a b) = some (i, j) ∧
      g.At i ⟨max a.x e.left, max a.y e.bottom⟩ l ∧ g.At j ⟨min b.x e.right, min b.y e.top⟩ l := by
  obtain ⟨hs, hz, _, hx, hy⟩ := c85_coordinates T ht r e objs ho initDR followGuide g hg
  have hl : l ∈ g.zs := by rw [hz]; exact (ho _ hw).1
  have ax : a.x ∈ g.xs := (hx _).2 (Or.inr ⟨_, Or.inr ⟨_, hw, Or.inl rfl, rfl⟩⟩)
  have bx : b.x ∈ g.xs := (hx _).2 (Or.inr ⟨_, Or.inr ⟨_, hw, Or.inr rfl, rfl⟩⟩)
  have ay : a.y ∈ g.ys := (hy _).2 (Or.inr ⟨_, Or.inr ⟨_, hw, Or.inl rfl, rfl⟩⟩)
  have bby : b.y ∈ g.ys := (hy _).2 (Or.inr ⟨_, Or.inr ⟨_, hw, Or.inr rfl, rfl⟩⟩)
  have el : e.left ∈ g.xs := (hx _).2 (Or.inl (by omega))
  have er : e.right ∈ g.xs := (hx _).2 (Or.inl (by omega))
  have eb : e.bottom ∈ g.ys := (hy _).2 (Or.inl (by omega))
  have et : e.top ∈ g.ys := (hy _).2 (Or.inl (by omega))
  have mx : max a.x e.left ∈ g.xs := by rw [Int.max_def]; split <;> assumption
  have my : max a.y e.bottom ∈ g.ys := by rw [Int.max_def]; split <;> assumption
  have nx : min b.x e.right ∈ g.xs := by rw [Int.min_def]; split <;> assumption
  have ny : min b.y e.top ∈ g.ys := by rw [Int.min_def]; split <;> assumption
  obtain ⟨h1, h2⟩ := at_mazeIdx g hs ⟨max a.x e.left, max a.y e.bottom⟩ l mx my hl
  obtain ⟨h3, h4⟩ := at_mazeIdx g hs ⟨min b.x e.right, min b.y e.top⟩ l nx ny hl
  refine ⟨_, _, ?_, h2, h4⟩
  simp only [figMazeIdx, h1, h3, Bool.and_self, if_true]

/-- C88: every existing via finds its two nodes. -/
theorem c88_via (T : GTech) (ht : T.Ok) (r e : Box) (objs : List BObj) (ho : ∀ o ∈ objs, o.Ok T)
    (initDR followGuide : Bool) (g : Grid) (hg : g = buildGrid T r e objs initDR followGuide)
    (l1 l2 : Int) (p : Point) (hv : BObj.via l1 l2 p ∈ objs) (hdir : T.hor l1 ≠ T.hor l2) :
    ∃ i j, figMazeIdx g e (.via l1 l2 p) = some (i, j) ∧ g.At i p l1 ∧ g.At j p l2 := by
  obtain ⟨hs, hz, _, hx, hy⟩ := c85_coordinates T ht r e objs ho initDR followGuide g hg
  have h1 : l1 ∈ g.zs := by rw [hz]; exact (ho _ hv).1
  have h2 : l2 ∈ g.zs := by rw [hz]; exact (ho _ hv).2.1
  have px : p.x ∈ g.xs := by
    cases h : T.hor l1
    · exact (hx _).2 (Or.inr ⟨l1, Or.inr ⟨_, hv, rfl, Or.inl ⟨rfl, h⟩⟩⟩)
    · have : T.hor l2 = false := by rw [h] at hdir; simpa using hdir.symm
      exact (hx _).2 (Or.inr ⟨l2, Or.inr ⟨_, hv, rfl, Or.inr ⟨rfl, this⟩⟩⟩)
  have py : p.y ∈ g.ys := by
    cases h : T.hor l1
    · have : T.hor l2 = true := by rw [h] at hdir; simpa using hdir.symm
      exact (hy _).2 (Or.inr ⟨l2, Or.inr ⟨_, hv, rfl, Or.inr ⟨rfl, this⟩⟩⟩)
    · exact (hy _).2 (Or.inr ⟨l1, Or.inr ⟨_, hv, rfl, Or.inl ⟨rfl, h⟩⟩⟩)
  obtain ⟨a1, a2⟩ := at_mazeIdx g hs p l1 px py h1
  obtain ⟨b1, b2⟩ := at_mazeIdx g hs p l2 px py h2
  refine ⟨_, _, ?_, a2, b2⟩
  simp only [figMazeIdx, a1, b1, Bool.and_self, if_true]

/-- the coordinates of an access point exist -/
theorem ap_coords (T : GTech) (ht : T.Ok) (r e : Box) (objs : List BObj) (ho : ∀ o ∈ objs, o.Ok T)
    (initDR followGuide : Bool) (g : Grid) (hg : g = buildGrid T r e objs initDR followGuide)
    (l : Int) (p : Point) (hp : BObj.ap l p ∈ objs) (hdir : T.hor l ≠ T.hor (T.pairLayer l)) :
    g.Sorted ∧ p.x ∈ g.xs ∧ p.y ∈ g.ys ∧ l ∈ g.zs := by
  obtain ⟨hs, hz, _, hx, hy⟩ := c85_coordinates T ht r e objs ho initDR followGuide g hg
  refine ⟨hs, ?_, ?_, by rw [hz]; exact ho _ hp⟩
  · cases h : T.hor l
    · exact (hx _).2 (Or.inr ⟨l, Or.inr ⟨_, hp, rfl, Or.inl ⟨rfl, h⟩⟩⟩)
    · have : T.hor (T.pairLayer l) = false := by rw [h] at hdir; simpa using hdir.symm
      exact (hx _).2 (Or.inr ⟨T.pairLayer l, Or.inr ⟨_, hp, rfl, Or.inr ⟨rfl, this⟩⟩⟩)
  · cases h : T.hor l
    · have : T.hor (T.pairLayer l) = true := by rw [h] at hdir; simpa using hdir.symm
      exact (hy _).2 (Or.inr ⟨T.pairLayer l, Or.inr ⟨_, hp, rfl, Or.inr ⟨rfl, this⟩⟩⟩)
    · exact (hy _).2 (Or.inr ⟨l, Or.inr ⟨_, hp, rfl, Or.inl ⟨rfl, h⟩⟩⟩)

/-- C88: every access point of a pin finds its node. -/
theorem c88_access_point (T : GTech) (ht : T.Ok) (r e : Box) (objs : List BObj) (ho : ∀ o ∈ objs, o.Ok T)
    (initDR followGuide : Bool) (g : Grid) (hg : g = buildGrid T r e objs initDR followGuide)
    (l : Int) (p : Point) (hp : BObj.ap l p ∈ objs) (hdir : T.hor l ≠ T.hor (T.pairLayer l)) (f : Bool × Bool) :
    ∃ i, (apMazeIdx T g l p f).1 = some i ∧ g.At i p l := by
  obtain ⟨hs, hx, hy, hl⟩ := ap_coords T ht r e objs ho initDR followGuide g hg l p hp hdir
  obtain ⟨h1, h2⟩ := at_mazeIdx g hs p l hx hy hl
  refine ⟨g.mazeIdx p l, ?_, h2⟩
  simp only [apMazeIdx, h1, if_true]
  split <;> rfl

/-! ## C89 -/

/-- the node `k` columns into a row -/
theorem at_col {g : Grid} {i : MIdx} {p : Point} {l : Int} (hi : g.At i p l) (k : Nat) (x : Int)
    (hk : g.xs[k]? = some x) : g.At ⟨k, i.y, i.z⟩ ⟨x, p.y⟩ l :=
  ⟨by simp, hi.2.1, hi.2.2.1, by simpa using hk, hi.2.2.2.2.1, hi.2.2.2.2.2⟩

theorem at_row {g : Grid} {i : MIdx} {p : Point} {l : Int} (hi : g.At i p l) (k : Nat) (y : Int)
    (hk : g.ys[k]? = some y) : g.At ⟨i.x, k, i.z⟩ ⟨p.x, y⟩ l :=
  ⟨hi.1, by simp, hi.2.2.1, hi.2.2.2.1, by simpa using hk, hi.2.2.2.2.2⟩

theorem inc_le {L : List Int} (h : StrictInc L) {i j : Nat} {a b : Int} (ha : L[i]? = some a)
    (hb : L[j]? = some b) : (i ≤ j ↔ a ≤ b) ∧ (i < j ↔ a < b) := by
  obtain ⟨hi, rfl⟩ := List.getElem?_eq_some_iff.1 ha
  obtain ⟨hj, rfl⟩ := List.getElem?_eq_some_iff.1 hb
  have lt : ∀ (a b : Nat) (ha : a < L.length) (hb : b < L.length), a < b → L[a] < L[b] :=
    fun a b ha hb hab => List.pairwise_iff_getElem.1 h a b ha hb hab
  by_cases h1 : i < j
  · have := lt i j hi hj h1; omega
  · by_cases h2 : i = j
    · subst h2; omega
    · have := lt j i hj hi (by omega); omega

/-- C89: an existing horizontal wire inside the route box is a path of the new grid: its two ends
have nodes in one row, and all edges between them exist. The layer must be open to wires and, for a
wire along its direction, not restricted to its tracks; for a wire against it, such wires must be
allowed. In the initial iteration the wire must not run along the top boundary. -/
theorem c89_horizontal_wire (T : GTech) (ht : T.Ok) (r e : Box) (objs : List BObj) (ho : ∀ o ∈ objs, o.Ok T)
    (initDR followGuide : Bool) (g : Grid) (hg : g = buildGrid T r e objs initDR followGuide)
    (l : Int) (a b : Point) (hw : BObj.wire l a b ∈ objs) (hab : a.y = b.y) (hle : a.x ≤ b.x)
    (hopen : T.botRoute ≤ l ∧ l ≤ T.topRoute)
    (huse : (T.hor l = true ∧ T.onGrid l = false) ∨ (T.hor l = false ∧ T.nonPref = true))
    (hra : r.Mem a) (hrb : r.Mem b) (htop : initDR = true → a.y ≠ r.top) :
    ∃ i j : MIdx, g.At i a l ∧ g.At j b l ∧ j.y = i.y ∧ j.z = i.z ∧ i.x ≤ j.x ∧
      ∀ k, i.x ≤ k → k < j.x → g.hasEdge ⟨k, i.y, i.z⟩ .E = true := by
  obtain ⟨hs, hz, _, hx, hy⟩ := c85_coordinates T ht r e objs ho initDR followGuide g hg
  have hl : l ∈ g.zs := by rw [hz]; exact (ho _ hw).1
  have ax : a.x ∈ g.xs := (hx _).2 (Or.inr ⟨_, Or.inr ⟨_, hw, Or.inl rfl, rfl⟩⟩)
  have bx : b.x ∈ g.xs := (hx _).2 (Or.inr ⟨_, Or.inr ⟨_, hw, Or.inr rfl, rfl⟩⟩)
  have ay : a.y ∈ g.ys := (hy _).2 (Or.inr ⟨_, Or.inr ⟨_, hw, Or.inl rfl, rfl⟩⟩)
  have hi := (at_mazeIdx g hs a l ax ay hl).2
  generalize g.mazeIdx a l = i at hi
  obtain ⟨jx, hjx⟩ := List.getElem?_of_mem bx
  have hj : g.At ⟨jx, i.y, i.z⟩ b l := by
    have := at_col hi jx b.x hjx
    rw [hab] at this
    exact this
  have hix : g.xs[i.x.toNat]? = some a.x := hi.2.2.2.1
  have h0 := hi.1
  refine ⟨i, ⟨jx, i.y, i.z⟩, hi, hj, rfl, rfl, ?_, ?_⟩
  · have := ((inc_le hs.1 hix hjx).1).2 hle
    simp only; omega
  · intro k hk1 hk2
    simp only at hk2
    have hklt : k.toNat + 1 ≤ jx := by omega
    have hlen := (List.getElem?_eq_some_iff.1 hjx).1
    have hk : g.xs[k.toNat]? = some g.xs[k.toNat] := List.getElem?_eq_getElem (by omega)
    have hk' : g.xs[k.toNat + 1]? = some g.xs[k.toNat + 1] := List.getElem?_eq_getElem (by omega)
    generalize g.xs[k.toNat] = x at hk
    generalize g.xs[k.toNat + 1] = x' at hk'
    have e1 : (⟨k, i.y, i.z⟩ : MIdx) = ⟨(k.toNat : Int), i.y, i.z⟩ := by
      simp only [MIdx.mk.injEq, and_self, and_true]; omega
    rw [e1]
    have hn := at_col hi k.toNat x hk
    have hn' := at_col hi (k.toNat + 1) x' hk'
    have x1 := ((inc_le hs.1 hix hk).1).1 (by omega)
    have x2 := ((inc_le hs.1 hk hk').2).1 (by omega)
    have x3 := ((inc_le hs.1 hk' hjx).1).1 (by omega)
    rw [c86_east T ht r e objs ho initDR followGuide g hg _ _ l hn]
    refine ⟨⟨⟨x', a.y⟩, ?_, ?_⟩, hopen.1, hopen.2, ?_⟩
    · have : (MIdx.nbr ⟨(k.toNat : Int), i.y, i.z⟩ .E) = ⟨((k.toNat + 1 : Nat) : Int), i.y, i.z⟩ := by
        simp [MIdx.nbr, Dir.delta]
      rw [this]; exact hn'
    · unfold EdgeInBox
      unfold Box.Mem InRect at *
      simp only
      refine ⟨by omega, by omega, fun hd => ⟨by omega, ?_⟩⟩
      have := htop hd
      omega
    · rcases huse with ⟨h1, h2⟩ | ⟨h1, h2⟩
      · exact Or.inl ⟨h1, Or.inr ⟨h2, _, hw, Or.inl rfl, by rw [if_pos h1]⟩⟩
      · refine Or.inr ⟨h1, h2, Or.inr ⟨_, hw, Or.inl rfl, by rw [if_neg (by simp [h1])]⟩⟩

/-- C89: the same for an existing vertical wire. -/
theorem c89_vertical_wire (T : GTech) (ht : T.Ok) (r e : Box) (objs : List BObj) (ho : ∀ o ∈ objs, o.Ok T)
    (initDR followGuide : Bool) (g : Grid) (hg : g = buildGrid T r e objs initDR followGuide)
    (l : Int) (a b : Point) (hw : BObj.wire l a b ∈ objs) (hab : a.x = b.x) (hle : a.y ≤ b.y)
    (hopen : T.botRoute ≤ l ∧ l ≤ T.topRoute)
    (huse : (T.hor l = false ∧ T.onGrid l = false) ∨ (T.hor l = true ∧ T.nonPref = true))
    (hra : r.Mem a) (hrb : r.Mem b) (hright : initDR = true → a.x ≠ r.right) :
    ∃ i j : MIdx, g.At i a l ∧ g.At j b l ∧ j.x = i.x ∧ j.z = i.z ∧ i.y ≤ j.y ∧
      ∀ k, i.y ≤ k → k < j.y → g.hasEdge ⟨i.x, k, i.z⟩ .N = true := by
  obtain ⟨hs, hz, _, hx, hy⟩ := c85_coordinates T ht r e objs ho initDR followGuide g hg
  have hl : l ∈ g.zs := by rw [hz]; exact (ho _ hw).1
  have ax : a.x ∈ g.xs := (hx _).2 (Or.inr ⟨_, Or.inr ⟨_, hw, Or.inl rfl, rfl⟩⟩)
  have ay : a.y ∈ g.ys := (hy _).2 (Or.inr ⟨_, Or.inr ⟨_, hw, Or.inl rfl, rfl⟩⟩)
  have bby : b.y ∈ g.ys := (hy _).2 (Or.inr ⟨_, Or.inr ⟨_, hw, Or.inr rfl, rfl⟩⟩)
  have hi := (at_mazeIdx g hs a l ax ay hl).2
  generalize g.mazeIdx a l = i at hi
  obtain ⟨jy, hjy⟩ := List.getElem?_of_mem bby
  have hj : g.At ⟨i.x, jy, i.z⟩ b l := by
    have := at_row hi jy b.y hjy
    rw [hab] at this
    exact this
  have hiy : g.ys[i.y.toNat]? = some a.y := hi.2.2.2.2.1
  have h0 := hi.2.1
  refine ⟨i, ⟨i.x, jy, i.z⟩, hi, hj, rfl, rfl, ?_, ?_⟩
  · have := ((inc_le hs.2.1 hiy hjy).1).2 hle
    simp only; omega
  · intro k hk1 hk2
    simp only at hk2
    have hlen := (List.getElem?_eq_some_iff.1 hjy).1
    have hk : g.ys[k.toNat]? = some g.ys[k.toNat] := List.getElem?_eq_getElem (by omega)
    have hk' : g.ys[k.toNat + 1]? = some g.ys[k.toNat + 1] := List.getElem?_eq_getElem (by omega)
    generalize g.ys[k.toNat] = y at hk
    generalize g.ys[k.toNat + 1] = y' at hk'
    have e1 : (⟨i.x, k, i.z⟩ : MIdx) = ⟨i.x, (k.toNat : Int), i.z⟩ := by
      simp only [MIdx.mk.injEq, and_true, true_and]; omega
    rw [e1]
    have hn := at_row hi k.toNat y hk
    have hn' := at_row hi (k.toNat + 1) y' hk'
    have x1 := ((inc_le hs.2.1 hiy hk).1).1 (by omega)
    have x2 := ((inc_le hs.2.1 hk hk').2).1 (by omega)
    have x3 := ((inc_le hs.2.1 hk' hjy).1).1 (by omega)
    rw [c86_north T ht r e objs ho initDR followGuide g hg _ _ l hn]
    refine ⟨⟨⟨a.x, y'⟩, ?_, ?_⟩, hopen.1, hopen.2, ?_⟩
    · have : (MIdx.nbr ⟨i.x, (k.toNat : Int), i.z⟩ .N) = ⟨i.x, ((k.toNat + 1 : Nat) : Int), i.z⟩ := by
        simp [MIdx.nbr, Dir.delta]
      rw [this]; exact hn'
    · unfold EdgeInBox
      unfold Box.Mem InRect at *
      simp only
      refine ⟨by omega, by omega, fun hd => ⟨?_, by omega⟩⟩
      have := hright hd
      omega
    · rcases huse with ⟨h1, h2⟩ | ⟨h1, h2⟩
      · exact Or.inl ⟨h1, Or.inr ⟨h2, _, hw, Or.inl rfl, by rw [if_neg (by simp [h1])]⟩⟩
      · refine Or.inr ⟨h1, h2, Or.inr ⟨_, hw, Or.inl rfl, by rw [if_pos h1]⟩⟩

/-- neighbouring layers are neighbours in the grid -/
theorem at_next {g : Grid} (hs : g.Sorted) {n m : MIdx} {p : Point} {l : Int} (h1 : g.At n p l)
    (h2 : g.At m p (l + 2)) (hgap : l + 1 ∉ g.zs) : m = n.nbr .U := by
  have hz1 := h1.2.2.2.2.2
  have hz2 := h2.2.2.2.2.2
  have hlt := ((inc_le hs.2.2 hz1 hz2).2).2 (by omega)
  have hlen := (List.getElem?_eq_some_iff.1 hz2).1
  have hk : g.zs[n.z.toNat + 1]? = some g.zs[n.z.toNat + 1] := List.getElem?_eq_getElem (by omega)
  have hmem : g.zs[n.z.toNat + 1] ∈ g.zs := List.getElem_mem _
  generalize g.zs[n.z.toNat + 1] = k at hk hmem
  have a1 := ((inc_le hs.2.2 hz1 hk).2).1 (by omega)
  have a2 := ((inc_le hs.2.2 hk hz2).1).1 (by omega)
  have hk2 : k = l + 2 := by
    by_cases h : k = l + 1
    · subst h; exact absurd hmem hgap
    · omega
  subst hk2
  have : g.At (n.nbr .U) p (l + 2) := by
    refine ⟨by simp [MIdx.nbr, Dir.delta]; exact h1.1, by simp [MIdx.nbr, Dir.delta]; exact h1.2.1,
      ?_, ?_, ?_, ?_⟩
    · have := h1.2.2.1; simp only [MIdx.nbr, Dir.delta]; omega
    · simpa [MIdx.nbr, Dir.delta] using h1.2.2.2.1
    · simpa [MIdx.nbr, Dir.delta] using h1.2.2.2.2.1
    · have h0 := h1.2.2.1
      have : (n.nbr .U).z.toNat = n.z.toNat + 1 := by simp only [MIdx.nbr, Dir.delta]; omega
      rw [this]; exact hk
  exact at_same hs h2 this

/-- C89: an existing via inside the route box is an edge of the new grid, if the two layers run in
different directions and neither is restricted to its tracks. -/
theorem c89_via (T : GTech) (ht : T.Ok) (r e : Box) (objs : List BObj) (ho : ∀ o ∈ objs, o.Ok T)
    (initDR followGuide : Bool) (g : Grid) (hg : g = buildGrid T r e objs initDR followGuide)
    (l1 l2 : Int) (p : Point) (hv : BObj.via l1 l2 p ∈ objs) (hdir : T.hor l1 ≠ T.hor l2)
    (hgap : l1 + 1 ∉ T.layers) (hfree : T.onGrid l1 = false ∧ T.onGrid l2 = false)
    (hbox : EdgeInBox r initDR p p) :
    ∃ i j, figMazeIdx g e (.via l1 l2 p) = some (i, j) ∧ j = i.nbr .U ∧ g.hasEdge i .U = true := by
  obtain ⟨i, j, h1, h2, h3⟩ := c88_via T ht r e objs ho initDR followGuide g hg l1 l2 p hv hdir
  obtain ⟨hs, hz, _, hx, hy⟩ := c85_coordinates T ht r e objs ho initDR followGuide g hg
  have h12 := (ho _ hv).2.2
  have hj : j = i.nbr .U := at_next hs h2 (h12 ▸ h3) (by rw [hz]; exact hgap)
  refine ⟨i, j, h1, hj, ?_⟩
  rw [c86_up T ht r e objs ho initDR followGuide g hg i p l1 h2]
  refine ⟨⟨l2, hj ▸ h3, hbox⟩, ?_⟩
  rw [← h12]
  cases h : T.hor l1
  · have h' : T.hor l2 = true := by rw [h] at hdir; simpa using hdir.symm
    exact Or.inr ⟨rfl, Or.inr ⟨hfree.1, _, hv, rfl, Or.inl ⟨rfl, h⟩⟩,
      Or.inr ⟨hfree.2, _, hv, rfl, Or.inr ⟨rfl, h'⟩⟩⟩
  · have h' : T.hor l2 = false := by rw [h] at hdir; simpa using hdir.symm
    exact Or.inl ⟨rfl, Or.inr ⟨hfree.1, _, hv, rfl, Or.inl ⟨rfl, h⟩⟩,
      Or.inr ⟨hfree.2, _, hv, rfl, Or.inr ⟨rfl, h'⟩⟩⟩

/-- C89: from an access point inside the route box the grid has a via edge to the layer above. -/
theorem c89_access_point (T : GTech) (ht : T.Ok) (r e : Box) (objs : List BObj) (ho : ∀ o ∈ objs, o.Ok T)
    (initDR followGuide : Bool) (g : Grid) (hg : g = buildGrid T r e objs initDR followGuide)
    (l : Int) (p : Point) (hp : BObj.ap l p ∈ objs) (habove : l + 2 ∈ T.layers) (hgap : l + 1 ∉ T.layers)
    (hdir : T.hor l ≠ T.hor (l + 2)) (hfree : T.onGrid l = false ∧ T.onGrid (l + 2) = false)
    (hbox : EdgeInBox r initDR p p) (f : Bool × Bool) :
    ∃ i, (apMazeIdx T g l p f).1 = some i ∧ g.At i p l ∧ g.hasEdge i .U = true := by
  have hpair : T.pairLayer l = l + 2 := by
    have := (ht.low _ habove).2
    unfold GTech.pairLayer; rw [if_neg (by omega)]
  obtain ⟨i, h1, h2⟩ := c88_access_point T ht r e objs ho initDR followGuide g hg l p hp (by rw [hpair]; exact hdir) f
  obtain ⟨hs, hx, hy, hl⟩ := ap_coords T ht r e objs ho initDR followGuide g hg l p hp (by rw [hpair]; exact hdir)
  obtain ⟨_, hz, _⟩ := c85_coordinates T ht r e objs ho initDR followGuide g hg
  refine ⟨i, h1, h2, ?_⟩
  have h3 := (at_mazeIdx g hs p (l + 2) hx hy (by rw [hz]; exact habove)).2
  have hj := at_next hs h2 h3 (by rw [hz]; exact hgap)
  rw [c86_up T ht r e objs ho initDR followGuide g hg i p l h2]
  refine ⟨⟨l + 2, hj ▸ h3, hbox⟩, ?_⟩
  cases h : T.hor l
  · have h' : T.hor (l + 2) = true := by rw [h] at hdir; simpa using hdir.symm
    exact Or.inr ⟨rfl, Or.inr ⟨hfree.1, _, hp, rfl, Or.inl ⟨rfl, h⟩⟩,
      Or.inr ⟨hfree.2, _, hp, rfl, Or.inr ⟨hpair.symm, hpair ▸ h'⟩⟩⟩
  · have h' : T.hor (l + 2) = false := by rw [h] at hdir; simpa using hdir.symm
    exact Or.inl ⟨rfl, Or.inr ⟨hfree.1, _, hp, rfl, Or.inl ⟨rfl, h⟩⟩,
      Or.inr ⟨hfree.2, _, hp, rfl, Or.inr ⟨hpair.symm, hpair ▸ h'⟩⟩⟩

/-! ## C90 -/

theorem hasGridCost_back (g : Grid) (n : MIdx) :
    g.hasGridCost n .W = g.hasGridCost ⟨n.x - 1, n.y, n.z⟩ .E ∧
    g.hasGridCost n .S = g.hasGridCost ⟨n.x, n.y - 1, n.z⟩ .N := ⟨rfl, rfl⟩

theorem at_west {g : Grid} (hs : g.Sorted) {n : MIdx} {p : Point} {l c : Int} (hn : g.At n p l) (hc : c ∈ g.xs)
    (hlt : c < p.x) : ∃ x, g.At ⟨n.x - 1, n.y, n.z⟩ ⟨x, p.y⟩ l := by
  obtain ⟨k, hk⟩ := List.getElem?_of_mem hc
  have h1 := ((inc_le hs.1 hk hn.2.2.2.1).2).2 hlt
  have h2 := (List.getElem?_eq_some_iff.1 hn.2.2.2.1).1
  have h3 : g.xs[n.x.toNat - 1]? = some g.xs[n.x.toNat - 1] := List.getElem?_eq_getElem (by omega)
  have := at_col hn _ _ h3
  have h0 := hn.1
  have e : ((n.x.toNat - 1 : Nat) : Int) = n.x - 1 := by omega
  rw [e] at this
  exact ⟨_, this⟩

theorem at_south {g : Grid} (hs : g.Sorted) {n : MIdx} {p : Point} {l c : Int} (hn : g.At n p l) (hc : c ∈ g.ys)
    (hlt : c < p.y) : ∃ y, g.At ⟨n.x, n.y - 1, n.z⟩ ⟨p.x, y⟩ l := by
  obtain ⟨k, hk⟩ := List.getElem?_of_mem hc
  have h1 := ((inc_le hs.2.1 hk hn.2.2.2.2.1).2).2 hlt
  have h2 := (List.getElem?_eq_some_iff.1 hn.2.2.2.2.1).1
  have h3 : g.ys[n.y.toNat - 1]? = some g.ys[n.y.toNat - 1] := List.getElem?_eq_getElem (by omega)
  have := at_row hn _ _ h3
  have h0 := hn.2.1
  have e : ((n.y.toNat - 1 : Nat) : Int) = n.y - 1 := by omega
  rw [e] at this
  exact ⟨_, this⟩

/-- the point is off the tracks of layer `k`, in a way the router can see: the layer is open to
wires and not restricted to its tracks -/
def GTech.OffTrack (T : GTech) (w : Box) (p : Point) (k : Int) : Prop :=
  k ∈ T.layers ∧ T.botRoute ≤ k ∧ k ≤ T.topRoute ∧ T.onGrid k = false ∧
    (if T.hor k then ¬ T.TrackY w k p.y else ¬ T.TrackX w k p.x)

theorem apFlags_iff (T : GTech) (ht : T.Ok) (r e : Box) (objs : List BObj) (ho : ∀ o ∈ objs, o.Ok T)
    (i f : Bool) (g : Grid) (hg : g = buildGrid T r e objs i f) (n : MIdx) (p : Point) (k : Int)
    (hn : g.At n p k) (hin : e.left < p.x ∧ e.bottom < p.y)
    (hy : T.hor k = true → ∃ o ∈ objs, o.LineY T k p.y) (hx : T.hor k = false → ∃ o ∈ objs, o.LineX T k p.x)
    (fl : Bool × Bool) :
    ((apFlags T g n k fl).1 = false ↔ fl.1 = false ∨ (T.hor k = true ∧ T.OffTrack e p k)) ∧
    ((apFlags T g n k fl).2 = false ↔ fl.2 = false ∨ (T.hor k = false ∧ T.OffTrack e p k)) := by
  obtain ⟨hs, hz, _, gx, gy⟩ := c85_coordinates T ht r e objs ho i f g hg
  have hk : k ∈ T.layers := by rw [← hz]; exact List.mem_of_getElem? hn.2.2.2.2.2
  subst hg
  unfold apFlags GTech.OffTrack
  cases hh : T.hor k
  · obtain ⟨y, hw⟩ := at_south hs hn ((gy e.bottom).2 (Or.inl (by omega))) hin.2
    have m1 := markN_iff T ht r e objs ho i f n p k hn
    have m2 := markN_iff T ht r e objs ho i f _ _ k hw
    rw [← (hasGridCost_back _ n).2] at m2
    simp only [hh, Bool.false_eq_true, if_false, false_and, or_false, true_and, Bool.or_eq_true, m1, m2,
      or_self, hx hh, and_true, hk]
    by_cases hc : T.botRoute ≤ k ∧ k ≤ T.topRoute ∧ T.onGrid k = false ∧ ¬ T.TrackX e k p.x
    · rw [if_pos (by simp only [Bool.or_eq_true, m1, m2, hx hh, hh, and_true, true_and, Bool.false_eq_true, Bool.true_eq_false, false_and, or_false]; exact Or.inl hc)]; simp [hc]
    · rw [if_neg (by simp only [Bool.or_eq_true, m1, m2, hx hh, hh, and_true, or_self, true_and, Bool.false_eq_true, Bool.true_eq_false, false_and, or_false]; exact hc)]; simp [hc]
  · obtain ⟨x, hw⟩ := at_west hs hn ((gx e.left).2 (Or.inl (by omega))) hin.1
    have m1 := markE_iff T ht r e objs ho i f n p k hn
    have m2 := markE_iff T ht r e objs ho i f _ _ k hw
    rw [← (hasGridCost_back _ n).1] at m2
    simp only [hh, Bool.true_eq_false, if_true, false_and, or_false, true_and, Bool.or_eq_true, m1, m2,
      or_self, hy hh, and_true, hk]
    by_cases hc : T.botRoute ≤ k ∧ k ≤ T.topRoute ∧ T.onGrid k = false ∧ ¬ T.TrackY e k p.y
    · rw [if_pos (by simp only [Bool.or_eq_true, m1, m2, hy hh, hh, and_true, true_and, Bool.false_eq_true, Bool.true_eq_false, false_and, or_false]; exact Or.inl hc)]; simp [hc]
    · rw [if_neg (by simp only [Bool.or_eq_true, m1, m2, hy hh, hh, and_true, or_self, true_and, Bool.false_eq_true, Bool.true_eq_false, false_and, or_false]; exact hc)]; simp [hc]

/-- C90: the track flags of an access point strictly inside the extended box. The first flag is
cleared exactly if the point is off the tracks of a horizontal layer among its own layer and the one
above, the second for vertical layers; a layer that is closed to wires or restricted to its tracks
clears nothing. -/
theorem c90_track_flags (T : GTech) (ht : T.Ok) (r e : Box) (objs : List BObj) (ho : ∀ o ∈ objs, o.Ok T)
    (initDR followGuide : Bool) (g : Grid) (hg : g = buildGrid T r e objs initDR followGuide)
    (l : Int) (p : Point) (hp : BObj.ap l p ∈ objs) (hdir : T.hor l ≠ T.hor (T.pairLayer l))
    (hin : e.left < p.x ∧ e.bottom < p.y) (f : Bool × Bool) :
    ((apMazeIdx T g l p f).2.1 = false ↔
      f.1 = false ∨ ∃ k, (k = l ∨ k = l + 2) ∧ T.hor k = true ∧ T.OffTrack e p k) ∧
    ((apMazeIdx T g l p f).2.2 = false ↔
      f.2 = false ∨ ∃ k, (k = l ∨ k = l + 2) ∧ T.hor k = false ∧ T.OffTrack e p k) := by
  obtain ⟨hs, hx, hy, hl⟩ := ap_coords T ht r e objs ho initDR followGuide g hg l p hp hdir
  obtain ⟨_, hz, _⟩ := c85_coordinates T ht r e objs ho initDR followGuide g hg
  obtain ⟨a1, a2⟩ := at_mazeIdx g hs p l hx hy hl
  have f1 := apFlags_iff T ht r e objs ho initDR followGuide g hg _ p l a2 hin
    (fun h => ⟨_, hp, rfl, Or.inl ⟨rfl, h⟩⟩) (fun h => ⟨_, hp, rfl, Or.inl ⟨rfl, h⟩⟩) f
  by_cases hab : l + 2 ∈ T.layers
  · have hpair : T.pairLayer l = l + 2 := by
      have := (ht.low _ hab).2
      unfold GTech.pairLayer; rw [if_neg (by omega)]
    obtain ⟨b1, b2⟩ := at_mazeIdx g hs p (l + 2) hx hy (by rw [hz]; exact hab)
    have f2 := apFlags_iff T ht r e objs ho initDR followGuide g hg _ p (l + 2) b2 hin
      (fun h => ⟨_, hp, rfl, Or.inr ⟨hpair.symm, by rw [hpair]; exact h⟩⟩)
      (fun h => ⟨_, hp, rfl, Or.inr ⟨hpair.symm, by rw [hpair]; exact h⟩⟩)
      (apFlags T g (g.mazeIdx p l) l f)
    simp only [apMazeIdx, a1, b1, if_true]
    rw [f2.1, f2.2, f1.1, f1.2]
    constructor
    · constructor
      · rintro ((h | h) | h)
        · exact Or.inl h
        · exact Or.inr ⟨l, Or.inl rfl, h⟩
        · exact Or.inr ⟨l + 2, Or.inr rfl, h⟩
      · rintro (h | ⟨k, rfl | rfl, h⟩)
        · exact Or.inl (Or.inl h)
        · exact Or.inl (Or.inr h)
        · exact Or.inr h
    · constructor
      · rintro ((h | h) | h)
        · exact Or.inl h
        · exact Or.inr ⟨l, Or.inl rfl, h⟩
        · exact Or.inr ⟨l + 2, Or.inr rfl, h⟩
      · rintro (h | ⟨k, rfl | rfl, h⟩)
        · exact Or.inl (Or.inl h)
        · exact Or.inl (Or.inr h)
        · exact Or.inr h
  · have b1 : g.hasMazeIdx p (l + 2) = false := by
      rw [← Bool.not_eq_true, c13_has_maze_index g hs, hz]
      exact fun h => hab h.2.2
    simp only [apMazeIdx, a1, b1, if_true, Bool.false_eq_true, if_false]
    rw [f1.1, f1.2]
    constructor
    · constructor
      · rintro (h | h)
        · exact Or.inl h
        · exact Or.inr ⟨l, Or.inl rfl, h⟩
      · rintro (h | ⟨k, rfl | rfl, h⟩)
        · exact Or.inl h
        · exact Or.inr h
        · exact absurd h.2.1 hab
    · constructor
      · rintro (h | h)
        · exact Or.inl h
        · exact Or.inr ⟨l, Or.inl rfl, h⟩
      · rintro (h | ⟨k, rfl | rfl, h⟩)
        · exact Or.inl h
        · exact Or.inr h
        · exact absurd h.2.1 hab

end TR
