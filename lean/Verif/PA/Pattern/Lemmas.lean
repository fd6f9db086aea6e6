import Verif.PA.Pattern.Spec
/-! # The dynamic programming of the access patterns -/
namespace TR

theorem flat_div (D l i : Nat) (h : i < D) : flatIdx D l i / D = l := by
  unfold flatIdx
  rw [Nat.mul_comm, Nat.mul_add_div (by omega), Nat.div_eq_of_lt h, Nat.add_zero]

theorem flat_mod (D l i : Nat) (h : i < D) : flatIdx D l i % D = i := by
  unfold flatIdx
  rw [Nat.mul_comm, Nat.mul_add_mod, Nat.mod_eq_of_lt h]

theorem flat_inj (D l m i j : Nat) (hi : i < D) (hj : j < D) (h : flatIdx D l i = flatIdx D m j) : l = m ∧ i = j := by
  constructor
  · rw [← flat_div D l i hi, h, flat_div D m j hj]
  · rw [← flat_mod D l i hi, h, flat_mod D m j hj]

/-- the edge cost depends on nothing but the two nodes -/
def PureEdge {σ : Type} (edge : σ → DPTab → Nat → Nat → Int × σ) (t0 : DPTab) (w : Nat → Nat → Int) : Prop :=
  ∀ s t p c, (∀ q, (t q).node = (t0 q).node) → (edge s t p c).1 = w p c

theorem PureEdge.trans {σ : Type} {edge : σ → DPTab → Nat → Nat → Int × σ} {t0 t1 : DPTab} {w : Nat → Nat → Int} (h : PureEdge edge t0 w)
    (e : ∀ q, (t1 q).node = (t0 q).node) : PureEdge edge t1 w :=
  fun s t p c ht => h s t p c (fun q => (ht q).trans (e q))

theorem set_same (t : DPTab) (i : Nat) (x : DPNode) : t.set i x i = x := by simp [DPTab.set]
theorem set_other (t : DPTab) (i j : Nat) (x : DPNode) (h : j ≠ i) : t.set i x j = t j := by simp [DPTab.set, h]

theorem foldRelax {σ : Type} (edge : σ → DPTab → Nat → Nat → Int × σ) (c : Nat) (L : List Nat) (hL : ∀ p ∈ L, p ≠ c) : ∀ st : σ × DPTab,
    (∀ q, q ≠ c → (L.foldl (relax edge c) st).2 q = st.2 q) ∧ ((L.foldl (relax edge c) st).2 c).node = (st.2 c).node ∧
    (((L.foldl (relax edge c) st).2 c = st.2 c ∧ ((st.2 c).path = none → ∀ p ∈ L, (st.2 p).path = none) ∧
        ∀ w, PureEdge edge st.2 w → ∀ v, (st.2 c).path = some v → ∀ p ∈ L, ∀ u, (st.2 p).path = some u → v ≤ u + w p c) ∨
      ∃ p ∈ L, ∃ u v, (st.2 p).path = some u ∧ ((L.foldl (relax edge c) st).2 c).prev = some p ∧ ((L.foldl (relax edge c) st).2 c).path = some v ∧
        ∀ w, PureEdge edge st.2 w → v = u + w p c ∧ (∀ p' ∈ L, ∀ u', (st.2 p').path = some u' → v ≤ u' + w p' c) ∧
          (∀ v0, (st.2 c).path = some v0 → v < v0) ∧
          ∃ L1 L2, L = L1 ++ p :: L2 ∧ ∀ p' ∈ L1, ∀ u', (st.2 p').path = some u' → v < u' + w p' c) := by
  induction L with
  | nil =>
    intro st
    exact ⟨fun _ _ => rfl, rfl, Or.inl ⟨rfl, by simp, by simp⟩⟩
  | cons p L ih =>
    intro st
    have hpc := hL p (by simp)
    have ih := ih (fun q hq => hL q (List.mem_cons_of_mem _ hq))
    rw [List.foldl_cons]
    cases hp : (st.2 p).path with
    | none =>
      have e : relax edge c st p = st := by unfold relax; rw [hp]
      rw [e]
      obtain ⟨h1, h2, h3⟩ := ih st
      refine ⟨h1, h2, ?_⟩
      rcases h3 with ⟨a1, a2, a3⟩ | ⟨p2, hp2, u, v, b1, b2, b3, b4⟩
      · refine Or.inl ⟨a1, ?_, ?_⟩
        · intro hn q hq
          rcases List.mem_cons.1 hq with eq | hq
          · rw [eq]; exact hp
          · exact a2 hn q hq
        · intro w hw v hv q hq u hu
          rcases List.mem_cons.1 hq with eq | hq
          · rw [eq, hp] at hu; cases hu
          · exact a3 w hw v hv q hq u hu
      · refine Or.inr ⟨p2, List.mem_cons_of_mem _ hp2, u, v, b1, b2, b3, ?_⟩
        intro w hw
        obtain ⟨c1, c2, c3, L1, L2, c4, c5⟩ := b4 w hw
        refine ⟨c1, ?_, c3, p :: L1, L2, by rw [c4]; rfl, ?_⟩
        · intro q hq u' hu
          rcases List.mem_cons.1 hq with eq | hq
          · rw [eq, hp] at hu; cases hu
          · exact c2 q hq u' hu
        · intro q hq u' hu
          rcases List.mem_cons.1 hq with eq | hq
          · rw [eq, hp] at hu; cases hu
          · exact c5 q hq u' hu
    | some pc =>
      by_cases hw : worse (st.2 c).path (pc + (edge st.1 st.2 p c).1) = true
      · have e : relax edge c st p = ((edge st.1 st.2 p c).2, st.2.set c { node := (st.2 c).node, path := some (pc + (edge st.1 st.2 p c).1), prev := some p }) := by
          unfold relax; rw [hp]; simp only [hw, if_true]
        rw [e]
        obtain ⟨h1, h2, h3⟩ := ih ((edge st.1 st.2 p c).2, st.2.set c { node := (st.2 c).node, path := some (pc + (edge st.1 st.2 p c).1), prev := some p })
        have hnodes : ∀ q, ((st.2.set c { node := (st.2 c).node, path := some (pc + (edge st.1 st.2 p c).1), prev := some p }) q).node = (st.2 q).node := by
          intro q
          by_cases hq : q = c
          · rw [hq, set_same]
          · rw [set_other _ _ _ _ hq]
        simp only [set_same] at h1 h2 h3
        have hoth : ∀ q ∈ L, ((st.2.set c { node := (st.2 c).node, path := some (pc + (edge st.1 st.2 p c).1), prev := some p }) q) = st.2 q :=
          fun q hq => set_other _ _ _ _ (hL q (List.mem_cons_of_mem _ hq))
        refine ⟨?_, h2, ?_⟩
        · intro q hq
          rw [h1 q hq, set_other _ _ _ _ hq]
        · have hworse : ∀ v0, (st.2 c).path = some v0 → pc + (edge st.1 st.2 p c).1 < v0 := by
            intro v0 hv0
            rw [hv0] at hw
            simpa [worse] using hw
          rcases h3 with ⟨a1, a2, a3⟩ | ⟨p2, hp2, u, v, b1, b2, b3, b4⟩
          · refine Or.inr ⟨p, by simp, pc, pc + (edge st.1 st.2 p c).1, hp, by rw [a1], by rw [a1], ?_⟩
            intro w hpw
            have ew := hpw st.1 st.2 p c (fun _ => rfl)
            rw [ew] at a3 hworse ⊢
            refine ⟨rfl, ?_, hworse, [], L, rfl, by simp⟩
            intro q hq u hu
            rcases List.mem_cons.1 hq with eq | hq
            · rw [eq] at hu ⊢
              rw [hp] at hu
              cases hu
              exact Int.le_refl _
            · refine a3 w ?_ _ rfl q hq u ?_
              · rw [← ew]; exact hpw.trans hnodes
              · rw [← ew, hoth q hq]; exact hu
          · refine Or.inr ⟨p2, List.mem_cons_of_mem _ hp2, u, v, ?_, b2, b3, ?_⟩
            · rw [hoth p2 hp2] at b1; exact b1
            · intro w hpw
              have ew := hpw st.1 st.2 p c (fun _ => rfl)
              obtain ⟨c1, c2, c3, L1, L2, c4, c5⟩ := b4 w (hpw.trans hnodes)
              have hle := c3 _ rfl
              rw [ew] at hle hworse
              refine ⟨c1, ?_, ?_, p :: L1, L2, by rw [c4]; rfl, ?_⟩
              · intro q hq u' hu
                rcases List.mem_cons.1 hq with eq | hq
                · rw [eq] at hu ⊢
                  rw [hp] at hu
                  cases hu
                  exact Int.le_of_lt hle
                · exact c2 q hq u' (by rw [hoth q hq]; exact hu)
              · intro v0 hv0
                have := hworse v0 hv0
                omega
              · intro q hq u' hu
                rcases List.mem_cons.1 hq with eq | hq
                · rw [eq] at hu ⊢
                  rw [hp] at hu
                  cases hu
                  exact hle
                · exact c5 q hq u' (by rw [hoth q (by rw [c4]; exact List.mem_append_left _ hq)]; exact hu)
      · have e : relax edge c st p = ((edge st.1 st.2 p c).2, st.2) := by
          unfold relax; rw [hp]; simp only [hw, Bool.false_eq_true, if_false]
        rw [e]
        obtain ⟨h1, h2, h3⟩ := ih ((edge st.1 st.2 p c).2, st.2)
        simp only at h1 h2 h3
        have hex : ∃ x, (st.2 c).path = some x ∧ x ≤ pc + (edge st.1 st.2 p c).1 := by
          cases hx : (st.2 c).path with
          | none => rw [hx] at hw; simp [worse] at hw
          | some x => rw [hx] at hw; exact ⟨x, rfl, by simpa [worse] using hw⟩
        obtain ⟨x, hx, hle⟩ := hex
        refine ⟨h1, h2, ?_⟩
        rcases h3 with ⟨a1, a2, a3⟩ | ⟨p2, hp2, u, v, b1, b2, b3, b4⟩
        · refine Or.inl ⟨a1, ?_, ?_⟩
          · intro hn; rw [hx] at hn; cases hn
          · intro w hpw v hv q hq u hu
            rcases List.mem_cons.1 hq with eq | hq
            · rw [eq] at hu ⊢
              rw [hp] at hu
              rw [hx] at hv
              cases hu
              cases hv
              rw [hpw st.1 st.2 p c (fun _ => rfl)] at hle
              exact hle
            · exact a3 w hpw v hv q hq u hu
        · refine Or.inr ⟨p2, List.mem_cons_of_mem _ hp2, u, v, b1, b2, b3, ?_⟩
          intro w hpw
          obtain ⟨c1, c2, c3, L1, L2, c4, c5⟩ := b4 w hpw
          have hlt : v < pc + w p c := by
            have := c3 x hx
            rw [hpw st.1 st.2 p c (fun _ => rfl)] at hle
            omega
          refine ⟨c1, ?_, c3, p :: L1, L2, by rw [c4]; rfl, ?_⟩
          · intro q hq u' hu
            rcases List.mem_cons.1 hq with eq | hq
            · rw [eq] at hu ⊢
              rw [hp] at hu
              cases hu
              exact Int.le_of_lt hlt
            · exact c2 q hq u' hu
          · intro q hq u' hu
            rcases List.mem_cons.1 hq with eq | hq
            · rw [eq] at hu ⊢
              rw [hp] at hu
              cases hu
              exact hlt
            · exact c5 q hq u' hu

/-- result for one node, whose path was not set before -/
def NodeRes {σ : Type} (edge : σ → DPTab → Nat → Nat → Int × σ) (D l : Nat) (t t' : DPTab) (i : Nat) : Prop :=
  ((t (flatIdx D l i)).node = none ∧ t' (flatIdx D l i) = t (flatIdx D l i)) ∨
  ((t (flatIdx D l i)).node ≠ none ∧
    ((t' (flatIdx D l i) = t (flatIdx D l i) ∧ ∀ j, j < D → (t (flatIdx D (l - 1) j)).path = none) ∨
     ∃ j, j < D ∧ ∃ u v, (t (flatIdx D (l - 1) j)).path = some u ∧ (t' (flatIdx D l i)).prev = some (flatIdx D (l - 1) j) ∧
       (t' (flatIdx D l i)).path = some v ∧ ∀ w, PureEdge edge t w → v = u + w (flatIdx D (l - 1) j) (flatIdx D l i) ∧
         ∀ j', j' < D → ∀ u', (t (flatIdx D (l - 1) j')).path = some u' → v ≤ u' + w (flatIdx D (l - 1) j') (flatIdx D l i) ∧
           (j' < j → v < u' + w (flatIdx D (l - 1) j') (flatIdx D l i))))

theorem relaxNode_res {σ : Type} (edge : σ → DPTab → Nat → Nat → Int × σ) (D l i : Nat) (hl : 1 ≤ l) (hi : i < D) (st : σ × DPTab)
    (hn : (st.2 (flatIdx D l i)).path = none) :
    (∀ q, q ≠ flatIdx D l i → (relaxNode edge D l st i).2 q = st.2 q) ∧
    ((relaxNode edge D l st i).2 (flatIdx D l i)).node = (st.2 (flatIdx D l i)).node ∧ NodeRes edge D l st.2 (relaxNode edge D l st i).2 i := by
  unfold relaxNode
  cases hnode : (st.2 (flatIdx D l i)).node with
  | none =>
    simp only [Option.isNone_none, if_true]
    exact ⟨by simp, hnode, Or.inl ⟨hnode, rfl⟩⟩
  | some x =>
    simp only [Option.isNone_some, Bool.false_eq_true, if_false]
    have hL : ∀ p ∈ (List.range D).map (flatIdx D (l - 1)), p ≠ flatIdx D l i := by
      intro p hp
      obtain ⟨j, hj, rfl⟩ := List.mem_map.1 hp
      intro e
      have := (flat_inj D (l - 1) l j i (List.mem_range.1 hj) hi e).1
      omega
    obtain ⟨h1, h2, h3⟩ := foldRelax edge (flatIdx D l i) _ hL st
    refine ⟨h1, by rw [h2, hnode], Or.inr ⟨by rw [hnode]; simp, ?_⟩⟩
    rcases h3 with ⟨a1, a2, _⟩ | ⟨p, hp, u, v, b1, b2, b3, b4⟩
    · refine Or.inl ⟨a1, ?_⟩
      intro j hj
      exact a2 hn _ (List.mem_map.2 ⟨j, List.mem_range.2 hj, rfl⟩)
    · obtain ⟨j, hj, rfl⟩ := List.mem_map.1 hp
      refine Or.inr ⟨j, List.mem_range.1 hj, u, v, b1, b2, b3, ?_⟩
      intro w hw
      obtain ⟨c1, c2, _, L1, L2, c4, c5⟩ := b4 w hw
      refine ⟨c1, fun j' hj' u' hu' => ⟨c2 _ (List.mem_map.2 ⟨j', List.mem_range.2 hj', rfl⟩) u' hu', ?_⟩⟩
      intro hlt
      refine c5 _ ?_ u' hu'
      -- the nodes of the level are visited in increasing order
      have hsort : ((List.range D).map (flatIdx D (l - 1))).Pairwise (· < ·) := by
        rw [List.pairwise_map]
        refine List.pairwise_lt_range.imp ?_
        intro a b hab
        unfold flatIdx
        omega
      have hmem : flatIdx D (l - 1) j' ∈ L1 ++ flatIdx D (l - 1) j :: L2 := by
        rw [← c4]; exact List.mem_map.2 ⟨j', List.mem_range.2 hj', rfl⟩
      rw [c4, List.pairwise_append] at hsort
      rcases List.mem_append.1 hmem with h | h
      · exact h
      · exfalso
        have hfl : flatIdx D (l - 1) j' < flatIdx D (l - 1) j := by unfold flatIdx; omega
        rcases List.mem_cons.1 h with e | h
        · omega
        · have := (List.pairwise_cons.1 hsort.2.1).1 _ h
          omega

theorem level_res {σ : Type} (edge : σ → DPTab → Nat → Nat → Int × σ) (D l : Nat) (hl : 1 ≤ l) (L : List Nat) (hnd : L.Nodup) (hL : ∀ i ∈ L, i < D) :
    ∀ st : σ × DPTab, (∀ i ∈ L, (st.2 (flatIdx D l i)).path = none) →
      (∀ q, (∀ i ∈ L, q ≠ flatIdx D l i) → (L.foldl (relaxNode edge D l) st).2 q = st.2 q) ∧
      (∀ q, ((L.foldl (relaxNode edge D l) st).2 q).node = (st.2 q).node) ∧
      ∀ i ∈ L, NodeRes edge D l st.2 (L.foldl (relaxNode edge D l) st).2 i := by
  induction L with
  | nil => intro st _; exact ⟨fun _ _ => rfl, fun _ => rfl, by simp⟩
  | cons i L ih =>
    intro st hn
    rw [List.nodup_cons] at hnd
    have hi := hL i (by simp)
    rw [List.foldl_cons]
    obtain ⟨h1, h2, h3⟩ := relaxNode_res edge D l i hl hi st (hn i (by simp))
    generalize relaxNode edge D l st i = st1 at h1 h2 h3
    have hne : ∀ j ∈ L, flatIdx D l j ≠ flatIdx D l i := by
      intro j hj e
      have := (flat_inj D l l j i (hL j (List.mem_cons_of_mem _ hj)) hi e).2
      rw [this] at hj
      exact hnd.1 hj
    have hprev : ∀ j, j < D → flatIdx D (l - 1) j ≠ flatIdx D l i := by
      intro j hj e
      have := (flat_inj D (l - 1) l j i hj hi e).1
      omega
    have hnodes : ∀ q, (st1.2 q).node = (st.2 q).node := by
      intro q
      by_cases hq : q = flatIdx D l i
      · rw [hq, h2]
      · rw [h1 q hq]
    obtain ⟨k1, k2, k3⟩ := ih hnd.2 (fun j hj => hL j (List.mem_cons_of_mem _ hj)) st1
      (fun j hj => by rw [h1 _ (hne j hj)]; exact hn j (List.mem_cons_of_mem _ hj))
    refine ⟨?_, ?_, ?_⟩
    · intro q hq
      rw [k1 q (fun j hj => hq j (List.mem_cons_of_mem _ hj)), h1 q (hq i (by simp))]
    · intro q
      rw [k2, hnodes]
    · intro j hj
      rcases List.mem_cons.1 hj with e | hj
      · rw [e]
        have ekeep := k1 (flatIdx D l i) (fun j hj => (hne j hj).symm)
        unfold NodeRes at h3 ⊢
        rw [ekeep]
        exact h3
      · have := k3 j hj
        unfold NodeRes at this ⊢
        rw [h1 _ (hne j hj)] at this
        rcases this with h | ⟨hnn, ⟨e, hall⟩ | ⟨m, hm, u, v, b1, b2, b3, b4⟩⟩
        · exact Or.inl h
        · exact Or.inr ⟨hnn, Or.inl ⟨e, fun m hm => by rw [← h1 _ (hprev m hm)]; exact hall m hm⟩⟩
        · refine Or.inr ⟨hnn, Or.inr ⟨m, hm, u, v, by rw [← h1 _ (hprev m hm)]; exact b1, b2, b3, ?_⟩⟩
          intro w hw
          obtain ⟨c1, c2⟩ := b4 w (hw.trans hnodes)
          exact ⟨c1, fun j' hj' u' hu' => c2 j' hj' u' (by rw [h1 _ (hprev j' hj')]; exact hu')⟩

/-- a choice of a set node in each level, the last level first -/
def NPath (D : Nat) (t : DPTab) : Nat → List Nat → Prop
  | 0, s => s = [0]
  | m + 1, j :: i :: s => j < D ∧ (t (flatIdx D (m + 1) j)).node ≠ none ∧ NPath D t m (i :: s)
  | _ + 1, _ => False

/-- the links of the nodes lead through the choice -/
def Traced (D : Nat) (t : DPTab) : Nat → List Nat → Prop
  | 0, s => s = [0] ∧ (t (flatIdx D 0 0)).prev = none
  | m + 1, j :: i :: s => j < D ∧ (t (flatIdx D (m + 1) j)).prev = some (flatIdx D m i) ∧ Traced D t m (i :: s)
  | _ + 1, _ => False

/-- cost of a choice -/
def PCost (D : Nat) (w : Nat → Nat → Int) : Nat → List Nat → Int
  | m + 1, j :: i :: s => PCost D w m (i :: s) + w (flatIdx D m i) (flatIdx D (m + 1) j)
  | _, _ => 0

theorem flat_lt (D l i : Nat) (h : i < D) : flatIdx D l i < (l + 1) * D := by
  unfold flatIdx
  rw [Nat.add_mul]
  omega

theorem Traced.head_lt {D : Nat} (hD : 0 < D) {t : DPTab} {m i : Nat} {s : List Nat} (h : Traced D t m (i :: s)) : i < D := by
  cases m with
  | zero => simp only [Traced, List.cons.injEq] at h; omega
  | succ m =>
    cases s with
    | nil => simp [Traced] at h
    | cons j s => exact h.1

theorem NPath.head_lt {D : Nat} (hD : 0 < D) {t : DPTab} {m i : Nat} {s : List Nat} (h : NPath D t m (i :: s)) : i < D := by
  cases m with
  | zero => simp only [NPath, List.cons.injEq] at h; omega
  | succ m =>
    cases s with
    | nil => simp [NPath] at h
    | cons j s => exact h.1

theorem Traced.mono {D : Nat} (hD : 0 < D) {t t' : DPTab} : ∀ {m : Nat} {s : List Nat}, Traced D t m s → (∀ q, q < (m + 1) * D → t' q = t q) → Traced D t' m s := by
  intro m
  induction m with
  | zero =>
    intro s h e
    refine ⟨h.1, ?_⟩
    rw [e _ (flat_lt D 0 0 hD)]
    exact h.2
  | succ m ih =>
    intro s h e
    match s, h with
    | j :: i :: s, h =>
      refine ⟨h.1, ?_, ih h.2.2 (fun q hq => e q ?_)⟩
      · rw [e _ (flat_lt D (m + 1) j h.1)]; exact h.2.1
      · rw [Nat.add_mul (m + 1) 1]; omega

theorem NPath.congr {D : Nat} {t t' : DPTab} (hn : ∀ q, (t' q).node = (t q).node) : ∀ {m : Nat} {s : List Nat}, NPath D t m s → NPath D t' m s := by
  intro m
  induction m with
  | zero => intro s h; exact h
  | succ m ih =>
    intro s h
    match s, h with
    | j :: i :: s, h => exact ⟨h.1, by rw [hn]; exact h.2.1, ih h.2.2⟩

/-- what is known of a finished node -/
def NodeOk {σ : Type} (edge : σ → DPTab → Nat → Nat → Int × σ) (D : Nat) (t0 t : DPTab) (m i : Nat) : Prop :=
  ((t (flatIdx D m i)).path = none → (t (flatIdx D m i)).prev = none ∧ ∀ s, ¬ NPath D t0 m (i :: s)) ∧
  ∀ v, (t (flatIdx D m i)).path = some v → ∃ s, NPath D t0 m (i :: s) ∧ Traced D t m (i :: s) ∧
    ∀ w, PureEdge edge t0 w → v = PCost D w m (i :: s) ∧ ∀ s', NPath D t0 m (i :: s') → v ≤ PCost D w m (i :: s') ∧
      (∀ h h', s.head? = some h → s'.head? = some h' → h' < h → v < PCost D w m (i :: s'))

theorem perform_ok {σ : Type} (edge : σ → DPTab → Nat → Nat → Int × σ) (D n : Nat) (hD : 0 < D) (s0 : σ) (t0 : DPTab)
    (hstart : (t0 (flatIdx D 0 0)).path = some 0) (hpath : ∀ q, q ≠ flatIdx D 0 0 → (t0 q).path = none) (hprev : ∀ q, (t0 q).prev = none) :
    ∀ k, k ≤ n + 1 → ∃ st : σ × DPTab,
      (List.range k).foldl (fun st l => (List.range D).foldl (relaxNode edge D (l + 1)) st) (s0, t0) = st ∧
      (∀ q, (st.2 q).node = (t0 q).node) ∧ (∀ q, (k + 1) * D ≤ q → st.2 q = t0 q) ∧ ∀ m i, m ≤ k → i < D → NodeOk edge D t0 st.2 m i := by
  intro k
  induction k with
  | zero =>
    intro _
    refine ⟨(s0, t0), rfl, fun _ => rfl, fun _ _ => rfl, ?_⟩
    intro m i hm hi
    have hm0 : m = 0 := by omega
    subst hm0
    by_cases h0 : i = 0
    · subst h0
      refine ⟨?_, ?_⟩
      · intro h; simp only at h; rw [hstart] at h; cases h
      · intro v hv
        simp only at hv
        rw [hstart] at hv
        cases hv
        refine ⟨[], rfl, ⟨rfl, hprev _⟩, ?_⟩
        intro w _
        exact ⟨rfl, fun s' _ => ⟨by simp [PCost], by simp⟩⟩
    · have hne : flatIdx D 0 i ≠ flatIdx D 0 0 := by unfold flatIdx; omega
      refine ⟨?_, ?_⟩
      · intro _
        refine ⟨hprev _, ?_⟩
        intro s h
        simp only [NPath, List.cons.injEq] at h
        exact h0 h.1
      · intro v hv
        simp only at hv
        rw [hpath _ hne] at hv
        cases hv
  | succ k ih =>
    intro hk
    obtain ⟨st, e, hnode, hrest, hok⟩ := ih (by omega)
    have hlev : ∀ i ∈ List.range D, (st.2 (flatIdx D (k + 1) i)).path = none := by
      intro i hi
      have hge : (k + 1) * D ≤ flatIdx D (k + 1) i := by unfold flatIdx; omega
      have hne : flatIdx D (k + 1) i ≠ flatIdx D 0 0 := by
        intro e
        have := (flat_inj D (k + 1) 0 i 0 (List.mem_range.1 hi) hD e).1
        omega
      rw [hrest _ hge, hpath _ hne]
    obtain ⟨k1, k2, k3⟩ := level_res edge D (k + 1) (by omega) (List.range D) List.nodup_range (fun i hi => List.mem_range.1 hi) st hlev
    refine ⟨(List.range D).foldl (relaxNode edge D (k + 1)) st, by rw [List.range_succ, List.foldl_append, e]; rfl, ?_, ?_, ?_⟩
    · intro q; rw [k2, hnode]
    · intro q hq
      rw [k1, hrest]
      · rw [Nat.add_mul (k + 1) 1] at hq; omega
      · intro i hi e'
        have := flat_lt D (k + 1) i (List.mem_range.1 hi)
        omega
    · intro m i hm hi
      have hlow : ∀ q, q < (k + 1) * D → ((List.range D).foldl (relaxNode edge D (k + 1)) st).2 q = st.2 q := by
        intro q hq
        apply k1
        intro j hj e'
        unfold flatIdx at e'
        omega
      by_cases hmk : m ≤ k
      · obtain ⟨o1, o2⟩ := hok m i hmk hi
        have hle : (m + 1) * D ≤ (k + 1) * D := Nat.mul_le_mul_right _ (by omega)
        have hq := hlow (flatIdx D m i) (by have := flat_lt D m i hi; omega)
        refine ⟨?_, ?_⟩
        · intro h; rw [hq] at h ⊢; exact o1 h
        · intro v hv
          rw [hq] at hv
          obtain ⟨s, n1, n2, n3⟩ := o2 v hv
          exact ⟨s, n1, n2.mono hD (fun q hq' => hlow q (by omega)), n3⟩
      · have hmk' : m = k + 1 := by omega
        subst hmk'
        have hres := k3 i (List.mem_range.2 hi)
        unfold NodeRes at hres
        simp only [Nat.add_sub_cancel] at hres
        have hsp : (st.2 (flatIdx D (k + 1) i)).path = none := hlev i (List.mem_range.2 hi)
        have hsv : (st.2 (flatIdx D (k + 1) i)).prev = none := by
          rw [hrest _ (by unfold flatIdx; omega), hprev]
        rcases hres with ⟨r1, r2⟩ | ⟨r1, ⟨r2, r3⟩ | ⟨j, hj, u, v, b1, b2, b3, b4⟩⟩
        · refine ⟨?_, ?_⟩
          · intro _
            refine ⟨by rw [r2]; exact hsv, ?_⟩
            intro s h
            cases s with
            | nil => simp [NPath] at h
            | cons j s => exact h.2.1 (by rw [← hnode]; exact r1)
          · intro v hv
            rw [r2, hsp] at hv
            cases hv
        · refine ⟨?_, ?_⟩
          · intro _
            refine ⟨by rw [r2]; exact hsv, ?_⟩
            intro s h
            cases s with
            | nil => simp [NPath] at h
            | cons j s =>
              have hjD : j < D := h.2.2.head_lt hD
              exact ((hok k j (Nat.le_refl _) hjD).1 (r3 j hjD)).2 s h.2.2
          · intro v hv
            rw [r2, hsp] at hv
            cases hv
        · refine ⟨?_, ?_⟩
          · intro h; rw [b3] at h; cases h
          · intro v' hv'
            rw [b3] at hv'
            cases hv'
            obtain ⟨s, n1, n2, n3⟩ := (hok k j (Nat.le_refl _) hj).2 u b1
            refine ⟨j :: s, ⟨hi, by rw [← hnode]; exact r1, n1⟩, ⟨hi, b2, n2.mono hD hlow⟩, ?_⟩
            intro w hw
            obtain ⟨c1, c2⟩ := b4 w (hw.trans hnode)
            obtain ⟨d1, d2⟩ := n3 w hw
            refine ⟨by rw [c1, d1]; rfl, ?_⟩
            intro s' h'
            cases s' with
            | nil => simp [NPath] at h'
            | cons j' s' =>
              have hj' : j' < D := h'.2.2.head_lt hD
              have hpj : ∃ u', (st.2 (flatIdx D k j')).path = some u' := by
                cases hp : (st.2 (flatIdx D k j')).path with
                | none => exact absurd h'.2.2 (((hok k j' (Nat.le_refl _) hj').1 hp).2 s')
                | some u' => exact ⟨u', rfl⟩
              obtain ⟨u', hu'⟩ := hpj
              have l1 := c2 j' hj' u' hu'
              obtain ⟨s2, _, _, n3'⟩ := (hok k j' (Nat.le_refl _) hj').2 u' hu'
              have l2 := ((n3' w hw).2 s' h'.2.2).1
              have e1 : PCost D w (k + 1) (i :: j' :: s') = PCost D w k (j' :: s') + w (flatIdx D k j') (flatIdx D (k + 1) i) := rfl
              rw [e1]
              refine ⟨by omega, ?_⟩
              intro a b ha hb hlt
              simp only [List.head?_cons, Option.some.injEq] at ha hb
              subst ha hb
              have := l1.2 hlt
              omega

/-! ### Reading the choice -/

/-- flat indices of a choice without the start -/
def flats (D : Nat) : Nat → List Nat → List Nat
  | m + 1, j :: s => flatIdx D (m + 1) j :: flats D m s
  | _, _ => []

theorem dpWalk_traced (D : Nat) (t : DPTab) : ∀ (m : Nat) (s : List Nat) (j : Nat) (f : Nat), Traced D t m (j :: s) → m ≤ f →
    dpWalk t (f + 1) false (flatIdx D m j) = flats D m (j :: s) := by
  intro m
  induction m with
  | zero =>
    intro s j f h _
    obtain ⟨h1, h2⟩ := h
    simp only [List.cons.injEq] at h1
    rw [h1.1]
    unfold dpWalk
    rw [h2]
    rfl
  | succ m ih =>
    intro s j f h hf
    match s, h with
    | i :: s, h =>
      unfold dpWalk
      rw [h.2.1]
      cases f with
      | zero => omega
      | succ f =>
        simp only [Bool.false_eq_true, if_false]
        rw [ih s i f h.2.2 (by omega)]
        rfl

theorem dpWalk_top (D : Nat) (t : DPTab) (n : Nat) (s : List Nat) (f : Nat) (h : Traced D t (n + 1) (0 :: s)) (hf : n ≤ f) :
    dpWalk t (f + 2) true (flatIdx D (n + 1) 0) = flats D n s := by
  match s, h with
  | i :: s, h =>
    unfold dpWalk
    rw [h.2.1]
    simp only [if_true, List.nil_append]
    exact dpWalk_traced D t n s i f h.2.2 hf

theorem choice_fold (D : Nat) (L : List Nat) : ∀ (f : Nat → Option Nat) (k : Nat), (∀ i ∈ L, i / D ≠ k + 1) →
    L.foldl (fun f i => fun k => if k + 1 = i / D then some (i % D) else f k) f k = f k := by
  induction L with
  | nil => intro f k _; rfl
  | cons i L ih =>
    intro f k h
    rw [List.foldl_cons, ih _ _ (fun j hj => h j (List.mem_cons_of_mem _ hj))]
    have := h i (by simp)
    simp only [ite_eq_right_iff]
    intro e
    exact absurd e.symm this

theorem Traced.length {D : Nat} {t : DPTab} : ∀ {m : Nat} {s : List Nat}, Traced D t m s → s.length = m + 1 := by
  intro m
  induction m with
  | zero => intro s h; rw [h.1]; rfl
  | succ m ih =>
    intro s h
    match s, h with
    | j :: i :: s, h => rw [List.length_cons, ih h.2.2]

theorem flats_level {D : Nat} {t : DPTab} (hD : 0 < D) : ∀ {m : Nat} {s : List Nat}, Traced D t m s → ∀ q ∈ flats D m s, q / D ≤ m := by
  intro m
  induction m with
  | zero => intro s _ q hq; simp [flats] at hq
  | succ m ih =>
    intro s h q hq
    match s, h with
    | j :: i :: s, h =>
      simp only [flats, List.mem_cons] at hq
      rcases hq with e | hq
      · rw [e, flat_div D _ _ h.1]; omega
      · have := ih h.2.2 q hq; omega

/-- the choice read from the walk -/
theorem choice_traced {D : Nat} (hD : 0 < D) {t : DPTab} : ∀ {m : Nat} {s : List Nat}, Traced D t m s → ∀ (f : Nat → Option Nat) (k : Nat),
    (flats D m s).foldl (fun f i => fun k => if k + 1 = i / D then some (i % D) else f k) f k =
      if k < m then s[m - 1 - k]? else f k := by
  intro m
  induction m with
  | zero => intro s _ f k; simp [flats]
  | succ m ih =>
    intro s h f k
    match s, h with
    | j :: i :: s, h =>
      simp only [flats, List.foldl_cons]
      have hrec := ih h.2.2 (fun k => if k + 1 = flatIdx D (m + 1) j / D then some (flatIdx D (m + 1) j % D) else f k) k
      rw [show flats D m (i :: s) = flats D m (i :: s) from rfl, hrec, flat_div D _ _ h.1, flat_mod D _ _ h.1]
      by_cases hk : k < m
      · rw [if_pos hk, if_pos (by omega)]
        have : m + 1 - 1 - k = (m - 1 - k) + 1 := by omega
        rw [this, List.getElem?_cons_succ]
      · rw [if_neg hk]
        by_cases hk2 : k = m
        · rw [hk2, if_pos rfl, if_pos (by omega)]
          simp
        · rw [if_neg (by omega), if_neg (by omega)]

/-! ### The initial table -/

theorem init_inner (D l : Nat) (cs : List Int) : ∀ (b : Nat) (t : DPTab) (q : Nat),
    (((cs.zipIdx b).foldl (fun t cj => t.set (flatIdx D l cj.2)
      { node := some cj.1, path := (t (flatIdx D l cj.2)).path, prev := (t (flatIdx D l cj.2)).prev }) t) q).path = (t q).path ∧
    (((cs.zipIdx b).foldl (fun t cj => t.set (flatIdx D l cj.2)
      { node := some cj.1, path := (t (flatIdx D l cj.2)).path, prev := (t (flatIdx D l cj.2)).prev }) t) q).prev = (t q).prev ∧
    (((cs.zipIdx b).foldl (fun t cj => t.set (flatIdx D l cj.2)
      { node := some cj.1, path := (t (flatIdx D l cj.2)).path, prev := (t (flatIdx D l cj.2)).prev }) t) q).node =
      if flatIdx D l b ≤ q ∧ q < flatIdx D l b + cs.length then cs[q - flatIdx D l b]? else (t q).node := by
  induction cs with
  | nil => intro b t q; refine ⟨rfl, rfl, ?_⟩; rw [if_neg (by simp)]; rfl
  | cons c cs ih =>
    intro b t q
    rw [List.zipIdx_cons, List.foldl_cons]
    obtain ⟨h1, h2, h3⟩ := ih (b + 1) (t.set (flatIdx D l b) { node := some c, path := (t (flatIdx D l b)).path, prev := (t (flatIdx D l b)).prev }) q
    refine ⟨?_, ?_, ?_⟩
    · rw [h1]
      by_cases hq : q = flatIdx D l b
      · rw [hq, set_same]
      · rw [set_other _ _ _ _ hq]
    · rw [h2]
      by_cases hq : q = flatIdx D l b
      · rw [hq, set_same]
      · rw [set_other _ _ _ _ hq]
    · rw [h3]
      have hb : flatIdx D l (b + 1) = flatIdx D l b + 1 := by unfold flatIdx; omega
      rw [hb]
      by_cases hq : q = flatIdx D l b
      · rw [if_neg (by omega), if_pos (by rw [hq]; simp), hq, set_same]
        simp
      · by_cases hr : flatIdx D l b + 1 ≤ q ∧ q < flatIdx D l b + 1 + cs.length
        · rw [if_pos hr, if_pos (by simp only [List.length_cons]; omega)]
          have : q - flatIdx D l b = (q - (flatIdx D l b + 1)) + 1 := by omega
          rw [this, List.getElem?_cons_succ]
        · rw [if_neg hr, if_neg (by simp only [List.length_cons]; omega), set_other _ _ _ _ hq]

theorem init_outer (D : Nat) (costs : List (List Int)) (hlen : ∀ cs ∈ costs, cs.length ≤ D) : ∀ (b : Nat) (t : DPTab),
    let r := (costs.zipIdx b).foldl (fun t ck => ck.1.zipIdx.foldl (fun t cj =>
      t.set (flatIdx D (ck.2 + 1) cj.2) { node := some cj.1, path := (t (flatIdx D (ck.2 + 1) cj.2)).path, prev := (t (flatIdx D (ck.2 + 1) cj.2)).prev }) t) t
    (∀ q, (r q).path = (t q).path ∧ (r q).prev = (t q).prev) ∧
    ∀ l i, i < D → (r (flatIdx D l i)).node =
      if b + 1 ≤ l ∧ l < b + 1 + costs.length ∧ i < (costs.getD (l - (b + 1)) []).length then (costs.getD (l - (b + 1)) [])[i]? else (t (flatIdx D l i)).node := by
  induction costs with
  | nil => intro b t; exact ⟨fun _ => ⟨rfl, rfl⟩, fun l i _ => by simp⟩
  | cons cs costs ih =>
    intro b t
    have ih := ih (fun x hx => hlen x (List.mem_cons_of_mem _ hx)) (b + 1)
    simp only [List.zipIdx_cons, List.foldl_cons] at ih ⊢
    have hin := init_inner D (b + 1) cs 0 t
    generalize ht1 : cs.zipIdx.foldl (fun t cj =>
      t.set (flatIdx D (b + 1) cj.2) { node := some cj.1, path := (t (flatIdx D (b + 1) cj.2)).path, prev := (t (flatIdx D (b + 1) cj.2)).prev }) t = t1 at hin
    obtain ⟨k1, k2⟩ := ih t1
    refine ⟨fun q => ⟨(k1 q).1.trans (hin q).1, (k1 q).2.trans (hin q).2.1⟩, ?_⟩
    intro l i hi
    rw [k2 l i hi]
    have hcl := hlen cs (by simp)
    have hnode := (hin (flatIdx D l i)).2.2
    have hrange : (flatIdx D (b + 1) 0 ≤ flatIdx D l i ∧ flatIdx D l i < flatIdx D (b + 1) 0 + cs.length) ↔ (l = b + 1 ∧ i < cs.length) := by
      constructor
      · rintro ⟨h1, h2⟩
        have hl : l = b + 1 := by
          rw [← flat_div D l i hi]
          have e1 : flatIdx D (b + 1) 0 = (b + 1) * D := by unfold flatIdx; omega
          rw [e1] at h1 h2
          apply Nat.div_eq_of_lt_le
          · omega
          · rw [Nat.add_mul (b + 1) 1]; omega
        subst hl
        unfold flatIdx at h1 h2
        exact ⟨rfl, by omega⟩
      · rintro ⟨rfl, h⟩
        unfold flatIdx
        omega
    rw [hnode]
    by_cases h1 : l = b + 1
    · subst h1
      rw [if_neg (by omega)]
      have hg : (cs :: costs).getD (b + 1 - (b + 1)) [] = cs := by simp
      rw [hg]
      by_cases h2 : i < cs.length
      · rw [if_pos (hrange.2 ⟨rfl, h2⟩), if_pos ⟨Nat.le_refl _, by simp only [List.length_cons]; omega, h2⟩]
        have : flatIdx D (b + 1) i - flatIdx D (b + 1) 0 = i := by unfold flatIdx; omega
        rw [this]
      · rw [if_neg (fun h => h2 (hrange.1 h).2), if_neg (fun h => h2 h.2.2)]
    · have hnr : ¬ (flatIdx D (b + 1) 0 ≤ flatIdx D l i ∧ flatIdx D l i < flatIdx D (b + 1) 0 + cs.length) := fun h => h1 (hrange.1 h).1
      rw [if_neg hnr]
      by_cases h2 : b + 1 + 1 ≤ l
      · have e : l - (b + 1) = (l - (b + 1 + 1)) + 1 := by omega
        rw [e, List.getD_cons_succ]
        simp only [List.length_cons]
        by_cases h3 : b + 1 + 1 ≤ l ∧ l < b + 1 + 1 + costs.length ∧ i < (costs.getD (l - (b + 1 + 1)) []).length
        · rw [if_pos h3, if_pos ⟨by omega, by omega, h3.2.2⟩]
        · rw [if_neg h3, if_neg (fun h => h3 ⟨by omega, by omega, h.2.2⟩)]
      · rw [if_neg (by omega), if_neg (by omega)]

theorem dpInit_spec (D : Nat) (hD : 0 < D) (costs : List (List Int)) (hlen : ∀ cs ∈ costs, cs.length ≤ D) :
    (dpInit D costs (flatIdx D 0 0)).path = some 0 ∧ (∀ q, q ≠ flatIdx D 0 0 → (dpInit D costs q).path = none) ∧
    (∀ q, (dpInit D costs q).prev = none) ∧ (dpInit D costs (flatIdx D (costs.length + 1) 0)).node = some 0 ∧
    ∀ l i, l < costs.length → i < D → (dpInit D costs (flatIdx D (l + 1) i)).node = (costs.getD l [])[i]? := by
  have h := init_outer D costs hlen 0
    (fun i => ⟨if i = flatIdx D 0 0 ∨ i = flatIdx D (costs.length + 1) 0 then some 0 else none, if i = flatIdx D 0 0 then some 0 else none, none⟩)
  simp only at h
  obtain ⟨h1, h2⟩ := h
  unfold dpInit
  refine ⟨?_, ?_, ?_, ?_, ?_⟩
  · rw [(h1 _).1, if_pos rfl]
  · intro q hq; rw [(h1 _).1, if_neg hq]
  · intro q; rw [(h1 _).2]
  · rw [h2 _ _ hD, if_neg (by omega), if_pos (Or.inr rfl)]
  · intro l i hl hi
    rw [h2 _ _ hi]
    simp only [Nat.zero_add, Nat.add_sub_cancel]
    by_cases hc : i < (costs.getD l []).length
    · rw [if_pos ⟨by omega, by omega, hc⟩]
    · rw [if_neg (fun h => hc h.2.2), List.getElem?_eq_none (by omega)]
      rw [if_neg]
      rintro (h | h)
      · have := (flat_inj D _ _ _ _ hi hD h).1; omega
      · have := (flat_inj D _ _ _ _ hi hD h).1; omega

/-! ### Choices and lists of choices -/

theorem npath_iff (D : Nat) (hD : 0 < D) (costs : List (List Int)) (hlen : ∀ cs ∈ costs, cs.length ≤ D) : ∀ m, m ≤ costs.length → ∀ s,
    NPath D (dpInit D costs) m s ↔ ∃ xs : List Nat, s = xs.reverse ++ [0] ∧ xs.length = m ∧
      ∀ (k a : Nat) cs, xs[k]? = some a → costs[k]? = some cs → a < cs.length := by
  obtain ⟨_, _, _, _, hnode⟩ := dpInit_spec D hD costs hlen
  intro m
  induction m with
  | zero =>
    intro _ s
    simp only [NPath]
    constructor
    · rintro rfl; exact ⟨[], rfl, rfl, by simp⟩
    · rintro ⟨xs, rfl, h, _⟩
      rw [List.length_eq_zero_iff.1 h]; rfl
  | succ m ih =>
    intro hm s
    have ih := ih (by omega)
    have hn : ∀ j, j < D → ((dpInit D costs (flatIdx D (m + 1) j)).node ≠ none ↔ j < (costs.getD m []).length) := by
      intro j hj
      rw [hnode m j (by omega) hj, ne_eq, List.getElem?_eq_none_iff]
      omega
    obtain ⟨cs, hcs⟩ : ∃ cs, costs[m]? = some cs := ⟨costs[m], List.getElem?_eq_getElem (by omega)⟩
    have hg : costs.getD m [] = cs := by rw [List.getD_eq_getElem?_getD, hcs]; rfl
    rw [hg] at hn
    constructor
    · intro h
      match s, h with
      | j :: i :: s, h =>
        obtain ⟨xs, e, hl, hx⟩ := (ih (i :: s)).1 h.2.2
        refine ⟨xs ++ [j], by rw [List.reverse_append, List.append_assoc, ← e]; rfl, by simp [hl], ?_⟩
        intro k a cs' hk hc
        rw [List.getElem?_append] at hk
        split at hk
        · exact hx k a cs' hk hc
        · rename_i hkl
          have hkm : k = m := by
            have := (List.getElem?_eq_some_iff.1 hk).1
            simp only [List.length_singleton] at this
            omega
          rw [hkm, hl] at hk
          simp only [Nat.sub_self, List.getElem?_cons_zero, Option.some.injEq] at hk
          rw [hkm, hcs] at hc
          rw [← Option.some.inj hc, ← hk]
          exact (hn j h.1).1 h.2.1
    · rintro ⟨xs, rfl, hl, hx⟩
      have hne : xs ≠ [] := by intro h; rw [h] at hl; cases hl
      obtain ⟨ys, j, rfl⟩ : ∃ ys j, xs = ys ++ [j] := ⟨xs.dropLast, xs.getLast hne, (List.dropLast_concat_getLast hne).symm⟩
      rw [List.length_append, List.length_singleton] at hl
      have hj : j < cs.length := hx m j cs (by rw [List.getElem?_append_right (by omega)]; simp [show m - ys.length = 0 by omega]) hcs
      have hjD : j < D := by
        have := hlen cs (List.mem_of_getElem? hcs)
        omega
      have hp : NPath D (dpInit D costs) m (ys.reverse ++ [0]) := (ih _).2 ⟨ys, rfl, by omega, fun k a cs' hk hc =>
        hx k a cs' (by rw [List.getElem?_append_left (List.getElem?_eq_some_iff.1 hk).1]; exact hk) hc⟩
      rw [List.reverse_append, List.append_assoc]
      show NPath D (dpInit D costs) (m + 1) (j :: (ys.reverse ++ [0]))
      cases hys : ys.reverse ++ [0] with
      | nil => simp at hys
      | cons i s => rw [hys] at hp; exact ⟨hjD, (hn j hjD).2 hj, hp⟩

/-- what the dynamic programming computes -/
theorem dp_choice {σ : Type} (edge : σ → DPTab → Nat → Nat → Int × σ) (D : Nat) (hD : 0 < D) (costs : List (List Int)) (hlen : ∀ cs ∈ costs, cs.length ≤ D)
    (s0 : σ) :
    ((∀ cs ∈ costs, cs ≠ []) → ∃ xs, Selects costs xs ∧
      dpWalk (dpPerform edge D costs.length (s0, dpInit D costs)).2 (costs.length + 2) true (flatIdx D (costs.length + 1) 0) =
        flats D costs.length (xs.reverse ++ [0]) ∧
      (∀ k, dpChoice D (dpWalk (dpPerform edge D costs.length (s0, dpInit D costs)).2 (costs.length + 2) true (flatIdx D (costs.length + 1) 0)) k = xs[k]?) ∧
      ∀ w, PureEdge edge (dpInit D costs) w → ∀ ys, Selects costs ys →
        PCost D w (costs.length + 1) (0 :: (xs.reverse ++ [0])) ≤ PCost D w (costs.length + 1) (0 :: (ys.reverse ++ [0])) ∧
        ∀ a b, xs.getLast? = some a → ys.getLast? = some b → b < a →
          PCost D w (costs.length + 1) (0 :: (xs.reverse ++ [0])) < PCost D w (costs.length + 1) (0 :: (ys.reverse ++ [0]))) ∧
    ((∃ cs ∈ costs, cs = []) →
      ∀ k, dpChoice D (dpWalk (dpPerform edge D costs.length (s0, dpInit D costs)).2 (costs.length + 2) true (flatIdx D (costs.length + 1) 0)) k = none) := by
  obtain ⟨i1, i2, i3, i4, i5⟩ := dpInit_spec D hD costs hlen
  obtain ⟨st, e, hnode, _, hok⟩ := perform_ok edge D costs.length hD s0 (dpInit D costs) i1 i2 i3 (costs.length + 1) (Nat.le_refl _)
  have he : dpPerform edge D costs.length (s0, dpInit D costs) = st := e
  rw [he]
  obtain ⟨o1, o2⟩ := hok (costs.length + 1) 0 (Nat.le_refl _) hD
  have hsel : ∀ s, NPath D (dpInit D costs) (costs.length + 1) (0 :: s) ↔ ∃ xs, s = xs.reverse ++ [0] ∧ Selects costs xs := by
    intro s
    constructor
    · intro h
      cases s with
      | nil => simp [NPath] at h
      | cons i s =>
        obtain ⟨xs, h1, h2, h3⟩ := (npath_iff D hD costs hlen costs.length (Nat.le_refl _) (i :: s)).1 h.2.2
        exact ⟨xs, h1, h2, h3⟩
    · rintro ⟨xs, rfl, h1, h2⟩
      have hp := (npath_iff D hD costs hlen costs.length (Nat.le_refl _) (xs.reverse ++ [0])).2 ⟨xs, rfl, h1, h2⟩
      cases hys : xs.reverse ++ [0] with
      | nil => simp at hys
      | cons i s => rw [hys] at hp; exact ⟨hD, by rw [i4]; simp, hp⟩
  constructor
  · intro hne
    have hzero : Selects costs (List.replicate costs.length 0) := by
      refine ⟨by simp, ?_⟩
      intro k a cs h1 h2
      rw [List.getElem?_replicate] at h1
      split at h1
      · cases h1
        have := hne cs (List.mem_of_getElem? h2)
        exact List.length_pos_iff.2 this
      · cases h1
    cases hp : (st.2 (flatIdx D (costs.length + 1) 0)).path with
    | none => exact absurd ((hsel _).2 ⟨_, rfl, hzero⟩) ((o1 hp).2 _)
    | some v =>
      obtain ⟨s, n1, n2, n3⟩ := o2 v hp
      obtain ⟨xs, hs, hx⟩ := (hsel s).1 n1
      have hw := dpWalk_top D st.2 costs.length s costs.length n2 (Nat.le_refl _)
      refine ⟨xs, hx, by rw [hw, hs], ?_, ?_⟩
      · intro k
        have htr : Traced D st.2 costs.length s := by
          cases s with
          | nil => simp [Traced] at n2
          | cons i s => exact n2.2.2
        rw [hw]
        unfold dpChoice
        rw [choice_traced hD htr]
        have hxl := hx.1
        by_cases hk : k < costs.length
        · rw [if_pos hk, hs, List.getElem?_append_left (by rw [List.length_reverse]; omega), List.getElem?_reverse (by omega)]
          congr 1
          omega
        · rw [if_neg hk, List.getElem?_eq_none (by omega)]
      · intro w hw ys hy
        obtain ⟨c1, c2⟩ := n3 w hw
        obtain ⟨d1, d2⟩ := c2 (ys.reverse ++ [0]) ((hsel _).2 ⟨ys, rfl, hy⟩)
        rw [← hs, ← c1]
        refine ⟨d1, ?_⟩
        intro a b ha hb hlt
        refine d2 a b ?_ ?_ hlt
        · rw [hs, List.head?_append, List.head?_reverse, ha]; rfl
        · rw [List.head?_append, List.head?_reverse, hb]; rfl
  · rintro ⟨cs, hcs, hnil⟩ k
    have hno : ∀ s, ¬ NPath D (dpInit D costs) (costs.length + 1) (0 :: s) := by
      intro s h
      obtain ⟨xs, _, hx⟩ := (hsel s).1 h
      obtain ⟨j, hj⟩ := List.mem_iff_getElem?.1 hcs
      have hjl := (List.getElem?_eq_some_iff.1 hj).1
      have hjx : j < xs.length := by rw [hx.1]; exact hjl
      have := hx.2 j xs[j] cs (List.getElem?_eq_getElem hjx) hj
      rw [hnil] at this
      simp at this
    cases hp : (st.2 (flatIdx D (costs.length + 1) 0)).path with
    | none =>
      have := (o1 hp).1
      unfold dpWalk
      rw [this]
      rfl
    | some v =>
      obtain ⟨s, n1, _⟩ := o2 v hp
      exact absurd n1 (hno s)

end TR
