import Verif.PaRun.Spec
import Verif.PA.Track.Props
namespace TR

/-! ## Executions in any order -/

/-- the steps of one kind, if only one thread has such steps, come in the order of that thread -/
theorem interleave_filter {α : Type} (p : α → Bool) {ts : List (List α)} {es : List α} (h : Interleave ts es) :
    ∀ (j : Nat) (t : List α), ts[j]? = some t → (∀ (k : Nat) (u : List α), k ≠ j → ts[k]? = some u → ∀ x ∈ u, p x = false) →
      es.filter p = t.filter p := by
  induction h with
  | done ts hd =>
    intro j t hj _
    rw [hd t (List.mem_of_getElem? hj)]
  | step ts i x t es hi _ ih =>
    intro j u hj ho
    have hlt : i < ts.length := (List.getElem?_eq_some_iff.mp hi).1
    by_cases hij : i = j
    · subst hij
      rw [hi] at hj
      cases hj
      rw [List.filter_cons, List.filter_cons, ih i t (by rw [List.getElem?_set_self hlt]) ?_]
      intro k v hk hv
      rw [List.getElem?_set_ne (Ne.symm hk)] at hv
      exact ho k v hk hv
    · have hx := ho i _ hij hi x (by simp)
      rw [List.filter_cons, if_neg (by simp [hx])]
      refine ih j u (by rw [List.getElem?_set_ne hij]; exact hj) ?_
      intro k v hk hv
      by_cases hik : i = k
      · subst hik
        rw [List.getElem?_set_self hlt] at hv
        cases hv
        exact fun y hy => ho i _ hk hi y (by simp [hy])
      · rw [List.getElem?_set_ne hik] at hv
        exact ho k v hk hv

/-- a step that no thread has is not in the execution -/
theorem interleave_none {α : Type} (p : α → Bool) {ts : List (List α)} {es : List α} (h : Interleave ts es)
    (hn : ∀ t ∈ ts, ∀ x ∈ t, p x = false) : es.filter p = [] := by
  induction h with
  | done ts _ => rfl
  | step ts i x t es hi _ ih =>
    have hm := List.mem_of_getElem? hi
    rw [List.filter_cons, if_neg (by simp [hn _ hm x (by simp)])]
    refine ih ?_
    intro u hu y hy
    rcases List.mem_or_eq_of_mem_set hu with hu | rfl
    · exact hn u hu y hy
    · exact hn _ hm y (by simp [hy])

theorem push_slot (es : List (PaSlot × AccPt)) (st : PaStore) (s : PaSlot) :
    (es.foldl paPush st) s = st s ++ (es.filter fun e => decide (e.1 = s)).map (·.2) := by
  induction es generalizing st with
  | nil => simp
  | cons e es ih =>
    rw [List.foldl_cons, ih, List.filter_cons]
    by_cases h : s = e.1
    · simp [paPush, h]
    · simp [paPush, h, Ne.symm h]

/-! ## Pin-access objects -/

/-- the design is sound: ids are distinct, the maps keep the classes in some order, the pins of a cell are distinct -/
structure PaDesign.Sound (D : PaDesign) : Prop where
  ids : D.insts.Pairwise (fun a b => a.id ≠ b.id)
  perm : ∀ l, (D.ord l).Perm l
  pins : ∀ b, (D.pins b).Nodup
  cell : ∀ i j, D.key i = D.key j → i.block = j.block
  terms : D.terms.Nodup
  ioPins : ∀ t, (D.ioPins t).Nodup

theorem unique_mem {D : PaDesign} {u : PInst} (hu : u ∈ D.unique) : u ∈ D.insts ∧ repOf D.key D.insts (D.key u) = some u := by
  unfold PaDesign.unique uniqueInsts at hu
  obtain ⟨k, hk, e⟩ := List.mem_filterMap.mp hu
  obtain ⟨h1, h2⟩ := repOf_spec _ _ _ _ e
  exact ⟨h1, by rw [h2]; exact e⟩

theorem unique_pairwise {D : PaDesign} (h : D.Sound) : D.unique.Pairwise (fun a b => a.id ≠ b.id) := by
  unfold PaDesign.unique uniqueInsts
  rw [List.pairwise_filterMap]
  have hn : (D.ord (keysOf D.key D.insts)).Nodup := (h.perm _).nodup_iff.mpr (keysOf_nodup _ _)
  refine List.Pairwise.imp ?_ hn
  intro a b hab u hu v hv e
  obtain ⟨h1, h2⟩ := repOf_spec _ _ _ _ hu
  obtain ⟨h3, h4⟩ := repOf_spec _ _ _ _ hv
  have := id_inj D.insts h.ids u v h1 h3 e
  subst this
  exact hab (h2.symm.trans h4)

theorem rep_unique {D : PaDesign} (h : D.Sound) {i : PInst} (hi : i ∈ D.insts) : ∃ u, repOf D.key D.insts (D.key i) = some u ∧ u ∈ D.unique := by
  obtain ⟨u, hu⟩ := repOf_some D.key D.insts i hi
  refine ⟨u, hu, List.mem_filterMap.mpr ⟨D.key i, (h.perm _).mem_iff.mpr ?_, hu⟩⟩
  have : ∀ l : List PInst, i ∈ l → D.key i ∈ keysOf D.key l := by
    intro l
    induction l with
    | nil => intro h; simp at h
    | cons a l ih =>
      intro hm
      rw [keysOf]
      rcases List.mem_cons.mp hm with rfl | hm
      · split
        · rename_i hc; simpa using hc
        · simp
      · split
        · exact ih hm
        · exact List.mem_cons_of_mem _ (ih hm)
  exact this _ hi

theorem idx_find {D : PaDesign} (h : D.Sound) {u : PInst} (hu : u ∈ D.unique) :
    (paIndices (fun b => !(D.pins b).isEmpty) (fun _ => 0) D.unique).find? (fun e => e.1 == u.id) = some (u.id, D.idx u) := by
  obtain ⟨n, e, _⟩ := paIndices_find (fun b => !(D.pins b).isEmpty) D.unique (fun _ => 0) (unique_pairwise h) u hu
  unfold PaDesign.idx
  rw [e]; rfl

/-- two unique instances of a cell with pins have different pin-access objects -/
theorem paSlot_inj {D : PaDesign} (h : D.Sound) {u v : PInst} (hu : u ∈ D.unique) (hv : v ∈ D.unique) (hb : u.block = v.block)
    {k : Nat} (hk : k ∈ D.pins u.block) (e : D.idx u = D.idx v) : u = v := by
  refine id_inj D.insts h.ids u v (unique_mem hu).1 (unique_mem hv).1 ?_
  refine paIndices_inj (fun b => !(D.pins b).isEmpty) D.unique (fun _ => 0) (unique_pairwise h) u hu v hv hb ?_ (D.idx u) (idx_find h hu) ?_
  · cases hp : D.pins u.block with
    | nil => rw [hp] at hk; simp at hk
    | cons a l => rfl
  · rw [e]; exact idx_find h hv

theorem paIdx_rep {D : PaDesign} (h : D.Sound) {i u : PInst} (hr : repOf D.key D.insts (D.key i) = some u) (hu : u ∈ D.unique) :
    paIdx (fun b => !(D.pins b).isEmpty) D.key D.ord D.insts i = some (D.idx u) := by
  unfold paIdx
  rw [hr]
  show ((paIndices (fun b => !(D.pins b).isEmpty) (fun _ => 0) D.unique).find? (fun e => e.1 == u.id)).map (·.2) = _
  rw [idx_find h hu]; rfl

theorem cellTask_slot {D : PaDesign} {u : PInst} {e : PaSlot × AccPt} (he : e ∈ D.cellTask u) :
    ∃ k ∈ D.pins u.block, e.1 = .cell u.block k (D.idx u) := by
  unfold PaDesign.cellTask at he
  split at he
  · obtain ⟨k, hk, he⟩ := List.mem_flatMap.mp he
    obtain ⟨p, _, rfl⟩ := List.mem_map.mp he
    exact ⟨k, (List.mem_filter.mp hk).1, rfl⟩
  · simp at he

theorem ioTask_slot {D : PaDesign} {t : Nat} {e : PaSlot × AccPt} (he : e ∈ D.ioTask t) : ∃ k, e.1 = .io t k := by
  unfold PaDesign.ioTask at he
  split at he
  · obtain ⟨k, hk, he⟩ := List.mem_flatMap.mp he
    obtain ⟨p, _, rfl⟩ := List.mem_map.mp he
    exact ⟨k, rfl⟩
  · simp at he

/-- Rounds of the loops that may run at the same time never write the points of the same pin. -/
theorem c171_no_race {D : PaDesign} (h : D.Sound) :
    (∀ (i j : Nat) (u v : PInst), i ≠ j → D.unique[i]? = some u → D.unique[j]? = some v → ∀ e ∈ D.cellTask u, ∀ f ∈ D.cellTask v, e.1 ≠ f.1) ∧
    (∀ (i j : Nat) (s t : Nat), i ≠ j → D.terms[i]? = some s → D.terms[j]? = some t → ∀ e ∈ D.ioTask s, ∀ f ∈ D.ioTask t, e.1 ≠ f.1) := by
  constructor
  · intro i j u v hij hu hv e he f hf eq
    obtain ⟨k, hk, h1⟩ := cellTask_slot he
    obtain ⟨k', hk', h2⟩ := cellTask_slot hf
    rw [h1, h2] at eq
    simp only [PaSlot.cell.injEq] at eq
    have := paSlot_inj h (List.mem_of_getElem? hu) (List.mem_of_getElem? hv) eq.1 hk eq.2.2
    subst this
    obtain ⟨li, hi⟩ := List.getElem?_eq_some_iff.mp hu
    obtain ⟨lj, hj⟩ := List.getElem?_eq_some_iff.mp hv
    have hp := List.pairwise_iff_getElem.mp (unique_pairwise h)
    rcases Nat.lt_or_gt_of_ne hij with hlt | hlt
    · exact hp i j li lj hlt (by rw [hi, hj])
    · exact hp j i lj li hlt (by rw [hi, hj])
  · intro i j s t hij hs ht e he f hf eq
    obtain ⟨k, h1⟩ := ioTask_slot he
    obtain ⟨k', h2⟩ := ioTask_slot hf
    rw [h1, h2] at eq
    simp only [PaSlot.io.injEq] at eq
    obtain ⟨rfl, _⟩ := eq
    obtain ⟨li, hi⟩ := List.getElem?_eq_some_iff.mp hs
    obtain ⟨lj, hj⟩ := List.getElem?_eq_some_iff.mp ht
    have hp := List.pairwise_iff_getElem.mp h.terms
    rcases Nat.lt_or_gt_of_ne hij with hlt | hlt
    · exact hp i j li lj hlt (by rw [hi, hj])
    · exact hp j i lj li hlt (by rw [hi, hj])

theorem flatMap_filter_one {α β : Type} [DecidableEq α] (ks : List α) (hk : ks.Nodup) (k : α) (hm : k ∈ ks) (f : α → List β) (p : β → Bool)
    (h1 : ∀ x ∈ f k, p x = true) (h2 : ∀ k' ∈ ks, k' ≠ k → ∀ x ∈ f k', p x = false) : (ks.flatMap f).filter p = f k := by
  induction ks with
  | nil => simp at hm
  | cons a ks ih =>
    have hk' := List.nodup_cons.mp hk
    rw [List.flatMap_cons, List.filter_append]
    rcases List.mem_cons.mp hm with rfl | hm
    · rw [List.filter_eq_self.mpr h1, List.filter_eq_nil_iff.mpr, List.append_nil]
      intro x hx
      obtain ⟨k', hk1, hx⟩ := List.mem_flatMap.mp hx
      have : k' ≠ k := fun e => hk'.1 (e ▸ hk1)
      simp [h2 k' (by simp [hk1]) this x hx]
    · have : a ≠ k := fun e => hk'.1 (e ▸ hm)
      rw [List.filter_eq_nil_iff.mpr (fun x hx => by simp [h2 a (by simp) this x hx]), List.nil_append,
        ih hk'.2 hm (fun k' hk1 => h2 k' (by simp [hk1]))]

theorem cellTask_filter {D : PaDesign} (h : D.Sound) (u : PInst) (k : Nat) (hk : k ∈ D.pins u.block) :
    ((D.cellTask u).filter fun e => decide (e.1 = PaSlot.cell u.block k (D.idx u))).map (·.2) =
      if D.routed u.block = true ∧ D.signal u.block k = true then D.found u k else [] := by
  unfold PaDesign.cellTask
  by_cases hr : D.routed u.block
  · rw [if_pos hr]
    by_cases hs : D.signal u.block k = true
    · rw [if_pos ⟨hr, hs⟩, flatMap_filter_one _ ((h.pins u.block).filter _) k (List.mem_filter.mpr ⟨hk, hs⟩)]
      · rw [List.map_map]; exact List.map_id _
      · simp
      · intro k' _ hne x hx
        obtain ⟨p, _, rfl⟩ := List.mem_map.mp hx
        simp [hne]
    · rw [if_neg (fun hc => hs hc.2), List.filter_eq_nil_iff.mpr]
      · rfl
      · intro x hx
        obtain ⟨k', hk', hx⟩ := List.mem_flatMap.mp hx
        obtain ⟨p, _, rfl⟩ := List.mem_map.mp hx
        have : k' ≠ k := fun e => hs (e ▸ (List.mem_filter.mp hk').2)
        simp [this]
  · rw [if_neg hr, if_neg (fun hc => hr hc.1)]; rfl

theorem ioTask_filter {D : PaDesign} (h : D.Sound) (t k : Nat) (hk : k ∈ D.ioPins t) :
    ((D.ioTask t).filter fun e => decide (e.1 = PaSlot.io t k)).map (·.2) = if D.ioUsed t = true then D.ioFound t k else [] := by
  unfold PaDesign.ioTask
  by_cases hr : D.ioUsed t = true
  · rw [if_pos hr, if_pos hr, flatMap_filter_one _ (h.ioPins t) k hk]
    · rw [List.map_map]; exact List.map_id _
    · simp
    · intro k' _ hne x hx
      obtain ⟨p, _, rfl⟩ := List.mem_map.mp hx
      simp [hne]
  · rw [if_neg hr, if_neg hr]; rfl

/-- moving back changes the points of a pin once -/
theorem revert_slot {D : PaDesign} (h : D.Sound) (st : PaStore) {u : PInst} (hu : u ∈ D.unique) {k : Nat} (hk : k ∈ D.pins u.block) :
    D.revert st (.cell u.block k (D.idx u)) = (st (.cell u.block k (D.idx u))).map fun a => a.shift (-u.origin.x) (-u.origin.y) := by
  classical
  have key : ∀ (l : List (PInst × Nat)) (st : PaStore), l.Nodup → (∀ e ∈ l, e.1 ∈ D.unique ∧ e.2 ∈ D.pins e.1.block) →
      (l.foldl D.revertPin st) (.cell u.block k (D.idx u)) =
        if (u, k) ∈ l then (st (.cell u.block k (D.idx u))).map (fun a => a.shift (-u.origin.x) (-u.origin.y)) else st (.cell u.block k (D.idx u)) := by
    intro l
    induction l with
    | nil => intro st _ _; simp
    | cons e l ih =>
      intro st hn hl
      have hn' := List.nodup_cons.mp hn
      rw [List.foldl_cons, ih _ hn'.2 (fun x hx => hl x (by simp [hx]))]
      by_cases he : e = (u, k)
      · subst he
        rw [if_neg hn'.1, if_pos (by simp)]
        simp [PaDesign.revertPin]
      · have hne : PaSlot.cell u.block k (D.idx u) ≠ .cell e.1.block e.2 (D.idx e.1) := by
          intro eq
          simp only [PaSlot.cell.injEq] at eq
          have := paSlot_inj h hu (hl e (by simp)).1 eq.1 hk eq.2.2
          exact he (Prod.ext this.symm eq.2.1.symm)
        have hr : D.revertPin st e (.cell u.block k (D.idx u)) = st (.cell u.block k (D.idx u)) := by
          unfold PaDesign.revertPin
          rw [if_neg hne]
        rw [hr]
        by_cases hm : (u, k) ∈ l
        · rw [if_pos hm, if_pos (by simp [hm])]
        · rw [if_neg hm, if_neg (by simp [hm, Ne.symm he])]
  unfold PaDesign.revert
  rw [key, if_pos]
  · exact List.mem_flatMap.mpr ⟨u, hu, List.mem_map.mpr ⟨k, hk, rfl⟩⟩
  · have hup : D.unique.Nodup := (unique_pairwise h).imp (fun hab e => hab (by rw [e]))
    rw [List.nodup_iff_pairwise_ne, List.pairwise_flatMap]
    refine ⟨?_, ?_⟩
    · intro u _
      rw [List.pairwise_map]
      exact (h.pins u.block).imp (fun hab e => hab (by simpa using e))
    · refine hup.imp ?_
      intro a b hab x hx y hy e
      obtain ⟨k1, _, rfl⟩ := List.mem_map.mp hx
      obtain ⟨k2, _, rfl⟩ := List.mem_map.mp hy
      exact hab (by simpa using (congrArg Prod.fst e))
  · intro e he
    obtain ⟨v, hv, he⟩ := List.mem_flatMap.mp he
    obtain ⟨k', hk', rfl⟩ := List.mem_map.mp he
    exact ⟨hv, hk'⟩

theorem revert_io {D : PaDesign} (st : PaStore) (t k : Nat) : D.revert st (.io t k) = st (.io t k) := by
  unfold PaDesign.revert
  generalize (D.unique.flatMap fun u => (D.pins u.block).map fun k => (u, k)) = l
  induction l generalizing st with
  | nil => rfl
  | cons e l ih =>
    rw [List.foldl_cons, ih]
    unfold PaDesign.revertPin
    rw [if_neg (by simp)]

theorem shift_shift (a : AccPt) (u i : PInst) : (a.shift (-u.origin.x) (-u.origin.y)).shift i.origin.x i.origin.y = { a with pt := movePoint u i a.pt } := by
  unfold AccPt.shift movePoint
  simp [Int.sub_eq_add_neg]

/-- Whatever the order in which the threads work, the access points of a pin of an instance are those found for the
representative of its class, moved to the instance; an instance of a cell of another class, and a pin of a supply
terminal, has none. A pin of a terminal of the block has the points found for it. -/
theorem c171_points {D : PaDesign} (h : D.Sound) {st : PaStore} (hr : D.Run st) :
    (∀ i ∈ D.insts, ∃ u ∈ D.insts, repOf D.key D.insts (D.key i) = some u ∧ D.key u = D.key i ∧ ∀ k ∈ D.pins i.block,
      D.access st i k = if D.routed i.block = true ∧ D.signal i.block k = true then (D.found u k).map (fun a => { a with pt := movePoint u i a.pt }) else []) ∧
    (∀ t ∈ D.terms, ∀ k ∈ D.ioPins t, st (.io t k) = if D.ioUsed t = true then D.ioFound t k else []) := by
  obtain ⟨es, fs, he, hf, rfl⟩ := hr
  constructor
  · intro i hi
    obtain ⟨u, hu, hmem⟩ := rep_unique h hi
    obtain ⟨h1, h2⟩ := repOf_spec _ _ _ _ hu
    refine ⟨u, h1, hu, h2, ?_⟩
    intro k hk
    have hb := h.cell u i h2
    unfold PaDesign.access
    rw [paIdx_rep h hu hmem]
    simp only
    rw [← hb] at hk ⊢
    rw [revert_slot h _ hmem hk, push_slot, List.filter_append, List.nil_append]
    have hfs : fs.filter (fun e => decide (e.1 = PaSlot.cell u.block k (D.idx u))) = [] := by
      refine interleave_none _ hf ?_
      intro t ht x hx
      obtain ⟨s, _, rfl⟩ := List.mem_map.mp ht
      obtain ⟨k', e⟩ := ioTask_slot hx
      simp [e]
    obtain ⟨j, hj, ej⟩ := List.mem_iff_getElem.mp hmem
    have hes : es.filter (fun e => decide (e.1 = PaSlot.cell u.block k (D.idx u))) =
        (D.cellTask u).filter (fun e => decide (e.1 = PaSlot.cell u.block k (D.idx u))) := by
      refine interleave_filter _ he j (D.cellTask u) (by rw [List.getElem?_map, List.getElem?_eq_getElem hj, ej]; rfl) ?_
      intro m v hm hv x hx
      rw [List.getElem?_map] at hv
      obtain ⟨w, hw, rfl⟩ := Option.map_eq_some_iff.mp hv
      obtain ⟨k', hk', e⟩ := cellTask_slot hx
      rw [e]
      simp only [decide_eq_false_iff_not, PaSlot.cell.injEq]
      rintro ⟨e1, _, e3⟩
      have hwm := List.mem_of_getElem? hw
      have := paSlot_inj h hwm hmem e1 hk' e3
      subst this
      obtain ⟨lm, hm'⟩ := List.getElem?_eq_some_iff.mp hw
      have hp := List.pairwise_iff_getElem.mp (unique_pairwise h)
      rcases Nat.lt_or_gt_of_ne hm with hlt | hlt
      · exact hp m j lm hj hlt (by rw [hm', ej])
      · exact hp j m hj lm hlt (by rw [hm', ej])
    rw [hfs, hes, List.append_nil, cellTask_filter h u k hk]
    split
    · rw [List.map_map]
      refine List.map_congr_left (fun a _ => ?_)
      exact shift_shift a u i
    · rfl
  · intro t ht k hk
    rw [revert_io, push_slot, List.filter_append, List.nil_append]
    have hes : es.filter (fun e => decide (e.1 = PaSlot.io t k)) = [] := by
      refine interleave_none _ he ?_
      intro v hv x hx
      obtain ⟨s, _, rfl⟩ := List.mem_map.mp hv
      obtain ⟨k', _, e⟩ := cellTask_slot hx
      simp [e]
    obtain ⟨j, hj, ej⟩ := List.mem_iff_getElem.mp ht
    have hfs : fs.filter (fun e => decide (e.1 = PaSlot.io t k)) = (D.ioTask t).filter (fun e => decide (e.1 = PaSlot.io t k)) := by
      refine interleave_filter _ hf j (D.ioTask t) (by rw [List.getElem?_map, List.getElem?_eq_getElem hj, ej]; rfl) ?_
      intro m v hm hv x hx
      rw [List.getElem?_map] at hv
      obtain ⟨w, hw, rfl⟩ := Option.map_eq_some_iff.mp hv
      obtain ⟨k', e⟩ := ioTask_slot hx
      rw [e]
      simp only [decide_eq_false_iff_not, PaSlot.io.injEq]
      rintro ⟨rfl, _⟩
      obtain ⟨lm, hm'⟩ := List.getElem?_eq_some_iff.mp hw
      have hp := List.pairwise_iff_getElem.mp h.terms
      rcases Nat.lt_or_gt_of_ne hm with hlt | hlt
      · exact hp m j lm hj hlt (by rw [hm', ej])
      · exact hp j m hj lm hlt (by rw [hm', ej])
    rw [hes, hfs, List.nil_append, ioTask_filter h t k hk]

/-- Two runs of the same design give every pin of every instance the same access points. -/
theorem c171_deterministic {D : PaDesign} (h : D.Sound) {st st' : PaStore} (hr : D.Run st) (hr' : D.Run st') :
    (∀ i ∈ D.insts, ∀ k ∈ D.pins i.block, D.access st i k = D.access st' i k) ∧
    (∀ t ∈ D.terms, ∀ k ∈ D.ioPins t, st (.io t k) = st' (.io t k)) := by
  obtain ⟨a1, a2⟩ := c171_points h hr
  obtain ⟨b1, b2⟩ := c171_points h hr'
  constructor
  · intro i hi k hk
    obtain ⟨u, _, e1, _, h1⟩ := a1 i hi
    obtain ⟨v, _, e2, _, h2⟩ := b1 i hi
    rw [e1] at e2; cases e2
    rw [h1 k hk, h2 k hk]
  · intro t ht k hk
    rw [a2 t ht k hk, b2 t ht k hk]

/-! ## Counters -/

theorem interleave_length {α : Type} {ts : List (List α)} {es : List α} (h : Interleave ts es) : es.Perm ts.flatten := by
  induction h with
  | done ts hd =>
    have : ts.flatten = [] := by rw [List.flatten_eq_nil_iff]; exact hd
    rw [this]
  | step ts i x t es hi _ ih =>
    obtain ⟨hlt, he⟩ := List.getElem?_eq_some_iff.mp hi
    refine (ih.cons x).trans ?_
    have h1 : ts = ts.take i ++ (x :: t) :: ts.drop (i + 1) := by
      rw [← he, List.getElem_cons_drop, List.take_append_drop]
    have h2 : ts.set i t = ts.take i ++ t :: ts.drop (i + 1) := List.set_eq_take_append_cons_drop .. |>.trans (by rw [if_pos hlt])
    rw [h2]
    conv => rhs; rw [h1]
    rw [List.flatten_append, List.flatten_append, List.flatten_cons, List.flatten_cons]
    exact List.perm_middle.symm

theorem cnt_fold (es : List CntStep) (s : CntState) (h : ∀ e ∈ es, e = .atomic) : (es.foldl cntStep s).cnt = s.cnt + es.length := by
  induction es generalizing s with
  | nil => rfl
  | cons e es ih =>
    rw [List.foldl_cons, ih _ (fun x hx => h x (by simp [hx])), h e (by simp)]
    simp [cntStep]; omega

def CntStep.isStore : CntStep → Bool
  | .store _ => true
  | _ => false

theorem plain_le (es : List CntStep) (s : CntState) (B : Nat) (hc : s.cnt ≤ B) (hr : ∀ t, s.reg t ≤ B) (ha : ∀ e ∈ es, e ≠ .atomic) :
    (es.foldl cntStep s).cnt ≤ B + es.countP CntStep.isStore := by
  induction es generalizing s B with
  | nil => simpa using hc
  | cons e es ih =>
    rw [List.foldl_cons, List.countP_cons]
    cases e with
    | load t =>
      have := ih (cntStep s (.load t)) B hc (by
        intro u; simp only [cntStep]; split
        · exact hc
        · exact hr u) (fun x hx => ha x (by simp [hx]))
      simpa [CntStep.isStore] using this
    | store t =>
      have := ih (cntStep s (.store t)) (B + 1) (by simp only [cntStep]; have := hr t; omega) (fun u => by
        simp only [cntStep]; have := hr u; omega) (fun x hx => ha x (by simp [hx]))
      simp only [CntStep.isStore, if_true]
      omega
    | atomic => exact absurd rfl (ha _ (by simp))

theorem plain_pos (es : List CntStep) (s : CntState) (h : 1 ≤ s.cnt ∨ ∃ t, CntStep.store t ∈ es) : 1 ≤ (es.foldl cntStep s).cnt := by
  induction es generalizing s with
  | nil => simpa using h
  | cons e es ih =>
    rw [List.foldl_cons]
    refine ih _ ?_
    rcases h with h | ⟨t, h⟩
    · left
      cases e <;> simp [cntStep] <;> omega
    · rcases List.mem_cons.mp h with rfl | h
      · left; simp [cntStep]
      · exact Or.inr ⟨t, h⟩

theorem plainIncs_stores (t n : Nat) : (plainIncs t n).countP CntStep.isStore = n := by
  unfold plainIncs
  induction n with
  | zero => rfl
  | succ n ih => rw [List.replicate_succ, List.flatten_cons, List.countP_append, ih]; simp [CntStep.isStore]; omega

theorem plainIncs_fold (t n : Nat) (s : CntState) : ((plainIncs t n).foldl cntStep s).cnt = s.cnt + n := by
  unfold plainIncs
  induction n generalizing s with
  | zero => rfl
  | succ n ih =>
    rw [List.replicate_succ, List.flatten_cons, List.foldl_append, ih]
    simp [cntStep]; omega

theorem plainIncs_atomic {t n : Nat} {e : CntStep} (h : e ∈ plainIncs t n) : e ≠ .atomic := by
  unfold plainIncs at h
  obtain ⟨l, hl, he⟩ := List.mem_flatten.mp h
  rw [List.eq_of_mem_replicate hl] at he
  rintro rfl
  simp at he

/-- the threads of a loop, each with the number of times it adds one -/
def plainThreads : List Nat → Nat → List (List CntStep)
  | [], _ => []
  | n :: ns, t => plainIncs t n :: plainThreads ns (t + 1)

theorem plainThreads_stores (ns : List Nat) (t : Nat) : (plainThreads ns t).flatten.countP CntStep.isStore = ns.sum := by
  induction ns generalizing t with
  | nil => rfl
  | cons n ns ih => rw [plainThreads, List.flatten_cons, List.countP_append, plainIncs_stores, ih]; simp

theorem plainThreads_atomic (ns : List Nat) (t : Nat) : ∀ e ∈ (plainThreads ns t).flatten, e ≠ .atomic := by
  induction ns generalizing t with
  | nil => intro e h; simp [plainThreads] at h
  | cons n ns ih =>
    intro e h
    rw [plainThreads, List.flatten_cons, List.mem_append] at h
    rcases h with h | h
    · exact plainIncs_atomic h
    · exact ih _ e h

theorem interleave_one {α : Type} {l es : List α} (h : Interleave [l] es) : es = l := by
  have := interleave_filter (fun _ => true) h 0 l rfl (by
    intro k u hk hu
    cases k with
    | zero => exact absurd rfl hk
    | succ k => simp at hu)
  rwa [List.filter_eq_self.mpr (fun _ _ => rfl), List.filter_eq_self.mpr (fun _ _ => rfl)] at this

/-- The numbers of access points, which are counted under `omp atomic`, are exact in every execution. -/
theorem c172_atomic (ns : List Nat) (es : List CntStep) (h : Interleave (ns.map atomicIncs) es) : cntAfter es = ns.sum := by
  have hp := interleave_length h
  have hall : ∀ e ∈ es, e = .atomic := by
    intro e he
    obtain ⟨l, hl, he⟩ := List.mem_flatten.mp (hp.mem_iff.mp he)
    obtain ⟨n, _, rfl⟩ := List.mem_map.mp hl
    exact List.eq_of_mem_replicate he
  unfold cntAfter
  rw [cnt_fold es _ hall, hp.length_eq]
  have : ∀ l : List Nat, (l.map atomicIncs).flatten.length = l.sum := by
    intro l
    induction l with
    | nil => rfl
    | cons n l ih => rw [List.map_cons, List.flatten_cons, List.length_append, ih]; simp [atomicIncs]
  rw [this ns]; simp

/-- The number of pins without access points, which is counted by a plain increment, is exact with one thread. With
more it is never too high, and not zero if there is such a pin. -/
theorem c172_plain_partial (ns : List Nat) (es : List CntStep) (h : Interleave (plainThreads ns 0) es) :
    cntAfter es ≤ ns.sum ∧ (0 < ns.sum → 0 < cntAfter es) ∧ (ns.length = 1 → cntAfter es = ns.sum) := by
  have hp := interleave_length h
  refine ⟨?_, ?_, ?_⟩
  · have := plain_le es ⟨0, fun _ => 0⟩ 0 (by simp) (by simp) (fun e he => plainThreads_atomic ns 0 e (hp.mem_iff.mp he))
    rw [hp.countP_eq, plainThreads_stores] at this
    simpa [cntAfter] using this
  · intro hpos
    refine plain_pos es _ (Or.inr ?_)
    have : 0 < es.countP CntStep.isStore := by rw [hp.countP_eq, plainThreads_stores]; exact hpos
    obtain ⟨e, he, hs⟩ := List.countP_pos_iff.mp this
    cases e with
    | store t => exact ⟨t, he⟩
    | load t => simp [CntStep.isStore] at hs
    | atomic => simp [CntStep.isStore] at hs
  · intro hl
    match ns, hl with
    | [n], _ =>
      have := interleave_one h
      rw [this]
      unfold cntAfter
      rw [plainIncs_fold]; simp

/-- With two threads the number can be too low: two pins without access points are counted as one. -/
theorem c172_lost : ∃ es, Interleave (plainThreads [1, 1] 0) es ∧ cntAfter es = 1 := by
  refine ⟨[.load 0, .load 1, .store 0, .store 1], ?_, by decide⟩
  refine .step _ 0 _ [.store 0] _ rfl ?_
  refine .step _ 1 _ [.store 1] _ rfl ?_
  refine .step _ 0 _ [] _ rfl ?_
  refine .step _ 1 _ [] _ rfl ?_
  exact .done _ (by decide)

/-! ## A case -/

def exAcc (x y : Int) : AccPt := ⟨⟨x, y⟩, 2, true, false, false, false, true, 0, 0, [0]⟩

/-- two instances of one cell in one class, and one of a cell of another class -/
def exPa : PaDesign where
  insts := [⟨1, 7, .R0, ⟨0, 0⟩, ⟨⟨0, 0⟩, ⟨10, 10⟩⟩⟩, ⟨2, 7, .R0, ⟨100, 20⟩, ⟨⟨100, 20⟩, ⟨110, 30⟩⟩⟩, ⟨3, 8, .R0, ⟨0, 0⟩, ⟨⟨0, 0⟩, ⟨10, 10⟩⟩⟩]
  key := fun i => (i.block, i.orient, [])
  ord := id
  routed := fun b => b == 7
  pins := fun _ => [0, 1]
  signal := fun _ k => k == 0
  found := fun u k => if u.id = 1 ∧ k = 0 then [exAcc 3 4, exAcc 5 6] else [exAcc 1 1]
  terms := [0]
  ioUsed := fun _ => true
  ioPins := fun _ => [0]
  ioFound := fun _ _ => [exAcc 50 60]

theorem exPa_sound : exPa.Sound where
  ids := by decide
  perm := fun l => List.Perm.refl l
  pins := fun _ => (by decide : [0, 1].Nodup)
  cell := by intro i j h; exact (by simpa [exPa] using h : _ ∧ _).1
  terms := by decide
  ioPins := fun _ => (by decide : [0].Nodup)

/-- the classes of the code tell cells apart -/
example (range : Nat → Int × Int) (prefs : List PTrack) (i j : PInst) (h : classKey range prefs i = classKey range prefs j) : i.block = j.block :=
  congrArg Prod.fst h

example : exPa.Run (exPa.revert ([(.cell 7 0 0, exAcc 3 4), (.cell 7 0 0, exAcc 5 6), (.io 0 0, exAcc 50 60)].foldl paPush fun _ => [])) := by
  refine ⟨[(.cell 7 0 0, exAcc 3 4), (.cell 7 0 0, exAcc 5 6)], [(.io 0 0, exAcc 50 60)], ?_, ?_, rfl⟩
  · have : exPa.unique.map exPa.cellTask = [[(.cell 7 0 0, exAcc 3 4), (.cell 7 0 0, exAcc 5 6)], []] := by decide +kernel
    rw [this]
    exact .step _ 0 _ _ _ rfl (.step _ 0 _ _ _ rfl (.done _ (by decide)))
  · exact .step _ 0 _ [] _ rfl (.done _ (by decide))

example : exPa.access (exPa.revert ([(.cell 7 0 0, exAcc 3 4), (.cell 7 0 0, exAcc 5 6), (.io 0 0, exAcc 50 60)].foldl paPush fun _ => []))
    ⟨2, 7, .R0, ⟨100, 20⟩, ⟨⟨100, 20⟩, ⟨110, 30⟩⟩⟩ 0 = [exAcc 103 24, exAcc 105 26] := by decide +kernel

end TR
