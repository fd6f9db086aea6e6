import Verif.Conn.MergeLemmas
/-! Merging, from one track to the whole net. -/
namespace TR

theorem foldl_set_get (L : List Nat) : ∀ (o : List (Option CWire)) (i : Nat),
    (L.foldl (fun o v => o.set v none) o)[i]? = if i ∈ L then (o[i]?).map (fun _ => none) else o[i]? := by
  induction L with
  | nil => simp
  | cons a t ih =>
    intro o i
    rw [List.foldl_cons, ih]
    by_cases h : a = i
    · subst h
      simp only [List.getElem?_set_self', List.mem_cons, true_or, if_true]
      split <;> cases o[a]? <;> simp
    · rw [List.getElem?_set_ne h]
      simp [Ne.symm h]

theorem foldl_modify_get (k : TrackKey) (Z : List (Nat × (Int × Int))) : ∀ (o : List (Option CWire)) (i : Nat),
    (Z.map Prod.fst).Nodup →
    (Z.foldl (fun o vs => o.modify vs.1 (fun w => w.map (·.setSpan k vs.2))) o)[i]? =
      match Z.find? (fun z => z.1 == i) with
      | some z => (o[i]?).map (fun w => w.map (·.setSpan k z.2))
      | none => o[i]? := by
  induction Z with
  | nil => simp
  | cons a t ih =>
    intro o i hnd
    rw [List.map_cons, List.nodup_cons] at hnd
    rw [List.foldl_cons, ih _ _ hnd.2, List.find?_cons]
    by_cases h : a.1 = i
    · have hb : (a.1 == i) = true := by simp [h]
      rw [hb]
      have hn : t.find? (fun z => z.1 == i) = none := by
        rw [List.find?_eq_none]
        intro z hz hc
        apply hnd.1
        rw [h, List.mem_map]
        exact ⟨z, hz, by simpa using hc⟩
      rw [hn]
      simp only
      rw [← h, List.getElem?_modify]; simp
    · have hb : (a.1 == i) = false := by simp [h]
      rw [hb]
      have hm : (o.modify a.1 (fun w => w.map (·.setSpan k a.2)))[i]? = o[i]? := by
        rw [List.getElem?_modify]; simp [h]
      rw [hm]

/-- effect of committing one track on one entry -/
def commitAt (k : TrackKey) (vs : List Nat) (sps : List (Int × Int)) (i : Nat)
    (x : Option (Option CWire)) : Option (Option CWire) :=
  if i ∈ vs.drop sps.length then x.map (fun _ => none)
  else match (vs.zip sps).find? (fun z => z.1 == i) with
    | some z => x.map (fun w => w.map (·.setSpan k z.2))
    | none => x

theorem zip_fst (vs : List Nat) (sps : List (Int × Int)) : (vs.zip sps).map Prod.fst = vs.take sps.length := by
  induction vs generalizing sps with
  | nil => simp
  | cons a t ih => cases sps with
    | nil => simp
    | cons b r => simp [ih]

theorem mergeCommit_get (o : List (Option CWire)) (k : TrackKey) {vs : List Nat} (sps : List (Int × Int))
    (hnd : vs.Nodup) (i : Nat) : (mergeCommit o k vs sps)[i]? = commitAt k vs sps i (o[i]?) := by
  have hz : ((vs.zip sps).map Prod.fst).Nodup := by rw [zip_fst]; exact (List.take_sublist _ _).nodup hnd
  unfold mergeCommit commitAt
  simp only
  rw [foldl_set_get, foldl_modify_get k _ o i hz]
  by_cases h : i ∈ vs.drop sps.length
  · rw [if_pos h, if_pos h]
    have hn : (vs.zip sps).find? (fun z => z.1 == i) = none := by
      rw [List.find?_eq_none]
      intro z hz' hc
      have h1 : i ∈ vs.take sps.length := by
        rw [← zip_fst, List.mem_map]; exact ⟨z, hz', by simpa using hc⟩
      have h2 := hnd
      rw [← List.take_append_drop sps.length vs, List.nodup_append] at h2
      exact h2.2.2 i h1 i h rfl
    rw [hn]
  · rw [if_neg h, if_neg h]

theorem commitAt_notin (k : TrackKey) {vs : List Nat} {sps : List (Int × Int)} {i : Nat} (h : i ∉ vs)
    (x : Option (Option CWire)) : commitAt k vs sps i x = x := by
  unfold commitAt
  rw [if_neg (fun hc => h (List.mem_of_mem_drop hc))]
  have hn : (vs.zip sps).find? (fun z => z.1 == i) = none := by
    rw [List.find?_eq_none]
    intro z hz hc
    have : z.1 ∈ (vs.zip sps).map Prod.fst := List.mem_map_of_mem hz
    rw [zip_fst] at this
    have e : z.1 = i := by simpa using hc
    rw [e] at this
    exact h (List.mem_of_mem_take this)
  rw [hn]

theorem nodup_get_inj {α : Type} {L : List α} (h : L.Nodup) {a b : Nat} {x : α} (ha : L[a]? = some x)
    (hb : L[b]? = some x) : a = b := by
  obtain ⟨a1, a2⟩ := List.getElem?_eq_some_iff.1 ha
  obtain ⟨b1, b2⟩ := List.getElem?_eq_some_iff.1 hb
  have hp := List.pairwise_iff_getElem.1 h
  rcases Nat.lt_trichotomy a b with h | h | h
  · exact absurd (a2.trans b2.symm) (hp a b a1 b1 h)
  · exact h
  · exact absurd (b2.trans a2.symm) (hp b a b1 a1 h)

theorem commitAt_keep (k : TrackKey) {vs : List Nat} {sps : List (Int × Int)} (hnd : vs.Nodup) {j : Nat} {v : Nat}
    {sp : Int × Int} (h1 : vs[j]? = some v) (h2 : sps[j]? = some sp) (x : Option (Option CWire)) :
    commitAt k vs sps v x = x.map (fun w => w.map (·.setSpan k sp)) := by
  have hz : (vs.zip sps)[j]? = some (v, sp) := by
    rw [List.getElem?_zip_eq_some]; exact ⟨h1, h2⟩
  have hjl : j < sps.length := (List.getElem?_eq_some_iff.1 h2).1
  have htake : v ∈ vs.take sps.length := by
    rw [List.mem_iff_getElem?]; exact ⟨j, by rw [List.getElem?_take, if_pos hjl]; exact h1⟩
  have hnd' : (vs.take sps.length ++ vs.drop sps.length).Nodup := by rw [List.take_append_drop]; exact hnd
  rw [List.nodup_append] at hnd'
  have hnot : v ∉ vs.drop sps.length := fun hc => hnd'.2.2 v htake v hc rfl
  unfold commitAt
  rw [if_neg hnot]
  cases hf : (vs.zip sps).find? (fun z => z.1 == v) with
  | none =>
    rw [List.find?_eq_none] at hf
    have := hf (v, sp) (List.mem_of_getElem? hz)
    simp at this
  | some z =>
    have hzm := List.mem_of_find?_eq_some hf
    have hz1 : z.1 = v := by simpa using List.find?_some hf
    obtain ⟨j', hj'⟩ := List.mem_iff_getElem?.1 hzm
    rw [show z = (z.1, z.2) from rfl, List.getElem?_zip_eq_some] at hj'
    have hjj : j' = j := by
      have e1 := hj'.1
      rw [hz1] at e1
      exact nodup_get_inj hnd e1 h1
    have : z.2 = sp := by
      have := hj'.2; rw [hjj, h2] at this; exact (Option.some.inj this).symm
    simp [this]

theorem commitAt_drop (k : TrackKey) {vs : List Nat} {sps : List (Int × Int)} {j : Nat} {v : Nat}
    (h1 : vs[j]? = some v) (h2 : sps.length ≤ j) (x : Option (Option CWire)) :
    commitAt k vs sps v x = x.map (fun _ => none) := by
  unfold commitAt
  rw [if_pos]
  rw [List.mem_iff_getElem?]
  exact ⟨j - sps.length, by rw [List.getElem?_drop]; rw [show sps.length + (j - sps.length) = j by omega]; exact h1⟩

/-- committing several tracks, none of which owns entry `i` -/
theorem fold_commit_notin (J : List (TrackKey × (List Nat × List (Int × Int)))) :
    ∀ (o : List (Option CWire)) (i : Nat), (∀ j ∈ J, j.2.1.Nodup ∧ i ∉ j.2.1) →
    (J.foldl (fun o j => mergeCommit o j.1 j.2.1 j.2.2) o)[i]? = o[i]? := by
  induction J with
  | nil => simp
  | cons a t ih =>
    intro o i h
    rw [List.foldl_cons, ih _ _ (fun j hj => h j (by simp [hj])), mergeCommit_get _ _ _ (h a (by simp)).1,
      commitAt_notin _ (h a (by simp)).2]

theorem fold_commit_at (J : List (TrackKey × (List Nat × List (Int × Int)))) (a : TrackKey × (List Nat × List (Int × Int))) :
    ∀ (o : List (Option CWire)) (i : Nat), (J.map Prod.fst).Nodup → a ∈ J → (∀ j ∈ J, j.2.1.Nodup) →
    (∀ j ∈ J, j.1 ≠ a.1 → i ∉ j.2.1) →
    (J.foldl (fun o j => mergeCommit o j.1 j.2.1 j.2.2) o)[i]? = commitAt a.1 a.2.1 a.2.2 i (o[i]?) := by
  induction J with
  | nil => simp
  | cons b t ih =>
    intro o i hnd ha hv hi
    rw [List.map_cons, List.nodup_cons] at hnd
    rw [List.foldl_cons]
    by_cases hab : a = b
    · subst hab
      rw [fold_commit_notin, mergeCommit_get _ _ _ (hv a (by simp))]
      intro j hj
      refine ⟨hv j (by simp [hj]), hi j (by simp [hj]) ?_⟩
      intro he
      exact hnd.1 (List.mem_map.2 ⟨j, hj, he⟩)
    · have hat : a ∈ t := by simpa [hab] using ha
      rw [ih _ _ hnd.2 hat (fun j hj => hv j (by simp [hj])) (fun j hj => hi j (by simp [hj])),
        mergeCommit_get _ _ _ (hv b (by simp)), commitAt_notin b.1]
      apply hi b (by simp)
      intro he
      exact hnd.1 (by rw [he]; exact List.mem_map_of_mem hat)

/-- the segments of a track before sorting -/
def trackSegs (objs : List (Option CWire)) (k : TrackKey) : List Seg :=
  (trackIndices objs k).filterMap (fun i =>
    (objs[i]?).join.map (fun w => ⟨(w.span k.2.1).1, (w.span k.2.1).2, i⟩))

theorem mem_trackIndices {ws : List CWire} {k : TrackKey} {i : Nat} :
    i ∈ trackIndices (ws.map some) k ↔ ∃ w, ws[i]? = some w ∧ w.key? = some k := by
  unfold trackIndices
  rw [List.mem_filter, List.mem_range, List.length_map, List.getElem?_map, decide_eq_true_eq]
  constructor
  · rintro ⟨h1, h2⟩
    refine ⟨ws[i], List.getElem?_eq_getElem h1, ?_⟩
    rw [List.getElem?_eq_getElem h1] at h2
    simpa using h2
  · rintro ⟨w, h1, h2⟩
    refine ⟨(List.getElem?_eq_some_iff.1 h1).1, ?_⟩
    rw [h1]; simpa using h2

theorem mem_trackSegs {ws : List CWire} {k : TrackKey} {s : Seg} :
    s ∈ trackSegs (ws.map some) k ↔ ∃ w, ws[s.idx]? = some w ∧ w.key? = some k ∧ (s.b, s.e) = w.span k.2.1 := by
  unfold trackSegs
  rw [List.mem_filterMap]
  constructor
  · rintro ⟨i, hi, h⟩
    obtain ⟨w, h1, h2⟩ := mem_trackIndices.1 hi
    rw [List.getElem?_map, h1] at h
    simp at h
    subst h
    exact ⟨w, h1, h2, rfl⟩
  · rintro ⟨w, h1, h2, h3⟩
    refine ⟨s.idx, mem_trackIndices.2 ⟨w, h1, h2⟩, ?_⟩
    rw [List.getElem?_map, h1]
    simp [← h3]

theorem trackSegs_nodup (ws : List CWire) (k : TrackKey) : ((trackSegs (ws.map some) k).map Seg.idx).Nodup := by
  have hsub : ((trackSegs (ws.map some) k).map Seg.idx).Sublist (trackIndices (ws.map some) k) := by
    unfold trackSegs
    generalize trackIndices (ws.map some) k = L
    induction L with
    | nil => simp
    | cons a t ih =>
      rw [List.filterMap_cons]
      split
      · exact ih.trans (List.sublist_cons_self _ _)
      · rename_i s hs
        have : s.idx = a := by
          cases hj : ((ws.map some)[a]?).join with
          | none => rw [hj] at hs; simp at hs
          | some w => rw [hj] at hs; simp at hs; rw [← hs]
        rw [List.map_cons, this]
        exact ih.cons₂ _
  refine hsub.nodup ?_
  unfold trackIndices
  exact List.filter_sublist.nodup List.nodup_range

theorem proper_key {w : CWire} (h : w.Proper) : ∃ k, w.key? = some k := by
  unfold CWire.key?
  rcases h.1 with h | h
  · rw [if_pos h.1]; exact ⟨_, rfl⟩
  · split
    · exact ⟨_, rfl⟩
    · rw [if_pos h.1]; exact ⟨_, rfl⟩

theorem proper_span {w : CWire} {k : TrackKey} (h : w.Proper) (hk : w.key? = some k) :
    (w.span k.2.1).1 < (w.span k.2.1).2 ∧ -2147483648 ≤ (w.span k.2.1).1 := by
  unfold CWire.key? at hk
  unfold CWire.span
  obtain ⟨h1, h2, h3⟩ := h
  split at hk
  · rename_i hx
    simp at hk; subst hk; simp
    rcases h1 with h1 | h1
    · exact ⟨h1.2, h3⟩
    · omega
  · split at hk
    · simp at hk; subst hk; simp
      rcases h1 with h1 | h1
      · omega
      · exact ⟨h1.2, h2⟩
    · simp at hk

/-- the sweep on a track of a net -/
theorem track_sweep {ws : List CWire} (hp : ∀ w ∈ ws, w.Proper) (k : TrackKey) :
    SweepOK (trackSegs (ws.map some) k) (mergePerform (ws.map some) k).1 (mergePerform (ws.map some) k).2 := by
  have hperm := sortSegs_perm (trackSegs (ws.map some) k)
  have hs := sweep_ok (sortSegs (trackSegs (ws.map some) k)) (sortSegs_sorted _)
    (by
      intro s hs
      obtain ⟨w, h1, h2, h3⟩ := mem_trackSegs.1 (hperm.mem_iff.1 hs)
      have := (proper_span (hp w (List.mem_of_getElem? h1)) h2).1
      rw [← h3] at this; exact this)
    (by
      intro s hs
      obtain ⟨w, h1, h2, h3⟩ := mem_trackSegs.1 (hperm.mem_iff.1 hs)
      have := (proper_span (hp w (List.mem_of_getElem? h1)) h2).2
      rw [← h3] at this; exact this)
    ((hperm.map _).nodup_iff.2 (trackSegs_nodup ws k))
  have he : mergePerform (ws.map some) k = mergeHelper (sortSegs (trackSegs (ws.map some) k)) := rfl
  rw [he]
  have hm : ∀ s, s ∈ sortSegs (trackSegs (ws.map some) k) ↔ s ∈ trackSegs (ws.map some) k := fun s => hperm.mem_iff
  refine ⟨?_, hs.nodup, hs.len, ?_, hs.pos, ?_, hs.sepSpans, ?_, ?_⟩
  · intro v hv; obtain ⟨s, h1, h2⟩ := hs.sub v hv; exact ⟨s, (hm s).1 h1, h2⟩
  · intro x; have := hs.cover x; simp only [hm] at this; exact this
  · intro v hv; obtain ⟨s, h1, h2⟩ := hs.low v hv; exact ⟨s, (hm s).1 h1, h2⟩
  · intro sp hsp s h; exact hs.sepMixed sp hsp s ((hm s).2 h)
  · intro s h t h'; exact hs.sepSingle s ((hm s).2 h) t ((hm t).2 h')

theorem eraseDups_nodup {α : Type} [BEq α] [LawfulBEq α] (L : List α) : L.eraseDups.Nodup := by
  generalize hn : L.length = n
  induction n using Nat.strongRecOn generalizing L with
  | ind n ih =>
    cases L with
    | nil => simp [List.eraseDups_nil]
    | cons a t =>
      rw [List.eraseDups_cons, List.nodup_cons]
      constructor
      · intro h
        rw [List.mem_eraseDups, List.mem_filter] at h
        simp at h
      · refine ih _ ?_ _ rfl
        have := List.length_filter_le (fun b => !b == a) t
        simp at hn; omega

theorem mem_trackKeys {ws : List CWire} {k : TrackKey} :
    k ∈ trackKeys (ws.map some) ↔ ∃ w ∈ ws, w.key? = some k := by
  unfold trackKeys
  rw [List.mem_eraseDups, List.mem_filterMap]
  constructor
  · rintro ⟨o, ho, h⟩
    obtain ⟨w, hw, rfl⟩ := List.mem_map.1 ho
    exact ⟨w, hw, h⟩
  · rintro ⟨w, hw, h⟩
    exact ⟨some w, List.mem_map_of_mem hw, h⟩

/-- entry `i` of the merged net depends on its own track only -/
theorem mergeNet_get {ws : List CWire} (hp : ∀ w ∈ ws, w.Proper) {i : Nat} {w : CWire} {k : TrackKey}
    (hi : ws[i]? = some w) (hk : w.key? = some k) :
    (mergeNet (ws.map some))[i]? =
      commitAt k (mergePerform (ws.map some) k).1 (mergePerform (ws.map some) k).2 i (some (some w)) := by
  have := fold_commit_at ((trackKeys (ws.map some)).map (fun k => (k, mergePerform (ws.map some) k)))
    (k, mergePerform (ws.map some) k) (ws.map some) i
    (by rw [List.map_map]; simp only [Function.comp_def, List.map_id']; exact eraseDups_nodup _)
    (List.mem_map.2 ⟨k, mem_trackKeys.2 ⟨w, List.mem_of_getElem? hi, hk⟩, rfl⟩)
    (by
      intro j hj
      obtain ⟨k', _, rfl⟩ := List.mem_map.1 hj
      exact (track_sweep hp k').nodup)
    (by
      intro j hj hne hc
      obtain ⟨k', _, rfl⟩ := List.mem_map.1 hj
      obtain ⟨s, hs, hidx⟩ := (track_sweep hp k').sub i hc
      obtain ⟨w', h1, h2, _⟩ := mem_trackSegs.1 hs
      rw [hidx, hi] at h1
      simp at h1; subst h1
      rw [hk] at h2; simp at h2
      exact hne h2.symm)
  rw [List.getElem?_map, hi] at this
  exact this

theorem mergeCommit_length (o : List (Option CWire)) (k : TrackKey) (vs : List Nat) (sps : List (Int × Int)) :
    (mergeCommit o k vs sps).length = o.length := by
  have h1 : ∀ (Z : List (Nat × (Int × Int))) (o : List (Option CWire)),
      (Z.foldl (fun o vs => o.modify vs.1 (fun w => w.map (·.setSpan k vs.2))) o).length = o.length := by
    intro Z; induction Z with
    | nil => simp
    | cons a t ih => intro o; rw [List.foldl_cons, ih, List.length_modify]
  have h2 : ∀ (L : List Nat) (o : List (Option CWire)), (L.foldl (fun o v => o.set v none) o).length = o.length := by
    intro L; induction L with
    | nil => simp
    | cons a t ih => intro o; rw [List.foldl_cons, ih, List.length_set]
  unfold mergeCommit; simp only; rw [h2, h1]

theorem mergeNet_length (o : List (Option CWire)) : (mergeNet o).length = o.length := by
  unfold mergeNet
  have : ∀ (J : List (TrackKey × (List Nat × List (Int × Int)))) (o : List (Option CWire)),
      (J.foldl (fun o j => mergeCommit o j.1 j.2.1 j.2.2) o).length = o.length := by
    intro J; induction J with
    | nil => simp
    | cons a t ih => intro o; rw [List.foldl_cons, ih, mergeCommit_length]
  exact this _ _

theorem setSpan_key {w : CWire} {k : TrackKey} (hk : w.key? = some k) {sp : Int × Int} (hlt : sp.1 < sp.2) :
    (w.setSpan k sp).key? = some k ∧ (w.setSpan k sp).span k.2.1 = sp ∧ (w.setSpan k sp).layer = w.layer := by
  unfold CWire.key? at hk
  split at hk
  · simp at hk; subst hk
    simp [CWire.setSpan, CWire.key?, CWire.span]
  · split at hk
    · simp at hk; subst hk
      have : sp.1 ≠ sp.2 := by omega
      simp [CWire.setSpan, CWire.key?, CWire.span, this]
    · simp at hk

theorem proper_of_span {w : CWire} {k : TrackKey} (hk : w.key? = some k)
    (h : (w.span k.2.1).1 < (w.span k.2.1).2) (h2 : -2147483648 ≤ (w.span k.2.1).1) (h3 : -2147483648 ≤ k.2.2) :
    w.Proper := by
  unfold CWire.key? at hk
  unfold CWire.span at h h2
  split at hk
  · rename_i hx
    simp at hk; subst hk; simp at h h2 h3
    exact ⟨.inl ⟨hx, h⟩, h3, h2⟩
  · split at hk
    · rename_i hy
      simp at hk; subst hk; simp at h h2 h3
      exact ⟨.inr ⟨hy, h⟩, h2, h3⟩
    · simp at hk

theorem key_low {w : CWire} {k : TrackKey} (h : w.Proper) (hk : w.key? = some k) : -2147483648 ≤ k.2.2 := by
  unfold CWire.key? at hk
  obtain ⟨_, h2, h3⟩ := h
  split at hk
  · simp at hk; subst hk; exact h2
  · split at hk
    · simp at hk; subst hk; exact h3
    · simp at hk

/-- covered steps of a wire in terms of its track and interval -/
theorem covers_iff {w : CWire} {k : TrackKey} (h : w.Proper) (hk : w.key? = some k) (l : Int) (hz : Bool) (p : Point) :
    w.CoversStep l hz p ↔ k = (l, hz, if hz then p.y else p.x) ∧ InSpan (w.span k.2.1) (if hz then p.x else p.y) := by
  unfold CWire.key? at hk
  obtain ⟨h1, _, _⟩ := h
  unfold CWire.CoversStep InSpan CWire.span
  split at hk
  · rename_i hx
    simp at hk; subst hk
    have h1' : w.b.y < w.e.y := by rcases h1 with h | h <;> omega
    cases hz
    · simp only [Bool.false_eq_true, if_false, Prod.mk.injEq, true_and]
      constructor
      · rintro ⟨a, b, c, d, e⟩; exact ⟨⟨a, b⟩, d, e⟩
      · rintro ⟨⟨a, b⟩, d, e⟩; exact ⟨a, b, by omega, d, e⟩
    · simp
      intro _ _ _ _; omega
  · split at hk
    · rename_i hx hy
      simp at hk; subst hk
      have h1' : w.b.x < w.e.x := by rcases h1 with h | h <;> omega
      cases hz
      · simp
        intro _ _ _ _; omega
      · simp only [if_true, Prod.mk.injEq, true_and]
        constructor
        · rintro ⟨a, b, c, d, e⟩; exact ⟨⟨a, b⟩, d, e⟩
        · rintro ⟨⟨a, b⟩, d, e⟩; exact ⟨a, b, by omega, d, e⟩
    · simp at hk

/-- what became of entry `i`: it kept its wire, or took over a merged interval -/
theorem merged_entry {ws : List CWire} (hp : ∀ w ∈ ws, w.Proper) {i : Nat} {w' : CWire}
    (h : (mergeNet (ws.map some))[i]? = some (some w')) :
    ∃ w k, ws[i]? = some w ∧ w.key? = some k ∧ w'.key? = some k ∧ w'.Proper ∧
      ((i ∉ (mergePerform (ws.map some) k).1 ∧ w' = w) ∨
       ∃ (j : Nat) (sp : Int × Int), (mergePerform (ws.map some) k).1[j]? = some i ∧ (mergePerform (ws.map some) k).2[j]? = some sp ∧
         w' = w.setSpan k sp) := by
  have hil : i < ws.length := by
    have := (List.getElem?_eq_some_iff.1 h).1
    rw [mergeNet_length, List.length_map] at this; exact this
  have hi : ws[i]? = some ws[i] := List.getElem?_eq_getElem hil
  have hw : ws[i].Proper := hp _ (List.getElem_mem hil)
  obtain ⟨k, hk⟩ := proper_key hw
  rw [mergeNet_get hp hi hk] at h
  have hsw := track_sweep hp k
  refine ⟨ws[i], k, hi, hk, ?_⟩
  by_cases hv : i ∈ (mergePerform (ws.map some) k).1
  · obtain ⟨j, hj⟩ := List.mem_iff_getElem?.1 hv
    by_cases hjl : j < (mergePerform (ws.map some) k).2.length
    · have hsp := List.getElem?_eq_getElem hjl
      rw [commitAt_keep k hsw.nodup hj hsp] at h
      simp at h
      have hmem : (mergePerform (ws.map some) k).2[j] ∈ (mergePerform (ws.map some) k).2 := List.getElem_mem hjl
      have hpos := hsw.pos _ hmem
      obtain ⟨hk', hspan, _⟩ := setSpan_key hk hpos
      subst h
      refine ⟨hk', ?_, .inr ⟨j, _, hj, hsp, rfl⟩⟩
      apply proper_of_span hk'
      · rw [hspan]; exact hpos
      · rw [hspan]
        obtain ⟨s, hs, he⟩ := hsw.low _ hmem
        obtain ⟨w2, g1, g2, g3⟩ := mem_trackSegs.1 hs
        have := (proper_span (hp w2 (List.mem_of_getElem? g1)) g2).2
        rw [← g3] at this
        rw [he]; exact this
      · exact key_low hw hk
    · rw [commitAt_drop k hj (by omega)] at h
      simp at h
  · rw [commitAt_notin _ hv] at h
    simp at h
    rw [← h]
    exact ⟨hk, hw, .inl ⟨hv, rfl⟩⟩

theorem mem_mergedWires {ws : List CWire} {w : CWire} :
    w ∈ mergedWires ws ↔ ∃ i : Nat, (mergeNet (ws.map some))[i]? = some (some w) := by
  unfold mergedWires
  rw [List.mem_filterMap]
  constructor
  · rintro ⟨o, ho, h⟩
    obtain ⟨i, hi⟩ := List.mem_iff_getElem?.1 ho
    simp at h; subst h
    exact ⟨i, hi⟩
  · rintro ⟨i, hi⟩
    exact ⟨some w, List.mem_of_getElem? hi, rfl⟩

theorem merged_no_overlap {ws : List CWire} (hp : ∀ w ∈ ws, w.Proper) {i j : Nat} (hij : i ≠ j) {v w : CWire}
    (hv : (mergeNet (ws.map some))[i]? = some (some v)) (hw : (mergeNet (ws.map some))[j]? = some (some w)) :
    ¬ v.Overlap w := by
  rintro ⟨l, hz, p, cv, cw⟩
  obtain ⟨v0, k, a1, a2, a3, a4, a5⟩ := merged_entry hp hv
  obtain ⟨w0, k', b1, b2, b3, b4, b5⟩ := merged_entry hp hw
  rw [covers_iff a4 a3] at cv
  rw [covers_iff b4 b3] at cw
  have hkk : k' = k := by rw [cv.1, cw.1]
  subst hkk
  have hsw := track_sweep hp k'
  have hsep : SepSpan (v.span k'.2.1) (w.span k'.2.1) := by
    have seg : ∀ {n : Nat} {u : CWire}, ws[n]? = some u → u.key? = some k' →
        (⟨(u.span k'.2.1).1, (u.span k'.2.1).2, n⟩ : Seg) ∈ trackSegs (ws.map some) k' := by
      intro n u h1 h2
      exact mem_trackSegs.2 ⟨u, h1, h2, rfl⟩
    rcases a5 with ⟨a5, rfl⟩ | ⟨ja, spa, a5, a6, rfl⟩ <;> rcases b5 with ⟨b5, rfl⟩ | ⟨jb, spb, b5, b6, rfl⟩
    · have := hsw.sepSingle _ (seg a1 a2) _ (seg b1 b2) a5 b5 (by intro h; simp at h; exact hij h.2.2)
      exact this
    · rw [(setSpan_key b2 (hsw.pos spb (List.mem_of_getElem? b6))).2.1]
      exact Or.symm (hsw.sepMixed spb (List.mem_of_getElem? b6) _ (seg a1 a2) a5)
    · rw [(setSpan_key a2 (hsw.pos spa (List.mem_of_getElem? a6))).2.1]
      exact hsw.sepMixed spa (List.mem_of_getElem? a6) _ (seg b1 b2) b5
    · rw [(setSpan_key a2 (hsw.pos spa (List.mem_of_getElem? a6))).2.1,
        (setSpan_key b2 (hsw.pos spb (List.mem_of_getElem? b6))).2.1]
      have hne : ja ≠ jb := by
        rintro rfl
        rw [a5] at b5; simp at b5; exact hij b5
      have hpw := List.pairwise_iff_getElem.1 hsw.sepSpans
      obtain ⟨la, ea⟩ := List.getElem?_eq_some_iff.1 a6
      obtain ⟨lb, eb⟩ := List.getElem?_eq_some_iff.1 b6
      rcases Nat.lt_or_gt_of_ne hne with h | h
      · have := hpw ja jb la lb h; rw [ea, eb] at this; exact this
      · have := hpw jb ja lb la h; rw [ea, eb] at this; exact Or.symm this
  have h1 := cv.2
  have h2 := cw.2
  unfold InSpan at h1 h2
  unfold SepSpan at hsep
  omega

theorem merged_cover {ws : List CWire} (hp : ∀ w ∈ ws, w.Proper) (l : Int) (hz : Bool) (p : Point) :
    (∃ w ∈ ws, w.CoversStep l hz p) ↔ ∃ w ∈ mergedWires ws, w.CoversStep l hz p := by
  constructor
  · rintro ⟨w, hw, hc⟩
    obtain ⟨k, hk⟩ := proper_key (hp w hw)
    obtain ⟨i, hi⟩ := List.mem_iff_getElem?.1 hw
    have hsw := track_sweep hp k
    rw [covers_iff (hp w hw) hk] at hc
    have hs : (⟨(w.span k.2.1).1, (w.span k.2.1).2, i⟩ : Seg) ∈ trackSegs (ws.map some) k :=
      mem_trackSegs.2 ⟨w, hi, hk, rfl⟩
    rcases (hsw.cover _).1 ⟨_, hs, hc.2⟩ with ⟨sp, hsp, hin⟩ | ⟨s, hs', hnv, hin⟩
    · obtain ⟨j, hj⟩ := List.mem_iff_getElem?.1 hsp
      have hjl : j < (mergePerform (ws.map some) k).1.length :=
        Nat.lt_of_lt_of_le (List.getElem?_eq_some_iff.1 hj).1 hsw.len
      have hv := List.getElem?_eq_getElem hjl
      obtain ⟨s, hs2, hidx⟩ := hsw.sub _ (List.getElem_mem hjl)
      obtain ⟨w2, g1, g2, g3⟩ := mem_trackSegs.1 hs2
      rw [hidx] at g1
      have hget := mergeNet_get hp g1 g2
      rw [commitAt_keep k hsw.nodup hv hj] at hget
      simp only [Option.map_some] at hget
      refine ⟨w2.setSpan k sp, mem_mergedWires.2 ⟨_, hget⟩, ?_⟩
      obtain ⟨w0, k0, c1, c2, c3, c4, _⟩ := merged_entry hp hget
      obtain ⟨e1, e2, _⟩ := setSpan_key g2 (hsw.pos sp hsp)
      rw [covers_iff c4 e1, e2]
      exact ⟨hc.1, hin⟩
    · obtain ⟨w2, g1, g2, g3⟩ := mem_trackSegs.1 hs'
      have hget := mergeNet_get hp g1 g2
      rw [commitAt_notin _ hnv] at hget
      refine ⟨w2, mem_mergedWires.2 ⟨_, hget⟩, ?_⟩
      rw [covers_iff (hp w2 (List.mem_of_getElem? g1)) g2, ← g3]
      exact ⟨hc.1, hin⟩
  · rintro ⟨w, hw, hc⟩
    obtain ⟨i, hi⟩ := mem_mergedWires.1 hw
    obtain ⟨w0, k, a1, a2, a3, a4, a5⟩ := merged_entry hp hi
    have hsw := track_sweep hp k
    rw [covers_iff a4 a3] at hc
    have : ∃ s ∈ trackSegs (ws.map some) k, InSpan (s.b, s.e) (if hz then p.x else p.y) := by
      rcases a5 with ⟨a5, rfl⟩ | ⟨j, sp, a5, a6, rfl⟩
      · exact ⟨⟨(w.span k.2.1).1, (w.span k.2.1).2, i⟩, mem_trackSegs.2 ⟨w, a1, a2, rfl⟩, hc.2⟩
      · rw [(setSpan_key a2 (hsw.pos sp (List.mem_of_getElem? a6))).2.1] at hc
        exact (hsw.cover _).2 (.inl ⟨sp, List.mem_of_getElem? a6, hc.2⟩)
    obtain ⟨s, hs, hin⟩ := this
    obtain ⟨w2, g1, g2, g3⟩ := mem_trackSegs.1 hs
    refine ⟨w2, List.mem_of_getElem? g1, ?_⟩
    rw [covers_iff (hp w2 (List.mem_of_getElem? g1)) g2, ← g3]
    exact ⟨hc.1, hin⟩

end TR
