import Verif.Conn.Spec
import Verif.Conn.MergeNet
import Verif.Geom.Lemmas
/-! Lemmas about the node map. -/
namespace TR

/-! ### order on nodes -/

theorem Node.lt_iff (a b : Node) : Node.lt a b = true ↔
    a.pt.x < b.pt.x ∨ (a.pt.x = b.pt.x ∧ (a.pt.y < b.pt.y ∨ (a.pt.y = b.pt.y ∧ a.layer < b.layer))) := by
  unfold Node.lt
  simp only [Bool.or_eq_true, Bool.and_eq_true, Bool.not_eq_true', decide_eq_true_eq, Point.lt_iff]
  have h : b.pt.lt a.pt = false ↔ ¬ (b.pt.x < a.pt.x ∨ (b.pt.x = a.pt.x ∧ b.pt.y < a.pt.y)) := by
    rw [← Point.lt_iff]; simp
  rw [h]; omega

theorem Node.lt_trans {a b c : Node} (h1 : a.lt b = true) (h2 : b.lt c = true) : a.lt c = true := by
  rw [Node.lt_iff] at *; omega

theorem Node.lt_irrefl (a : Node) : ¬ a.lt a = true := by
  rw [Node.lt_iff]; omega

theorem Node.eq_of_not_lt {a b : Node} (h1 : ¬ a.lt b = true) (h2 : ¬ b.lt a = true) : a = b := by
  rw [Node.lt_iff] at h1 h2
  obtain ⟨⟨ax, ay⟩, al⟩ := a
  obtain ⟨⟨bx, by_⟩, bl⟩ := b
  simp only at h1 h2
  simp only [Node.mk.injEq, Point.mk.injEq]
  omega

/-! ### the node map as a relation -/

def NodeMap.Has (m : NodeMap) (n : Node) (i : Nat) : Prop := ∃ S, (n, S) ∈ m ∧ i ∈ S

def NodeMap.Sorted (m : NodeMap) : Prop := m.Pairwise (fun a b => a.1.lt b.1 = true)

theorem mem_setIns (i j : Nat) (S : List Nat) : j ∈ setIns i S ↔ j = i ∨ j ∈ S := by
  induction S with
  | nil => simp [setIns]
  | cons a r ih =>
    rw [setIns]; split
    · simp
    · split
      · rename_i h; subst h; simp
      · simp only [List.mem_cons, ih]
        constructor <;> (rintro (h | h | h) <;> simp [h])

theorem mem_ins_key (n : Node) (i : Nat) (m : NodeMap) (x : Node × List Nat) (h : x ∈ NodeMap.ins n i m) :
    x.1 = n ∨ x ∈ m := by
  induction m with
  | nil => simp [NodeMap.ins] at h; left; rw [h]
  | cons a r ih =>
    obtain ⟨k, S⟩ := a
    rw [NodeMap.ins] at h
    split at h
    · rcases List.mem_cons.1 h with h | h
      · left; rw [h]
      · right; exact h
    · split at h
      · rename_i he
        rcases List.mem_cons.1 h with h | h
        · left; rw [h]; exact he.symm
        · right; simp [h]
      · rcases List.mem_cons.1 h with h | h
        · right; simp [h]
        · rcases ih h with h | h
          · left; exact h
          · right; simp [h]

theorem ins_sorted (n : Node) (i : Nat) (m : NodeMap) (h : m.Sorted) : (NodeMap.ins n i m).Sorted := by
  induction m with
  | nil => simp [NodeMap.ins, NodeMap.Sorted]
  | cons a r ih =>
    obtain ⟨k, S⟩ := a
    unfold NodeMap.Sorted at h ih ⊢
    rw [List.pairwise_cons] at h
    rw [NodeMap.ins]
    split
    · rename_i hc
      rw [List.pairwise_cons, List.pairwise_cons]
      refine ⟨?_, h⟩
      intro x hx
      rcases List.mem_cons.1 hx with hx | hx
      · rw [hx]; exact hc
      · exact Node.lt_trans hc (h.1 x hx)
    · rename_i hc
      split
      · rename_i he
        rw [List.pairwise_cons]; exact h
      · rename_i hne
        rw [List.pairwise_cons]
        refine ⟨?_, ih h.2⟩
        intro x hx
        rcases mem_ins_key n i r x hx with hx | hx
        · rw [hx]
          apply Classical.byContradiction
          intro hn
          exact hne (Node.eq_of_not_lt hc hn)
        · exact h.1 x hx

theorem has_ins (n : Node) (i : Nat) (m : NodeMap) (n' : Node) (i' : Nat) :
    (NodeMap.ins n i m).Has n' i' ↔ m.Has n' i' ∨ (n' = n ∧ i' = i) := by
  induction m with
  | nil =>
    simp only [NodeMap.ins, NodeMap.Has, List.mem_singleton, Prod.mk.injEq]
    constructor
    · rintro ⟨S, ⟨h1, rfl⟩, h2⟩; right; exact ⟨h1, by simpa using h2⟩
    · rintro (⟨S, h, _⟩ | ⟨rfl, rfl⟩)
      · simp at h
      · exact ⟨_, ⟨rfl, rfl⟩, by simp⟩
  | cons a r ih =>
    obtain ⟨k, S⟩ := a
    have hcons : ∀ (b : Node × List Nat) (t : NodeMap), NodeMap.Has (b :: t) n' i' ↔
        (n' = b.1 ∧ i' ∈ b.2) ∨ NodeMap.Has t n' i' := by
      intro b t
      unfold NodeMap.Has
      constructor
      · rintro ⟨T, h1, h2⟩
        rcases List.mem_cons.1 h1 with h1 | h1
        · left; rw [← h1]; exact ⟨rfl, h2⟩
        · right; exact ⟨T, h1, h2⟩
      · rintro (⟨h1, h2⟩ | ⟨T, h1, h2⟩)
        · exact ⟨b.2, by rw [h1]; simp, h2⟩
        · exact ⟨T, by simp [h1], h2⟩
    rw [NodeMap.ins]
    split
    · rw [hcons, hcons]
      simp only [List.mem_singleton]
      constructor
      · rintro (h | h)
        · right; exact h
        · left; exact h
      · rintro (h | h)
        · right; exact h
        · left; exact h
    · split
      · rename_i he
        rw [hcons, hcons]
        simp only [mem_setIns]
        constructor
        · rintro (⟨h1, h2 | h2⟩ | h)
          · right; exact ⟨h1.trans he.symm, h2⟩
          · left; left; exact ⟨h1, h2⟩
          · left; right; exact h
        · rintro ((⟨h1, h2⟩ | h) | ⟨h1, h2⟩)
          · left; exact ⟨h1, .inr h2⟩
          · right; exact h
          · left; exact ⟨h1.trans he, .inl h2⟩
      · rw [hcons, hcons, ih]
        constructor
        · rintro (h | h | h)
          · left; left; exact h
          · left; right; exact h
          · right; exact h
        · rintro ((h | h) | h)
          · left; exact h
          · right; left; exact h
          · right; right; exact h

theorem foldl_ins (L : List (Node × Nat)) : ∀ (m : NodeMap), m.Sorted →
    (L.foldl (fun m x => NodeMap.ins x.1 x.2 m) m).Sorted ∧
    ∀ n i, (L.foldl (fun m x => NodeMap.ins x.1 x.2 m) m).Has n i ↔ m.Has n i ∨ (n, i) ∈ L := by
  induction L with
  | nil => intro m h; exact ⟨h, by simp⟩
  | cons a t ih =>
    intro m h
    rw [List.foldl_cons]
    obtain ⟨h1, h2⟩ := ih _ (ins_sorted a.1 a.2 m h)
    refine ⟨h1, ?_⟩
    intro n i
    rw [h2, has_ins, List.mem_cons]
    constructor
    · rintro ((h | ⟨rfl, rfl⟩) | h)
      · exact .inl h
      · exact .inr (.inl rfl)
      · exact .inr (.inr h)
    · rintro (h | h | h)
      · exact .inl (.inl h)
      · left; right; rw [← h]; exact ⟨rfl, rfl⟩
      · exact .inr h

theorem nodeMap_sorted (objs : List CObj) (pins : List (List Node)) : (nodeMap objs pins).Sorted :=
  (foldl_ins _ [] List.Pairwise.nil).1

theorem nodeMap_has (objs : List CObj) (pins : List (List Node)) (n : Node) (i : Nat) :
    (nodeMap objs pins).Has n i ↔ (n, i) ∈ nodeInserts objs pins := by
  unfold nodeMap
  rw [(foldl_ins _ [] List.Pairwise.nil).2 n i]
  simp [NodeMap.Has]

theorem sorted_unique {m : NodeMap} (h : m.Sorted) {n : Node} {S T : List Nat} (hS : (n, S) ∈ m) (hT : (n, T) ∈ m) :
    S = T := by
  apply Classical.byContradiction
  intro hne
  have := pairwise_sym (R := fun a b : Node × List Nat => a.1.lt b.1 = true ∨ b.1.lt a.1 = true)
    (fun a b h => h.symm) (h.imp Or.inl) _ hS _ hT (by intro he; simp at he; exact hne he)
  rcases this with h | h <;> exact Node.lt_irrefl _ h

/-! ### wires on a track -/

theorem splitKey_key {w : CWire} (h : w.Proper) : w.key? = some w.splitKey := by
  unfold CWire.key? CWire.splitKey
  rcases h.1 with h | h
  · rw [if_pos h.1, if_pos h.1]
  · have : w.b.x ≠ w.e.x := by omega
    rw [if_neg this, if_neg this, if_pos h.1]

theorem overlap_of_span {v w : CWire} (hv : v.Proper) (hw : w.Proper) {k : TrackKey} (hkv : v.key? = some k)
    (hkw : w.key? = some k) {x : Int} (h1 : InSpan (v.span k.2.1) x) (h2 : InSpan (w.span k.2.1) x) : v.Overlap w := by
  obtain ⟨l, hz, t⟩ := k
  refine ⟨l, hz, if hz then ⟨x, t⟩ else ⟨t, x⟩, ?_, ?_⟩
  · rw [covers_iff hv hkv]; cases hz <;> exact ⟨rfl, h1⟩
  · rw [covers_iff hw hkw]; cases hz <;> exact ⟨rfl, h2⟩

/-- entries of `epMap`, unsorted -/
def epEntries (objs : List CObj) (k : TrackKey) : List (Int × Int × Nat) :=
  objs.zipIdx.filterMap (fun (oi : CObj × Nat) => match oi.1 with
    | .wire w => if w.splitKey = k then some ((w.span k.2.1).2, (w.span k.2.1).1, oi.2) else none
    | .via _ => none)

theorem epMap_eq (objs : List CObj) (k : TrackKey) :
    epMap objs k = (epEntries objs k).foldl (fun m x => epPut x.1 x.2.1 x.2.2 m) [] := by
  unfold epMap epEntries
  generalize objs.zipIdx = L
  generalize ([] : List (Int × Int × Nat)) = m
  induction L generalizing m with
  | nil => rfl
  | cons a t ih =>
    obtain ⟨o, i⟩ := a
    cases o with
    | via v => simp only [List.foldl_cons, List.filterMap_cons]; exact ih m
    | wire w =>
      simp only [List.foldl_cons, List.filterMap_cons]
      by_cases h : w.splitKey = k
      · rw [if_pos h, if_pos h, List.foldl_cons]; exact ih _
      · rw [if_neg h, if_neg h]; exact ih m

theorem mem_epEntries {objs : List CObj} {k : TrackKey} {x : Int × Int × Nat} :
    x ∈ epEntries objs k ↔ ∃ w, objs[x.2.2]? = some (.wire w) ∧ w.splitKey = k ∧ (x.2.1, x.1) = w.span k.2.1 := by
  unfold epEntries
  rw [List.mem_filterMap]
  constructor
  · rintro ⟨⟨o, i⟩, h1, h2⟩
    rw [List.mem_zipIdx_iff_getElem?] at h1
    cases o with
    | via v => simp at h2
    | wire w =>
      simp only at h2
      split at h2
      · rename_i hk
        simp at h2; subst h2
        exact ⟨w, h1, hk, rfl⟩
      · simp at h2
  · rintro ⟨w, h1, h2, h3⟩
    refine ⟨(.wire w, x.2.2), List.mem_zipIdx_iff_getElem?.2 h1, ?_⟩
    simp only [h2, if_true, ← h3]

theorem mem_epPut {ep bp : Int} {i : Nat} {m : List (Int × Int × Nat)} (hn : ∀ x ∈ m, x.1 ≠ ep)
    (y : Int × Int × Nat) : y ∈ epPut ep bp i m ↔ y = (ep, bp, i) ∨ y ∈ m := by
  induction m with
  | nil => simp [epPut]
  | cons a r ih =>
    rw [epPut]
    split
    · simp
    · split
      · rename_i h; exact absurd h.symm (hn a (by simp))
      · simp only [List.mem_cons, ih (fun x hx => hn x (by simp [hx]))]
        constructor <;> (rintro (h | h | h) <;> simp [h])

theorem epPut_sorted {ep bp : Int} {i : Nat} {m : List (Int × Int × Nat)} (hn : ∀ x ∈ m, x.1 ≠ ep)
    (h : m.Pairwise (fun a b => a.1 < b.1)) : (epPut ep bp i m).Pairwise (fun a b => a.1 < b.1) := by
  induction m with
  | nil => simp [epPut]
  | cons a r ih =>
    rw [List.pairwise_cons] at h
    rw [epPut]
    split
    · rename_i hc
      rw [List.pairwise_cons, List.pairwise_cons]
      refine ⟨?_, h⟩
      intro x hx
      rcases List.mem_cons.1 hx with hx | hx
      · rw [hx]; exact hc
      · have := h.1 x hx; simp only at hc ⊢; omega
    · split
      · rename_i _ he; exact absurd he.symm (hn a (by simp))
      · rename_i h1 h2
        rw [List.pairwise_cons]
        refine ⟨?_, ih (fun x hx => hn x (by simp [hx])) h.2⟩
        intro x hx
        rcases (mem_epPut (fun x hx => hn x (by simp [hx])) x).1 hx with hx | hx
        · rw [hx]; simp only; omega
        · exact h.1 x hx

theorem foldl_epPut (E : List (Int × Int × Nat)) : ∀ (m : List (Int × Int × Nat)),
    E.Pairwise (fun a b => a.1 ≠ b.1) → (∀ x ∈ m, ∀ y ∈ E, x.1 ≠ y.1) → m.Pairwise (fun a b => a.1 < b.1) →
    (E.foldl (fun m x => epPut x.1 x.2.1 x.2.2 m) m).Pairwise (fun a b => a.1 < b.1) ∧
    ∀ y, y ∈ E.foldl (fun m x => epPut x.1 x.2.1 x.2.2 m) m ↔ y ∈ m ∨ y ∈ E := by
  induction E with
  | nil => intro m _ _ h; exact ⟨h, by simp⟩
  | cons a t ih =>
    intro m h1 h2 h3
    rw [List.pairwise_cons] at h1
    rw [List.foldl_cons]
    have hn : ∀ x ∈ m, x.1 ≠ a.1 := fun x hx => h2 x hx a (by simp)
    obtain ⟨g1, g2⟩ := ih (epPut a.1 a.2.1 a.2.2 m) h1.2
      (by
        intro x hx y hy
        rcases (mem_epPut hn x).1 hx with hx | hx
        · rw [hx]; exact h1.1 y hy
        · exact h2 x hx y (by simp [hy])) (epPut_sorted hn h3)
    refine ⟨g1, ?_⟩
    intro y
    rw [g2, mem_epPut hn, List.mem_cons]
    constructor
    · rintro ((h | h) | h)
      · exact .inr (.inl h)
      · exact .inl h
      · exact .inr (.inr h)
    · rintro (h | h | h)
      · exact .inl (.inr h)
      · exact .inl (.inl h)
      · exact .inr h

/-- two different entries of a track do not overlap -/
theorem entries_sep {objs : List CObj} {pins : List (List Node)} (hc : CleanNet objs pins) {k : TrackKey}
    {x y : Int × Int × Nat} (hx : x ∈ epEntries objs k) (hy : y ∈ epEntries objs k) (hne : x.2.2 ≠ y.2.2)
    {z : Int} (h1 : InSpan (x.2.1, x.1) z) (h2 : InSpan (y.2.1, y.1) z) : False := by
  obtain ⟨v, a1, a2, a3⟩ := mem_epEntries.1 hx
  obtain ⟨w, b1, b2, b3⟩ := mem_epEntries.1 hy
  have pv := hc.proper v (List.mem_of_getElem? a1)
  have pw := hc.proper w (List.mem_of_getElem? b1)
  refine hc.apart _ _ v w hne a1 b1 (overlap_of_span (k := k) pv pw ?_ ?_ (x := z) ?_ ?_)
  · rw [splitKey_key pv, a2]
  · rw [splitKey_key pw, b2]
  · rw [← a3]; exact h1
  · rw [← b3]; exact h2

theorem entry_pos {objs : List CObj} {pins : List (List Node)} (hc : CleanNet objs pins) {k : TrackKey}
    {x : Int × Int × Nat} (hx : x ∈ epEntries objs k) : x.2.1 < x.1 := by
  obtain ⟨v, a1, a2, a3⟩ := mem_epEntries.1 hx
  have pv := hc.proper v (List.mem_of_getElem? a1)
  have := (proper_span pv (by rw [splitKey_key pv, a2])).1
  rw [← a3] at this; exact this

theorem epMap_spec {objs : List CObj} {pins : List (List Node)} (hc : CleanNet objs pins) (k : TrackKey) :
    (epMap objs k).Pairwise (fun a b => a.1 < b.1) ∧ ∀ y, y ∈ epMap objs k ↔ y ∈ epEntries objs k := by
  rw [epMap_eq]
  have hpw : (epEntries objs k).Pairwise (fun a b => a.1 ≠ b.1) := by
    have hidx : (epEntries objs k).Pairwise (fun a b => a.2.2 ≠ b.2.2) := by
      unfold epEntries
      have hz : objs.zipIdx.Pairwise (fun a b => a.2 < b.2) := by
        rw [List.pairwise_iff_getElem]
        intro i j hi hj hij
        simp [List.getElem_zipIdx]; exact hij
      apply List.Pairwise.filterMap _ _ hz
      intro a b hab x hx y hy
      obtain ⟨oa, ia⟩ := a
      obtain ⟨ob, ib⟩ := b
      cases oa with
      | via v => simp at hx
      | wire v =>
        cases ob with
        | via w => simp at hy
        | wire w =>
          simp only at hx hy
          split at hx
          · split at hy
            · simp at hx hy
              rw [← hx, ← hy]; simp only at hab ⊢; omega
            · simp at hy
          · simp at hx
    refine List.Pairwise.imp_of_mem ?_ hidx
    intro a b ha hb hne he
    have pa := entry_pos hc ha
    have pb := entry_pos hc hb
    refine entries_sep hc ha hb hne (z := a.1 - 1) ?_ ?_ <;> (unfold InSpan; simp only; omega)
  obtain ⟨h1, h2⟩ := foldl_epPut _ [] hpw (by simp) List.Pairwise.nil
  exact ⟨h1, by intro y; rw [h2]; simp⟩

/-- The split lookup is exact on wires that do not overlap. -/
theorem splitHit_iff {objs : List CObj} {pins : List (List Node)} (hc : CleanNet objs pins) (n : Node) (horz : Bool)
    (m : Node) (i : Nat) : (m, i) ∈ splitHit objs n horz ↔ m = n ∧ ∃ w, objs[i]? = some (.wire w) ∧
      w.splitKey = (n.layer, horz, if horz then n.pt.y else n.pt.x) ∧
      (w.span horz).1 < (if horz then n.pt.x else n.pt.y) ∧ (if horz then n.pt.x else n.pt.y) < (w.span horz).2 := by
  obtain ⟨hs, hm⟩ := epMap_spec hc (n.layer, horz, if horz then n.pt.y else n.pt.x)
  unfold splitHit
  simp only
  generalize (if horz then n.pt.x else n.pt.y) = sp
  constructor
  · intro h
    split at h
    · rename_i ep bp j hf
      split at h
      · rename_i hlt
        simp only [List.mem_singleton, Prod.mk.injEq] at h
        obtain ⟨rfl, rfl⟩ := h
        refine ⟨rfl, ?_⟩
        have hmem := (hm _).1 (List.mem_of_find?_eq_some hf)
        obtain ⟨w, a1, a2, a3⟩ := mem_epEntries.1 hmem
        refine ⟨w, a1, a2, ?_⟩
        simp only at a3
        rw [← a3]; exact ⟨hlt.2, hlt.1⟩
      · simp at h
    · simp at h
  · rintro ⟨rfl, w, h1, h2, h3, h4⟩
    have hent : ((w.span horz).2, (w.span horz).1, i) ∈ epEntries objs (m.layer, horz, if horz then m.pt.y else m.pt.x) :=
      mem_epEntries.2 ⟨w, h1, h2, rfl⟩
    have hin := (hm _).2 hent
    cases hf : (epMap objs (m.layer, horz, if horz then m.pt.y else m.pt.x)).find? (fun x => decide (sp ≤ x.1)) with
    | none =>
      rw [List.find?_eq_none] at hf
      have := hf _ hin
      simp at this; omega
    | some y =>
      obtain ⟨ep, bp, j⟩ := y
      have hy1 : sp ≤ ep := by simpa using List.find?_some hf
      have hy2 := (hm _).1 (List.mem_of_find?_eq_some hf)
      have hle : ep ≤ (w.span horz).2 := by
        apply Classical.byContradiction
        intro hgt
        -- find? returns the first entry, and the list is sorted
        obtain ⟨as, bs, he, hall⟩ := (List.find?_eq_some_iff_append.1 hf).2
        rw [he] at hin hs
        rcases List.mem_append.1 hin with h | h
        · have := hall _ h
          simp at this; omega
        · rcases List.mem_cons.1 h with h | h
          · simp at h; omega
          · have := (List.pairwise_cons.1 (List.pairwise_append.1 hs).2.1).1 _ h
            simp only at this; omega
      have hji : j = i := by
        apply Classical.byContradiction
        intro hne
        have p1 := entry_pos hc hent
        have p2 := entry_pos hc hy2
        simp only at p1 p2
        refine entries_sep hc hy2 hent hne (z := ep - 1) ?_ ?_ <;> (unfold InSpan; simp only; omega)
      subst hji
      obtain ⟨w', b1, b2, b3⟩ := mem_epEntries.1 hy2
      simp only at b1 b3
      rw [h1] at b1
      simp at b1; subst b1
      simp only
      have e1 : ep = (w.span horz).2 := by rw [← b3]
      have e2 : bp = (w.span horz).1 := by rw [← b3]
      rw [if_pos ⟨by omega, by omega⟩]
      simp

/-! ### exactness of the node map -/

theorem wire_on_iff {w : CWire} (hp : w.Proper) (n : Node) : w.On n ↔
    (n ∈ (CObj.wire w).ends ∨ ∃ horz, w.splitKey = (n.layer, horz, if horz then n.pt.y else n.pt.x) ∧
      (w.span horz).1 < (if horz then n.pt.x else n.pt.y) ∧ (if horz then n.pt.x else n.pt.y) < (w.span horz).2) := by
  obtain ⟨⟨nx, ny⟩, nl⟩ := n
  obtain ⟨wl, ⟨bx, by_⟩, ⟨ex, ey⟩, t1, t2⟩ := w
  obtain ⟨h1, h2, h3⟩ := hp
  simp only at h1 h2 h3
  simp only [CWire.On, CObj.ends, List.mem_cons, Node.mk.injEq, Point.mk.injEq, List.not_mem_nil, or_false,
    CWire.splitKey, CWire.span]
  constructor
  · rintro ⟨hl, h | h⟩
    · by_cases hb : ny = by_
      · left; left; omega
      · by_cases he : ny = ey
        · left; right; omega
        · right; refine ⟨false, ?_⟩
          rw [if_pos (by omega)]
          simp only [Bool.false_eq_true, if_false, Prod.mk.injEq, true_and]; omega
    · by_cases hb : nx = bx
      · left; left; omega
      · by_cases he : nx = ex
        · left; right; omega
        · right; refine ⟨true, ?_⟩
          rw [if_neg (by omega)]
          simp only [if_true, Prod.mk.injEq, true_and]; omega
  · rintro ((h | h) | ⟨horz, hk, h4, h5⟩)
    · omega
    · omega
    · split at hk
      · simp only [Prod.mk.injEq] at hk
        obtain ⟨a, b, c⟩ := hk
        subst b
        simp only [Bool.false_eq_true, if_false] at c h4 h5
        omega
      · simp only [Prod.mk.injEq] at hk
        obtain ⟨a, b, c⟩ := hk
        subst b
        simp only [if_true] at c h4 h5
        omega

theorem mem_inserts {objs : List CObj} {pins : List (List Node)} (n : Node) (i : Nat) :
    (n, i) ∈ nodeInserts objs pins ↔
      (∃ o, objs[i]? = some o ∧ n ∈ o.ends) ∨ (∃ o ∈ objs, (n, i) ∈ o.splits objs) ∨
      ∃ k ns, i = objs.length + k ∧ pins[k]? = some ns ∧ n ∈ ns := by
  unfold nodeInserts
  rw [List.mem_append, List.mem_append, List.mem_flatMap, List.mem_flatMap, List.mem_flatMap]
  constructor
  · rintro ((⟨⟨o, j⟩, h1, h2⟩ | h) | ⟨⟨ns, k⟩, h1, h2⟩)
    · rw [List.mem_zipIdx_iff_getElem?] at h1
      obtain ⟨m, hm, he⟩ := List.mem_map.1 h2
      simp only [Prod.mk.injEq] at he
      obtain ⟨rfl, rfl⟩ := he
      exact .inl ⟨o, h1, hm⟩
    · exact .inr (.inl h)
    · rw [List.mem_zipIdx_iff_getElem?] at h1
      obtain ⟨m, hm, he⟩ := List.mem_map.1 h2
      simp only [Prod.mk.injEq] at he
      obtain ⟨rfl, rfl⟩ := he
      exact .inr (.inr ⟨k, ns, rfl, h1, hm⟩)
  · rintro (⟨o, h1, h2⟩ | h | ⟨k, ns, rfl, h1, h2⟩)
    · exact .inl (.inl ⟨(o, i), List.mem_zipIdx_iff_getElem?.2 h1, List.mem_map.2 ⟨n, h2, rfl⟩⟩)
    · exact .inl (.inr h)
    · exact .inr ⟨(ns, k), List.mem_zipIdx_iff_getElem?.2 h1, List.mem_map.2 ⟨n, h2, rfl⟩⟩

theorem ends_on {o : CObj} (hp : ∀ w, o = .wire w → w.Proper) {n : Node} (h : n ∈ o.ends) : o.On n := by
  cases o with
  | wire w => exact (wire_on_iff (hp w rfl) n).2 (.inl h)
  | via v =>
    simp only [CObj.ends, List.mem_cons, List.not_mem_nil, or_false] at h
    rcases h with h | h <;> simp [h, CObj.On]

/-- every split hit names an end of the object that triggered it -/
theorem splits_end {objs : List CObj} {pins : List (List Node)} (hc : CleanNet objs pins) {o : CObj}
    {n : Node} {i : Nat} (h : (n, i) ∈ o.splits objs) : n ∈ o.ends ∧
      ∃ w, objs[i]? = some (.wire w) ∧ w.On n := by
  have conc : ∀ (m : Node) (hz : Bool), (n, i) ∈ splitHit objs m hz → n = m ∧ ∃ w, objs[i]? = some (.wire w) ∧ w.On n := by
    intro m hz hh
    obtain ⟨rfl, w, h1, h2, h3, h4⟩ := (splitHit_iff hc m hz n i).1 hh
    exact ⟨rfl, w, h1, (wire_on_iff (hc.proper w (List.mem_of_getElem? h1)) n).2 (.inr ⟨hz, h2, h3, h4⟩)⟩
  cases o with
  | wire w =>
    simp only [CObj.splits, List.mem_append] at h
    rcases h with h | h <;> obtain ⟨rfl, hw⟩ := conc _ _ h <;> exact ⟨by simp [CObj.ends], hw⟩
  | via v =>
    simp only [CObj.splits, List.mem_append] at h
    rcases h with ((h | h) | h) | h <;> obtain ⟨rfl, hw⟩ := conc _ _ h <;> exact ⟨by simp [CObj.ends], hw⟩

/-- a wire passing strictly through an end of another object is reported for it -/
theorem splits_complete {objs : List CObj} {pins : List (List Node)} (hc : CleanNet objs pins) {o : CObj} (ho : o ∈ objs)
    {n : Node} (hn : n ∈ o.ends) {i : Nat} {w : CWire} (hi : objs[i]? = some (.wire w))
    {hz : Bool} (h2 : w.splitKey = (n.layer, hz, if hz then n.pt.y else n.pt.x))
    (h3 : (w.span hz).1 < (if hz then n.pt.x else n.pt.y)) (h4 : (if hz then n.pt.x else n.pt.y) < (w.span hz).2) :
    (n, i) ∈ o.splits objs := by
  have hit : (n, i) ∈ splitHit objs n hz := (splitHit_iff hc n hz n i).2 ⟨rfl, w, hi, h2, h3, h4⟩
  cases o with
  | via v =>
    simp only [CObj.ends, List.mem_cons, List.not_mem_nil, or_false] at hn
    simp only [CObj.splits, List.mem_append]
    rcases hn with hn | hn <;> (rw [hn] at hit ⊢; cases hz <;> simp [hit])
  | wire v =>
    have pv := hc.proper v ho
    have pw := hc.proper w (List.mem_of_getElem? hi)
    obtain ⟨j, hj⟩ := List.mem_iff_getElem?.1 ho
    -- the passing wire is perpendicular to `v`
    have hperp : hz = decide (v.b.x = v.e.x) := by
      apply Classical.byContradiction
      intro hne
      have hji : j ≠ i := by
        rintro rfl
        rw [hj] at hi
        simp at hi; subst hi
        simp only [CWire.splitKey] at h2
        split at h2
        · rename_i hx; simp only [Prod.mk.injEq] at h2; rw [← h2.2.1] at hne h3 h4
          simp only [CWire.span, Bool.false_eq_true, if_false] at h3 h4
          simp only [CObj.ends, List.mem_cons, List.not_mem_nil, or_false] at hn
          rcases hn with hn | hn <;> rw [hn] at h3 h4 <;> simp only at h3 h4 <;> omega
        · simp only [Prod.mk.injEq] at h2; rw [← h2.2.1] at hne h3 h4
          simp only [CWire.span, if_true] at h3 h4
          simp only [CObj.ends, List.mem_cons, List.not_mem_nil, or_false] at hn
          rcases hn with hn | hn <;> rw [hn] at h3 h4 <;> simp only at h3 h4 <;> omega
      have hvk : v.splitKey = (n.layer, hz, if hz then n.pt.y else n.pt.x) := by
        simp only [CObj.ends, List.mem_cons, List.not_mem_nil, or_false] at hn
        unfold CWire.splitKey
        rcases pv.1 with hv | hv
        · rw [if_pos hv.1]
          have : hz = false := by simpa [hv.1] using hne
          subst this
          rcases hn with hn | hn <;> rw [hn] <;> simp [hv.1]
        · have hx : v.b.x ≠ v.e.x := by omega
          rw [if_neg hx]
          have : hz = true := by simpa [hx] using hne
          subst this
          rcases hn with hn | hn <;> rw [hn] <;> simp [hv.1]
      have hsv := (proper_span pv (splitKey_key pv)).1
      rw [hvk] at hsv
      simp only at hsv
      -- unit step next to the end of `v`
      have hend : (w.span hz).1 < (w.span hz).2 := by omega
      simp only [CObj.ends, List.mem_cons, List.not_mem_nil, or_false] at hn
      have kv : v.key? = some (n.layer, hz, if hz then n.pt.y else n.pt.x) := by rw [splitKey_key pv, hvk]
      have kw : w.key? = some (n.layer, hz, if hz then n.pt.y else n.pt.x) := by rw [splitKey_key pw, h2]
      rcases hn with hn | hn
      · refine hc.apart j i v w hji hj hi (overlap_of_span pv pw kv kw (x := if hz then n.pt.x else n.pt.y) ?_ ?_)
        · unfold InSpan; simp only
          have : (v.span hz).1 = (if hz then n.pt.x else n.pt.y) := by rw [hn]; cases hz <;> rfl
          omega
        · unfold InSpan; simp only; omega
      · refine hc.apart j i v w hji hj hi (overlap_of_span pv pw kv kw (x := (if hz then n.pt.x else n.pt.y) - 1) ?_ ?_)
        · unfold InSpan; simp only
          have : (v.span hz).2 = (if hz then n.pt.x else n.pt.y) := by rw [hn]; cases hz <;> rfl
          omega
        · unfold InSpan; simp only; omega
    simp only [CObj.ends, List.mem_cons, List.not_mem_nil, or_false] at hn
    simp only [CObj.splits, List.mem_append]
    rw [← hperp]
    rcases hn with hn | hn
    · left; rw [← hn]; exact hit
    · right; rw [← hn]; exact hit

theorem nodeMap_exact {objs : List CObj} {pins : List (List Node)} (hc : CleanNet objs pins) (n : Node) (i : Nat) :
    (nodeMap objs pins).Has n i ↔ IsEnd objs n ∧ Present objs pins i n := by
  rw [nodeMap_has, mem_inserts]
  constructor
  · rintro (⟨o, h1, h2⟩ | ⟨o, h1, h2⟩ | ⟨k, ns, h1, h2, h3⟩)
    · have hm := List.mem_of_getElem? h1
      exact ⟨⟨o, hm, h2⟩, .inl ⟨o, h1, ends_on (fun w hw => hc.proper w (hw ▸ hm)) h2⟩⟩
    · obtain ⟨he, w, hw, hon⟩ := splits_end hc h2
      exact ⟨⟨o, h1, he⟩, .inl ⟨_, hw, hon⟩⟩
    · exact ⟨hc.pinEnds ns (List.mem_of_getElem? h2) n h3, .inr ⟨k, ns, h1, h2, h3⟩⟩
  · rintro ⟨⟨o, ho, hend⟩, ⟨p, hp, hon⟩ | ⟨k, ns, h1, h2, h3⟩⟩
    · cases p with
      | via v =>
        left; refine ⟨_, hp, ?_⟩
        obtain ⟨⟨nx, ny⟩, nl⟩ := n
        obtain ⟨h1, h2⟩ := hon
        simp only at h1 h2
        simp only [CObj.ends, List.mem_cons, Node.mk.injEq, List.not_mem_nil, or_false]
        rcases h2 with h2 | h2
        · exact .inl ⟨h1, h2⟩
        · exact .inr ⟨h1, h2⟩
      | wire w =>
        rcases (wire_on_iff (hc.proper w (List.mem_of_getElem? hp)) n).1 hon with h | ⟨hz, h2, h3, h4⟩
        · exact .inl ⟨_, hp, h⟩
        · exact .inr (.inl ⟨o, ho, splits_complete hc ho hend hp h2 h3 h4⟩)
    · exact .inr (.inr ⟨k, ns, h1, h2, h3⟩)

/-! ### adjacency -/

theorem mem_adjOf {m : NodeMap} (hs : m.Sorted) (i j : Nat) :
    j ∈ adjOf m i ↔ j ≠ i ∧ ∃ n, m.Has n i ∧ m.Has n j := by
  unfold adjOf
  rw [List.mem_flatMap]
  constructor
  · rintro ⟨⟨n, S⟩, h1, h2⟩
    split at h2
    · rename_i hi
      obtain ⟨hj, hne⟩ := List.mem_filter.1 h2
      exact ⟨by simpa using hne, n, ⟨S, h1, hi⟩, ⟨S, h1, hj⟩⟩
    · simp at h2
  · rintro ⟨hne, n, ⟨S, hS, hi⟩, ⟨T, hT, hj⟩⟩
    have := sorted_unique hs hS hT
    subst this
    refine ⟨(n, S), hS, ?_⟩
    rw [if_pos hi]
    exact List.mem_filter.2 ⟨hj, by simpa using hne⟩

theorem mem_adj_joined {objs : List CObj} {pins : List (List Node)} (hc : CleanNet objs pins) (i j : Nat) :
    j ∈ adjOf (nodeMap objs pins) i ↔ j ≠ i ∧ Joined objs pins i j := by
  rw [mem_adjOf (nodeMap_sorted objs pins)]
  constructor
  · rintro ⟨h, n, h1, h2⟩
    rw [nodeMap_exact hc] at h1 h2
    exact ⟨h, n, h1.1, h1.2, h2.2⟩
  · rintro ⟨h, n, h1, h2, h3⟩
    exact ⟨h, n, (nodeMap_exact hc n i).2 ⟨h1, h2⟩, (nodeMap_exact hc n j).2 ⟨h1, h3⟩⟩

theorem present_lt {objs : List CObj} {pins : List (List Node)} {i : Nat} {n : Node} (h : Present objs pins i n) :
    i < objs.length + pins.length := by
  rcases h with ⟨o, h, _⟩ | ⟨k, ns, rfl, h, _⟩
  · have := (List.getElem?_eq_some_iff.1 h).1; omega
  · have := (List.getElem?_eq_some_iff.1 h).1; omega

theorem within_iff_chain {objs : List CObj} {pins : List (List Node)} (hc : CleanNet objs pins) (K : Nat → Prop) (a b : Nat) :
    Within (adjOf (nodeMap objs pins)) K a b ↔ Chain (Joined objs pins) K a b := by
  constructor
  · intro h
    induction h with
    | refl k => exact .refl k
    | step _ hadj hk ih => exact .step ih ((mem_adj_joined hc _ _).1 hadj).2 hk
  · intro h
    induction h with
    | refl k => exact .refl k
    | @step b c h1 hj hk ih =>
      by_cases hbc : c = b
      · rw [hbc]; exact ih
      · exact .step ih ((mem_adj_joined hc _ _).2 ⟨hbc, hj⟩) hk

end TR
