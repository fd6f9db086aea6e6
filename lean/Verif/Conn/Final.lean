import Verif.Conn.CleanLemmas
/-! The clean-up keeps pins connected. -/
namespace TR

theorem mem_keptPieces {objs : List CObj} {kept : Nat → Bool} {nm : NodeMap} {p : Piece} :
    p ∈ keptPieces objs kept nm ↔ ∃ w, objs[p.idx]? = some (.wire w) ∧ kept p.idx = true ∧ p.w = w ∧ p.rev = revNodes nm p.idx := by
  unfold keptPieces
  rw [List.mem_filterMap]
  constructor
  · rintro ⟨⟨o, i⟩, h1, h2⟩
    rw [List.mem_zipIdx_iff_getElem?] at h1
    cases o with
    | via v => simp at h2
    | wire w =>
      simp only at h2
      split at h2
      · rename_i hk
        simp only [Option.some.injEq] at h2; subst h2
        exact ⟨w, h1, hk, rfl, rfl⟩
      · simp at h2
  · rintro ⟨w, h1, h2, h3, h4⟩
    refine ⟨(.wire w, p.idx), List.mem_zipIdx_iff_getElem?.2 h1, ?_⟩
    simp only [h2, if_true]
    obtain ⟨i, w', rv⟩ := p
    simp only at h3 h4
    rw [h3, h4]

theorem mem_keptVias {objs : List CObj} {kept : Nat → Bool} {v : CVia} :
    v ∈ keptVias objs kept ↔ ∃ i : Nat, objs[i]? = some (.via v) ∧ kept i = true := by
  unfold keptVias
  rw [List.mem_filterMap]
  constructor
  · rintro ⟨⟨o, i⟩, h1, h2⟩
    rw [List.mem_zipIdx_iff_getElem?] at h1
    cases o with
    | wire w => simp at h2
    | via u =>
      simp only at h2
      split at h2
      · rename_i hk
        simp only [Option.some.injEq] at h2; subst h2
        exact ⟨i, h1, hk⟩
      · simp at h2
  · rintro ⟨i, h1, h2⟩
    refine ⟨(.via v, i), List.mem_zipIdx_iff_getElem?.2 h1, ?_⟩
    simp only [h2, if_true]

theorem passingWire_mem {objs : List CObj} {n : Node} : ∀ (S : List Nat) (acc : Option Nat) (i : Nat),
    passingWire objs n S acc = some i → acc = some i ∨ (i ∈ S ∧ ∃ w, objs[i]? = some (.wire w))
  | [], acc, i, h => .inl h
  | j :: r, acc, i, h => by
    rw [passingWire] at h
    split at h
    · rcases passingWire_mem r acc i h with h | ⟨h1, h2⟩
      · exact .inl h
      · exact .inr ⟨by simp [h1], h2⟩
    · split at h
      · rename_i w hw
        split at h
        · simp at h
        · rcases passingWire_mem r _ i h with h | ⟨h1, h2⟩
          · simp at h; subst h
            exact .inr ⟨by simp, w, hw⟩
          · exact .inr ⟨by simp [h1], h2⟩
      · simp at h
      · rcases passingWire_mem r acc i h with h | ⟨h1, h2⟩
        · exact .inl h
        · exact .inr ⟨by simp [h1], h2⟩

/-- the pieces at the end of the split loop -/
def finalPieces (objs : List CObj) (pins : List (List Node)) (kept : Nat → Bool) : List Piece :=
  splitLoop (objs.length + pins.length) (psSplits objs (dropUnused kept (nodeMap objs pins))).reverse
    (keptPieces objs kept (dropUnused kept (nodeMap objs pins)))

/-- kept wires by index -/
def keptWire (objs : List CObj) (kept : Nat → Bool) (i : Nat) : Option CWire :=
  match objs[i]? with
  | some (.wire w) => if kept i then some w else none
  | _ => none

theorem keptWire_some {objs : List CObj} {kept : Nat → Bool} {i : Nat} {w : CWire} :
    keptWire objs kept i = some w ↔ objs[i]? = some (.wire w) ∧ kept i = true := by
  unfold keptWire
  split
  · rename_i v hv
    rw [hv]
    split
    · rename_i hk; simp [hk]
    · rename_i hk; simp [hk]
  · rename_i h
    constructor
    · intro h'; simp at h'
    · rintro ⟨h1, _⟩; exact absurd h1 (h w)

theorem proper_weak {w : CWire} (h : w.Proper) : w.Weak := by
  rcases h.1 with h | h
  · exact .inl ⟨h.1, by omega⟩
  · exact .inr ⟨h.1, by omega⟩

theorem finalPieces_inv {objs : List CObj} {pins : List (List Node)} (hc : CleanNet objs pins) (kept : Nat → Bool) :
    ∃ own newIdx, PieceInv (keptWire objs kept) (revNodes (dropUnused kept (nodeMap objs pins))) own newIdx
      (finalPieces objs pins kept) := by
  have hsorted := dropUnused_sorted kept (nodeMap_sorted objs pins)
  generalize hnm : dropUnused kept (nodeMap objs pins) = nm at hsorted
  have hhas : ∀ n i, nm.Has n i ↔ (IsEnd objs n ∧ Present objs pins i n) ∧ kept i = true := by
    intro n i; rw [← hnm, dropUnused_has, nodeMap_exact hc]
  have hinit : PieceInv (keptWire objs kept) (revNodes nm) id (objs.length + pins.length) (keptPieces objs kept nm) := by
    refine ⟨?_, ?_, ?_, ?_, ?_, ?_, ?_⟩
    · intro p hp
      obtain ⟨w, h1, _⟩ := mem_keptPieces.1 hp
      have := (List.getElem?_eq_some_iff.1 h1).1; omega
    · intro p hp q hq he
      obtain ⟨w, h1, h2, h3, h4⟩ := mem_keptPieces.1 hp
      obtain ⟨v, g1, g2, g3, g4⟩ := mem_keptPieces.1 hq
      rw [he, g1] at h1
      simp at h1; subst h1
      rw [he] at h4
      obtain ⟨a, b, c⟩ := p
      obtain ⟨a', b', c'⟩ := q
      simp only at *
      rw [he, h3, h4, g3, g4]
    · intro p hp
      obtain ⟨w, h1, h2, h3, h4⟩ := mem_keptPieces.1 hp
      exact ⟨w, keptWire_some.2 ⟨h1, h2⟩, by rw [h3]; exact ⟨rfl, fun n h => h⟩⟩
    · intro p hp
      obtain ⟨w, h1, h2, h3, h4⟩ := mem_keptPieces.1 hp
      rw [h3]; exact proper_weak (hc.proper w (List.mem_of_getElem? h1))
    · intro p hp n hn
      obtain ⟨w, h1, h2, h3, h4⟩ := mem_keptPieces.1 hp
      rw [h4] at hn
      obtain ⟨⟨_, hpr⟩, _⟩ := (hhas n p.idx).1 (revNodes_has hn)
      rcases hpr with ⟨o, ho, hon⟩ | ⟨k, ns, hk, _⟩
      · rw [h1] at ho
        simp at ho; subst ho
        rw [h3]; exact hon
      · have := (List.getElem?_eq_some_iff.1 h1).1; omega
    · intro i w hi n hn
      obtain ⟨h1, h2⟩ := keptWire_some.1 hi
      exact ⟨⟨i, w, revNodes nm i⟩, mem_keptPieces.2 ⟨w, h1, h2, rfl, rfl⟩, rfl, hn⟩
    · intro p hp q hq he
      obtain ⟨w, h1, h2, h3, h4⟩ := mem_keptPieces.1 hp
      obtain ⟨v, g1, g2, g3, g4⟩ := mem_keptPieces.1 hq
      have he' : p.idx = q.idx := he
      rw [he', g1] at h1
      simp at h1; subst h1
      have : p = q := by
        rw [he'] at h4
        obtain ⟨a, b, c⟩ := p
        obtain ⟨a', b', c'⟩ := q
        simp only at *
        rw [he', h3, h4, g3, g4]
      rw [this]; exact .refl hq
  have hord : (psSplits objs nm).reverse.Pairwise (fun a b => b.1.lt a.1 = true) := by
    rw [List.pairwise_reverse]
    unfold psSplits
    apply List.Pairwise.filterMap _ _ hsorted
    intro a b hab x hx y hy
    split at hx
    · split at hy
      · cases h1 : passingWire objs a.1 a.2 none with
        | none => rw [h1] at hx; simp at hx
        | some i =>
          cases h2 : passingWire objs b.1 b.2 none with
          | none => rw [h2] at hy; simp at hy
          | some j => rw [h1] at hx; rw [h2] at hy; simp at hx hy; rw [← hx, ← hy]; exact hab
      · simp at hy
    · simp at hx
  have hloc : ∀ x ∈ (psSplits objs nm).reverse, ∃ p ∈ keptPieces objs kept nm, p.idx = x.2 ∧ x.1 ∈ p.rev := by
    intro x hx
    rw [List.mem_reverse] at hx
    unfold psSplits at hx
    obtain ⟨⟨n, S⟩, h1, h2⟩ := List.mem_filterMap.1 hx
    split at h2
    · rename_i hany
      obtain ⟨j, hjS, hj⟩ := List.any_eq_true.1 hany
      simp only [decide_eq_true_eq] at hj
      cases hpw : passingWire objs n S none with
      | none => rw [hpw] at h2; simp at h2
      | some i =>
        rw [hpw] at h2; simp at h2; subst h2
        rcases passingWire_mem S none i hpw with h | ⟨hiS, w, hw⟩
        · simp at h
        · have hi : nm.Has n i := ⟨S, h1, hiS⟩
          have hjh : nm.Has n j := ⟨S, h1, hjS⟩
          have hil := (List.getElem?_eq_some_iff.1 hw).1
          refine ⟨⟨i, w, revNodes nm i⟩, mem_keptPieces.2 ⟨w, hw, ((hhas n i).1 hi).2, rfl, rfl⟩, rfl, ?_⟩
          exact mem_revNodes hsorted (by omega) hi hjh
    · simp at h2
  obtain ⟨own, nw, h⟩ := splitLoop_inv _ id _ _ hinit hord hloc
  exact ⟨own, nw, by unfold finalPieces; rw [hnm]; exact h⟩

theorem touch_symm {pins : List (List Node)} (a b : El) (h : Touch pins a b) : Touch pins b a := by
  obtain ⟨n, h1, h2⟩ := h; exact ⟨n, h2, h1⟩

/-- shapes of the net after the clean-up -/
def Cleaned.objs (c : Cleaned) : List CObj := initObjs c.wires c.vias

theorem mem_initObjs {ws : List CWire} {vs : List CVia} {o : CObj} :
    o ∈ initObjs ws vs ↔ (∃ w ∈ ws, o = .wire w) ∨ ∃ v ∈ vs, o = .via v := by
  unfold initObjs
  rw [List.mem_append, List.mem_map, List.mem_map]
  constructor
  · rintro (⟨w, h, rfl⟩ | ⟨w, h, rfl⟩)
    · exact .inl ⟨w, h, rfl⟩
    · exact .inr ⟨w, h, rfl⟩
  · rintro (⟨w, h, rfl⟩ | ⟨w, h, rfl⟩)
    · exact .inl ⟨w, h, rfl⟩
    · exact .inr ⟨w, h, rfl⟩

theorem final_connected {objs : List CObj} {pins : List (List Node)} (hc : CleanNet objs pins) {kept : Nat → Bool}
    (patches : List Node) {a b : Nat} (hch : Chain (Joined objs pins) (fun i => kept i = true) (objs.length + a) (objs.length + b))
    (ha : a < pins.length) (hb : b < pins.length) :
    Chain (Touch pins) (InNet (finalClean objs pins.length kept (nodeMap objs pins) patches).objs pins) (.pin a) (.pin b) := by
  obtain ⟨own, nw, inv⟩ := finalPieces_inv hc kept
  have hsorted := dropUnused_sorted kept (nodeMap_sorted objs pins)
  have hwires : (finalClean objs pins.length kept (nodeMap objs pins) patches).wires =
      (finalPieces objs pins kept).map shrinkPiece := rfl
  have hvias : (finalClean objs pins.length kept (nodeMap objs pins) patches).vias = keptVias objs kept := rfl
  have hin_w : ∀ p ∈ finalPieces objs pins kept,
      InNet (finalClean objs pins.length kept (nodeMap objs pins) patches).objs pins (.obj (.wire (shrinkPiece p))) := by
    intro p hp
    exact mem_initObjs.2 (.inl ⟨_, by rw [hwires]; exact List.mem_map_of_mem hp, rfl⟩)
  have hin_v : ∀ i v, objs[i]? = some (.via v) → kept i = true →
      InNet (finalClean objs pins.length kept (nodeMap objs pins) patches).objs pins (.obj (.via v)) := by
    intro i v h1 h2
    exact mem_initObjs.2 (.inr ⟨_, by rw [hvias]; exact mem_keptVias.2 ⟨i, h1, h2⟩, rfl⟩)
  generalize hF : (finalClean objs pins.length kept (nodeMap objs pins) patches).objs = F at hin_w hin_v ⊢
  let Rep : Nat → El → Prop := fun i e =>
    (∃ k, i = objs.length + k ∧ k < pins.length ∧ e = .pin k) ∨
    (∃ v, objs[i]? = some (.via v) ∧ e = .obj (.via v)) ∨
    (∃ w p, objs[i]? = some (.wire w) ∧ p ∈ finalPieces objs pins kept ∧ own p.idx = i ∧ e = .obj (.wire (shrinkPiece p)))
  have repIn : ∀ i e, kept i = true → Rep i e → InNet F pins e := by
    rintro i e hk (⟨k, _, h, rfl⟩ | ⟨v, h, rfl⟩ | ⟨w, p, h, hp, _, rfl⟩)
    · exact h
    · exact hin_v i v h hk
    · exact hin_w p hp
  have pieceChain : ∀ p q, Chain Sh (· ∈ finalPieces objs pins kept) p q →
      Chain (Touch pins) (InNet F pins) (.obj (.wire (shrinkPiece p))) (.obj (.wire (shrinkPiece q))) := by
    intro p q h
    induction h with
    | refl hp => exact .refl (hin_w p hp)
    | @step x y h1 hsh hy ih =>
      obtain ⟨n, hx', hy'⟩ := hsh
      have hx := h1.mem
      exact .step ih ⟨n, (shrink_spec (inv.weak x hx) (inv.on x hx)).2.1 n hx',
        (shrink_spec (inv.weak y hy) (inv.on y hy)).2.1 n hy'⟩ (hin_w y hy)
  have self : ∀ i e e', kept i = true → Rep i e → Rep i e' → Chain (Touch pins) (InNet F pins) e e' := by
    intro i e e' hk h1 h2
    have hIn := repIn i e hk h1
    rcases h1 with ⟨k, hi, h, rfl⟩ | ⟨v, h, rfl⟩ | ⟨w, p, h, hp, ho, rfl⟩
    · rcases h2 with ⟨k', hi', _, rfl⟩ | ⟨v, h', _⟩ | ⟨w, p, h', _⟩
      · have : k' = k := by omega
        rw [this]; exact .refl hIn
      · have := (List.getElem?_eq_some_iff.1 h').1; omega
      · have := (List.getElem?_eq_some_iff.1 h').1; omega
    · rcases h2 with ⟨k', hi', _, rfl⟩ | ⟨v', h', rfl⟩ | ⟨w, p, h', _⟩
      · have := (List.getElem?_eq_some_iff.1 h).1; omega
      · rw [h] at h'; simp at h'; rw [← h']; exact .refl hIn
      · rw [h] at h'; simp at h'
    · rcases h2 with ⟨k', hi', _, rfl⟩ | ⟨v', h', rfl⟩ | ⟨w', q, h', hq, ho', rfl⟩
      · have := (List.getElem?_eq_some_iff.1 h).1; omega
      · rw [h] at h'; simp at h'
      · exact pieceChain p q (inv.linked p hp q hq (ho.trans ho'.symm))
  -- an element present at a shared node has a representative there
  have rep : ∀ i j n, i ≠ j → kept i = true → kept j = true → IsEnd objs n → Present objs pins i n →
      Present objs pins j n → ∃ e, Rep i e ∧ e.On pins n := by
    intro i j n hne hki hkj hend hi hj
    rcases hi with ⟨o, ho, hon⟩ | ⟨k, ns, hk, h1, h2⟩
    · cases o with
      | via v => exact ⟨.obj (.via v), .inr (.inl ⟨v, ho, rfl⟩), hon⟩
      | wire w =>
        have hhi : (dropUnused kept (nodeMap objs pins)).Has n i :=
          (dropUnused_has _ _ _ _).2 ⟨(nodeMap_exact hc n i).2 ⟨hend, .inl ⟨_, ho, hon⟩⟩, hki⟩
        have hhj : (dropUnused kept (nodeMap objs pins)).Has n j :=
          (dropUnused_has _ _ _ _).2 ⟨(nodeMap_exact hc n j).2 ⟨hend, hj⟩, hkj⟩
        have hrev := mem_revNodes hsorted hne hhi hhj
        obtain ⟨p, hp, hown, hnp⟩ := inv.cover i w (keptWire_some.2 ⟨ho, hki⟩) n hrev
        exact ⟨_, .inr (.inr ⟨w, p, ho, hp, hown, rfl⟩), (shrink_spec (inv.weak p hp) (inv.on p hp)).2.1 n hnp⟩
    · exact ⟨.pin k, .inl ⟨k, hk, (List.getElem?_eq_some_iff.1 h1).1, rfl⟩, ns, h1, h2⟩
  have main : ∀ x, Chain (Joined objs pins) (fun i => kept i = true) (objs.length + a) x →
      ∀ e, Rep x e → Chain (Touch pins) (InNet F pins) (.pin a) e := by
    intro x h
    induction h with
    | refl hk => intro e he; exact self _ _ _ hk (.inl ⟨a, rfl, ha, rfl⟩) he
    | @step y z h1 hj hk ih =>
      intro e he
      by_cases hyz : y = z
      · rw [← hyz] at he; exact ih e he
      · obtain ⟨n, hend, hy, hz⟩ := hj
        have hky : kept y = true := h1.mem
        obtain ⟨e1, r1, o1⟩ := rep y z n hyz hky hk hend hy hz
        obtain ⟨e2, r2, o2⟩ := rep z y n (Ne.symm hyz) hk hky hend hz hy
        have c1 := ih e1 r1
        have c2 : Chain (Touch pins) (InNet F pins) (.pin a) e2 := .step c1 ⟨n, o1, o2⟩ (repIn z e2 hk r2)
        exact c2.trans (self z e2 e hk r2 he)
  exact main _ hch _ (.inl ⟨b, rfl, hb, rfl⟩)

/-- the clean-up adds no metal -/
theorem final_parts {objs : List CObj} {pins : List (List Node)} (hc : CleanNet objs pins) (kept : Nat → Bool)
    (patches : List Node) :
    let c := finalClean objs pins.length kept (nodeMap objs pins) patches
    (∀ w ∈ c.wires, w.Weak ∧ ∃ i w0, objs[i]? = some (CObj.wire w0) ∧ kept i = true ∧ w.PartOf w0) ∧
    (∀ v ∈ c.vias, ∃ i : Nat, objs[i]? = some (.via v) ∧ kept i = true) ∧
    (∀ n, n ∈ c.patches ↔ n ∈ patches ∧ IsEnd c.objs n) := by
  obtain ⟨own, nw, inv⟩ := finalPieces_inv hc kept
  refine ⟨?_, ?_, ?_⟩
  · intro w hw
    obtain ⟨p, hp, rfl⟩ := List.mem_map.1 hw
    obtain ⟨w0, h1, h2⟩ := inv.ownW p hp
    obtain ⟨h3, h4⟩ := keptWire_some.1 h1
    obtain ⟨s1, s2, s3⟩ := shrink_spec (inv.weak p hp) (inv.on p hp)
    exact ⟨s3, own p.idx, w0, h3, h4, s1.1.trans h2.1, fun n hn => h2.2 n (s1.2 n hn)⟩
  · intro v hv
    exact mem_keptVias.1 hv
  · intro n
    show n ∈ List.filter _ _ ↔ _
    rw [List.mem_filter]
    constructor
    · rintro ⟨h1, h2⟩
      refine ⟨h1, ?_⟩
      rw [List.contains_iff_mem, List.mem_append, List.mem_flatMap, List.mem_flatMap] at h2
      rcases h2 with ⟨w, hw, hn⟩ | ⟨v, hv, hn⟩
      · exact ⟨.wire w, mem_initObjs.2 (.inl ⟨w, hw, rfl⟩), hn⟩
      · exact ⟨.via v, mem_initObjs.2 (.inr ⟨v, hv, rfl⟩), hn⟩
    · rintro ⟨h1, o, ho, hn⟩
      refine ⟨h1, ?_⟩
      rw [List.contains_iff_mem, List.mem_append, List.mem_flatMap, List.mem_flatMap]
      rcases mem_initObjs.1 ho with ⟨w, hw, rfl⟩ | ⟨v, hv, rfl⟩
      · exact .inl ⟨w, hw, hn⟩
      · exact .inr ⟨v, hv, hn⟩

end TR
