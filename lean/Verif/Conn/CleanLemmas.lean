import Verif.Conn.NodeLemmas
/-! Lemmas about the clean-up after a successful check. -/
namespace TR

theorem Chain.trans {α : Type} {R : α → α → Prop} {K : α → Prop} {a b c : α} (h1 : Chain R K a b)
    (h2 : Chain R K b c) : Chain R K a c := by
  induction h2 with
  | refl _ => exact h1
  | step _ r k ih => exact .step ih r k

theorem Chain.widen {α : Type} {R : α → α → Prop} {K L : α → Prop} {a b : α} (h : Chain R K a b)
    (hK : ∀ x, K x → L x) : Chain R L a b := by
  induction h with
  | refl h => exact .refl (hK _ h)
  | step _ hjn h ih => exact .step ih hjn (hK _ h)

theorem Chain.mem {α : Type} {R : α → α → Prop} {K : α → Prop} {a b : α} (h : Chain R K a b) : K b := by
  cases h with
  | refl k => exact k
  | step _ _ k => exact k

theorem Chain.start {α : Type} {R : α → α → Prop} {K : α → Prop} {a b : α} (h : Chain R K a b) : K a := by
  induction h with
  | refl k => exact k
  | step _ _ _ ih => exact ih

theorem Chain.symm {α : Type} {R : α → α → Prop} {K : α → Prop} (hs : ∀ a b, R a b → R b a) {a b : α}
    (h : Chain R K a b) : Chain R K b a := by
  induction h with
  | refl k => exact .refl k
  | step h1 r k ih => exact Chain.trans (.step (.refl k) (hs _ _ r) h1.mem) ih

/-! ### dropping unused objects -/

theorem dropUnused_has (kept : Nat → Bool) (m : NodeMap) (n : Node) (i : Nat) :
    (dropUnused kept m).Has n i ↔ m.Has n i ∧ kept i = true := by
  unfold dropUnused NodeMap.Has
  constructor
  · rintro ⟨S, h1, h2⟩
    obtain ⟨⟨n', T⟩, h3, h4⟩ := List.mem_map.1 h1
    simp only [Prod.mk.injEq] at h4
    obtain ⟨rfl, rfl⟩ := h4
    obtain ⟨a, b⟩ := List.mem_filter.1 h2
    exact ⟨⟨T, h3, a⟩, b⟩
  · rintro ⟨⟨T, h1, h2⟩, h3⟩
    exact ⟨T.filter kept, List.mem_map.2 ⟨_, h1, rfl⟩, List.mem_filter.2 ⟨h2, h3⟩⟩

theorem dropUnused_sorted (kept : Nat → Bool) {m : NodeMap} (h : m.Sorted) : (dropUnused kept m).Sorted := by
  unfold dropUnused NodeMap.Sorted
  rw [List.pairwise_map]
  exact h

theorem revNodes_has {m : NodeMap} {i : Nat} {n : Node} (h : n ∈ revNodes m i) : m.Has n i := by
  unfold revNodes at h
  obtain ⟨⟨n', S⟩, h1, h2⟩ := List.mem_map.1 h
  obtain ⟨h3, h4⟩ := List.mem_filter.1 h1
  simp only [decide_eq_true_eq] at h4
  simp only at h2; subst h2
  exact ⟨S, h3, h4.2⟩

theorem mem_revNodes {m : NodeMap} (hs : m.Sorted) {i j : Nat} (hne : i ≠ j) {n : Node} (hi : m.Has n i)
    (hj : m.Has n j) : n ∈ revNodes m i := by
  obtain ⟨S, hS, hi⟩ := hi
  obtain ⟨T, hT, hj⟩ := hj
  have := sorted_unique hs hS hT
  subst this
  unfold revNodes
  refine List.mem_map.2 ⟨(n, S), List.mem_filter.2 ⟨hS, ?_⟩, rfl⟩
  simp only [decide_eq_true_eq]
  refine ⟨?_, hi⟩
  intro hl
  obtain ⟨a, rfl⟩ := List.length_eq_one_iff.1 hl
  simp at hi hj
  exact hne (hi.trans hj.symm)

/-! ### pieces -/

/-- begin before end on a common line (zero length allowed) -/
def CWire.Weak (w : CWire) : Prop :=
  (w.b.x = w.e.x ∧ w.b.y ≤ w.e.y) ∨ (w.b.y = w.e.y ∧ w.b.x ≤ w.e.x)

/-- `v` is a part of `w` -/
def CWire.PartOf (v w : CWire) : Prop := v.layer = w.layer ∧ ∀ n, v.On n → w.On n

def Sh (p q : Piece) : Prop := ∃ n, n ∈ p.rev ∧ n ∈ q.rev

theorem split_left {p : Piece} {s n : Node} (hw : p.w.Weak) (hs : p.w.On s) (hn : p.w.On n)
    (ha : p.w.axis n.pt ≤ p.w.axis s.pt) : CWire.On { p.w with e := s.pt, truncE := true } n := by
  unfold CWire.axis at ha
  unfold CWire.Weak at hw
  unfold CWire.On at *
  refine ⟨hn.1, ?_⟩
  simp only
  split at ha <;> omega

theorem split_right {p : Piece} {s n : Node} (hw : p.w.Weak) (hs : p.w.On s) (hn : p.w.On n)
    (ha : p.w.axis s.pt ≤ p.w.axis n.pt) : CWire.On { p.w with b := s.pt, truncB := true } n := by
  unfold CWire.axis at ha
  unfold CWire.Weak at hw
  unfold CWire.On at *
  refine ⟨hn.1, ?_⟩
  simp only
  split at ha <;> omega

theorem split_weak {p : Piece} {s : Node} (hw : p.w.Weak) (hs : p.w.On s) :
    CWire.Weak { p.w with e := s.pt, truncE := true } ∧ CWire.Weak { p.w with b := s.pt, truncB := true } := by
  unfold CWire.Weak CWire.On at *
  simp only
  omega

theorem split_part {p : Piece} {s : Node} (hw : p.w.Weak) (hs : p.w.On s) :
    CWire.PartOf { p.w with e := s.pt, truncE := true } p.w ∧
    CWire.PartOf { p.w with b := s.pt, truncB := true } p.w := by
  refine ⟨⟨rfl, ?_⟩, ⟨rfl, ?_⟩⟩
  · intro n hn
    unfold CWire.Weak CWire.On at *
    simp only at hn
    refine ⟨hn.1, ?_⟩
    omega
  · intro n hn
    unfold CWire.Weak CWire.On at *
    simp only at hn
    refine ⟨hn.1, ?_⟩
    omega

/-- What holds while wires are split. `own` maps the index of a piece to the wire it came from,
`W` gives the original wires and `R` their nodes. -/
structure PieceInv (W : Nat → Option CWire) (R : Nat → List Node) (own : Nat → Nat) (newIdx : Nat) (ps : List Piece) : Prop where
  idxLt : ∀ p ∈ ps, p.idx < newIdx
  idxInj : ∀ p ∈ ps, ∀ q ∈ ps, p.idx = q.idx → p = q
  ownW : ∀ p ∈ ps, ∃ w, W (own p.idx) = some w ∧ p.w.PartOf w
  weak : ∀ p ∈ ps, p.w.Weak
  on : ∀ p ∈ ps, ∀ n ∈ p.rev, p.w.On n
  cover : ∀ i w, W i = some w → ∀ n ∈ R i, ∃ p ∈ ps, own p.idx = i ∧ n ∈ p.rev
  linked : ∀ p ∈ ps, ∀ q ∈ ps, own p.idx = own q.idx → Chain Sh (· ∈ ps) p q

theorem split_step {W : Nat → Option CWire} {R : Nat → List Node} {own : Nat → Nat} {newIdx : Nat} {ps : List Piece}
    (inv : PieceInv W R own newIdx ps) {p : Piece} (hp : p ∈ ps) {s : Node} (hs : s ∈ p.rev) :
    PieceInv W R (fun i => if i = newIdx then own p.idx else own i) (newIdx + 1)
      (ps.map (fun q => if q.idx = p.idx then (splitPiece newIdx s p).1 else q) ++ [(splitPiece newIdx s p).2]) := by
  have hson := inv.on p hp s hs
  have hlt := inv.idxLt p hp
  generalize hl : (splitPiece newIdx s p).1 = l
  generalize hr : (splitPiece newIdx s p).2 = r
  have hlw : l.w = { p.w with e := s.pt, truncE := true } := by rw [← hl]; rfl
  have hrw : r.w = { p.w with b := s.pt, truncB := true } := by rw [← hr]; rfl
  have hli : l.idx = p.idx := by rw [← hl]; rfl
  have hri : r.idx = newIdx := by rw [← hr]; rfl
  have hlr : ∀ n, n ∈ l.rev ↔ n ∈ p.rev ∧ p.w.axis n.pt ≤ p.w.axis s.pt := by
    intro n; rw [← hl]; simp [splitPiece]
  have hrr : ∀ n, n ∈ r.rev ↔ n ∈ p.rev ∧ p.w.axis s.pt ≤ p.w.axis n.pt := by
    intro n; rw [← hr]; simp [splitPiece]
  -- members of the new list
  have hmem : ∀ x, x ∈ ps.map (fun q => if q.idx = p.idx then l else q) ++ [r] ↔
      (x ∈ ps ∧ x.idx ≠ p.idx) ∨ x = l ∨ x = r := by
    intro x
    rw [List.mem_append, List.mem_map, List.mem_singleton]
    constructor
    · rintro (⟨q, hq, he⟩ | h)
      · split at he
        · exact .inr (.inl he.symm)
        · rename_i hne; subst he; exact .inl ⟨hq, hne⟩
      · exact .inr (.inr h)
    · rintro (⟨h1, h2⟩ | h | h)
      · exact .inl ⟨x, h1, by rw [if_neg h2]⟩
      · exact .inl ⟨p, hp, by rw [if_pos rfl]; exact h.symm⟩
      · exact .inr h
  generalize hps' : ps.map (fun q => if q.idx = p.idx then l else q) ++ [r] = ps' at hmem
  have hin_l : l ∈ ps' := (hmem l).2 (.inr (.inl rfl))
  have hin_r : r ∈ ps' := (hmem r).2 (.inr (.inr rfl))
  have hown_old : ∀ q ∈ ps, (if q.idx = newIdx then own p.idx else own q.idx) = own q.idx := by
    intro q hq; rw [if_neg]; have := inv.idxLt q hq; omega
  have hown_l : (if l.idx = newIdx then own p.idx else own l.idx) = own p.idx := by rw [hli, if_neg (by omega)]
  have hown_r : (if r.idx = newIdx then own p.idx else own r.idx) = own p.idx := by rw [hri, if_pos rfl]
  have hshlr : Sh l r := ⟨s, (hlr s).2 ⟨hs, Int.le_refl _⟩, (hrr s).2 ⟨hs, Int.le_refl _⟩⟩
  have hshrl : Sh r l := ⟨s, (hrr s).2 ⟨hs, Int.le_refl _⟩, (hlr s).2 ⟨hs, Int.le_refl _⟩⟩
  -- every old piece has representatives among the new ones, and chains carry over
  have chains : ∀ a b, Chain Sh (· ∈ ps) a b → ∀ x ∈ ps', ∀ y ∈ ps',
      ((a.idx ≠ p.idx ∧ x = a) ∨ (a = p ∧ (x = l ∨ x = r))) →
      ((b.idx ≠ p.idx ∧ y = b) ∨ (b = p ∧ (y = l ∨ y = r))) → Chain Sh (· ∈ ps') x y := by
    have self : ∀ a, ∀ x ∈ ps', ∀ y ∈ ps', ((a.idx ≠ p.idx ∧ x = a) ∨ (a = p ∧ (x = l ∨ x = r))) →
        ((a.idx ≠ p.idx ∧ y = a) ∨ (a = p ∧ (y = l ∨ y = r))) → Chain Sh (· ∈ ps') x y := by
      intro a x hx y hy h1 h2
      rcases h1 with ⟨n1, rfl⟩ | ⟨rfl, h1⟩
      · rcases h2 with ⟨_, rfl⟩ | ⟨e, _⟩
        · exact .refl hx
        · rw [e] at n1; exact absurd rfl n1
      · rcases h2 with ⟨n2, _⟩ | ⟨_, h2⟩
        · exact absurd rfl n2
        · rcases h1 with rfl | rfl <;> rcases h2 with rfl | rfl
          · exact .refl hx
          · exact .step (.refl hx) hshlr hy
          · exact .step (.refl hx) hshrl hy
          · exact .refl hx
    intro a b hc
    induction hc with
    | refl _ => intro x hx y hy h1 h2; exact self a x hx y hy h1 h2
    | @step b c h1 hsh hcm ih =>
      intro x hx y hy hax hcy
      obtain ⟨n, hnb, hnc⟩ := hsh
      have hbm : b ∈ ps := h1.mem
      -- a representative of `b` holding `n`
      have hrepb : ∃ z ∈ ps', ((b.idx ≠ p.idx ∧ z = b) ∨ (b = p ∧ (z = l ∨ z = r))) ∧ n ∈ z.rev := by
        by_cases hb : b.idx = p.idx
        · have := inv.idxInj b hbm p hp hb
          subst this
          rcases Int.le_total (b.w.axis n.pt) (b.w.axis s.pt) with h | h
          · exact ⟨l, hin_l, .inr ⟨rfl, .inl rfl⟩, (hlr n).2 ⟨hnb, h⟩⟩
          · exact ⟨r, hin_r, .inr ⟨rfl, .inr rfl⟩, (hrr n).2 ⟨hnb, h⟩⟩
        · exact ⟨b, (hmem b).2 (.inl ⟨hbm, hb⟩), .inl ⟨hb, rfl⟩, hnb⟩
      have hrepc : ∃ z ∈ ps', ((c.idx ≠ p.idx ∧ z = c) ∨ (c = p ∧ (z = l ∨ z = r))) ∧ n ∈ z.rev := by
        by_cases hb : c.idx = p.idx
        · have := inv.idxInj c hcm p hp hb
          subst this
          rcases Int.le_total (c.w.axis n.pt) (c.w.axis s.pt) with h | h
          · exact ⟨l, hin_l, .inr ⟨rfl, .inl rfl⟩, (hlr n).2 ⟨hnc, h⟩⟩
          · exact ⟨r, hin_r, .inr ⟨rfl, .inr rfl⟩, (hrr n).2 ⟨hnc, h⟩⟩
        · exact ⟨c, (hmem c).2 (.inl ⟨hcm, hb⟩), .inl ⟨hb, rfl⟩, hnc⟩
      obtain ⟨z, hz, hzb, hzn⟩ := hrepb
      obtain ⟨z', hz', hzc, hzn'⟩ := hrepc
      have c1 := ih x hx z hz hax hzb
      have c2 : Chain Sh (· ∈ ps') x z' := .step c1 ⟨n, hzn, hzn'⟩ hz'
      exact c2.trans (self c z' hz' y hy hzc hcy)
  -- origin of a new piece
  have origin : ∀ x ∈ ps', ∃ a ∈ ps, ((a.idx ≠ p.idx ∧ x = a) ∨ (a = p ∧ (x = l ∨ x = r))) ∧
      (if x.idx = newIdx then own p.idx else own x.idx) = own a.idx := by
    intro x hx
    rcases (hmem x).1 hx with ⟨h1, h2⟩ | h | h
    · exact ⟨x, h1, .inl ⟨h2, rfl⟩, hown_old x h1⟩
    · exact ⟨p, hp, .inr ⟨rfl, .inl h⟩, by rw [h]; exact hown_l⟩
    · exact ⟨p, hp, .inr ⟨rfl, .inr h⟩, by rw [h]; exact hown_r⟩
  obtain ⟨wk1, wk2⟩ := split_weak (inv.weak p hp) hson
  obtain ⟨pt1, pt2⟩ := split_part (inv.weak p hp) hson
  refine ⟨?_, ?_, ?_, ?_, ?_, ?_, ?_⟩
  · intro x hx
    rcases (hmem x).1 hx with ⟨h1, _⟩ | h | h
    · have := inv.idxLt x h1; omega
    · rw [h, hli]; omega
    · rw [h, hri]; omega
  · intro x hx y hy he
    rcases (hmem x).1 hx with ⟨h1, h2⟩ | h | h <;> rcases (hmem y).1 hy with ⟨g1, g2⟩ | g | g
    · exact inv.idxInj x h1 y g1 he
    · rw [g, hli] at he; exact absurd he h2
    · rw [g, hri] at he; have := inv.idxLt x h1; omega
    · rw [h, hli] at he; exact absurd he.symm g2
    · rw [h, g]
    · rw [h, g, hli, hri] at he; omega
    · rw [h, hri] at he; have := inv.idxLt y g1; omega
    · rw [h, g, hli, hri] at he; omega
    · rw [h, g]
  · intro x hx
    show ∃ w, W (if x.idx = newIdx then own p.idx else own x.idx) = some w ∧ x.w.PartOf w
    obtain ⟨w, e1, e2⟩ := inv.ownW p hp
    rcases (hmem x).1 hx with ⟨h1, _⟩ | h | h
    · rw [hown_old x h1]; exact inv.ownW x h1
    · rw [h, hown_l, hlw]
      exact ⟨w, e1, pt1.1.trans e2.1, fun n hn => e2.2 n (pt1.2 n hn)⟩
    · rw [h, hown_r, hrw]
      exact ⟨w, e1, pt2.1.trans e2.1, fun n hn => e2.2 n (pt2.2 n hn)⟩
  · intro x hx
    rcases (hmem x).1 hx with ⟨h1, _⟩ | h | h
    · exact inv.weak x h1
    · rw [h, hlw]; exact wk1
    · rw [h, hrw]; exact wk2
  · intro x hx n hn
    rcases (hmem x).1 hx with ⟨h1, _⟩ | h | h
    · exact inv.on x h1 n hn
    · rw [h] at hn ⊢
      rw [hlw]
      obtain ⟨a, b⟩ := (hlr n).1 hn
      exact split_left (inv.weak p hp) hson (inv.on p hp n a) b
    · rw [h] at hn ⊢
      rw [hrw]
      obtain ⟨a, b⟩ := (hrr n).1 hn
      exact split_right (inv.weak p hp) hson (inv.on p hp n a) b
  · intro i w hi n hn
    show ∃ x ∈ ps', (if x.idx = newIdx then own p.idx else own x.idx) = i ∧ n ∈ x.rev
    obtain ⟨q, hq, ho, hnq⟩ := inv.cover i w hi n hn
    by_cases hqp : q.idx = p.idx
    · have := inv.idxInj q hq p hp hqp
      subst this
      rcases Int.le_total (q.w.axis n.pt) (q.w.axis s.pt) with h | h
      · exact ⟨l, hin_l, by rw [hown_l]; exact ho, (hlr n).2 ⟨hnq, h⟩⟩
      · exact ⟨r, hin_r, by rw [hown_r]; exact ho, (hrr n).2 ⟨hnq, h⟩⟩
    · exact ⟨q, (hmem q).2 (.inl ⟨hq, hqp⟩), by rw [hown_old q hq]; exact ho, hnq⟩
  · intro x hx y hy he
    obtain ⟨a, ha, hxa, hoa⟩ := origin x hx
    obtain ⟨b, hb, hyb, hob⟩ := origin y hy
    have : own a.idx = own b.idx := by rw [← hoa, ← hob]; exact he
    exact chains a b (inv.linked a ha b hb this) x hx y hy hxa hyb

/-- nodes on a wire that are ordered are ordered along its axis -/
theorem axis_mono {w : CWire} {n s : Node} (hw : w.Weak) (hn : w.On n) (hs : w.On s) (h : n.lt s = true) :
    w.axis n.pt ≤ w.axis s.pt := by
  rw [Node.lt_iff] at h
  unfold CWire.axis
  unfold CWire.Weak CWire.On at *
  split <;> omega

theorem splitLoop_inv {W : Nat → Option CWire} {R : Nat → List Node} : ∀ (L : List (Node × Nat)) (own : Nat → Nat)
    (newIdx : Nat) (ps : List Piece), PieceInv W R own newIdx ps →
    L.Pairwise (fun a b => b.1.lt a.1 = true) →
    (∀ x ∈ L, ∃ p ∈ ps, p.idx = x.2 ∧ x.1 ∈ p.rev) →
    ∃ own' newIdx', PieceInv W R own' newIdx' (splitLoop newIdx L ps)
  | [], own, newIdx, ps, inv, _, _ => ⟨own, newIdx, inv⟩
  | (s, i) :: r, own, newIdx, ps, inv, hord, hloc => by
    rw [List.pairwise_cons] at hord
    obtain ⟨p, hp, hpi, hsp⟩ := hloc (s, i) (by simp)
    simp only at hpi hsp
    rw [splitLoop]
    have hfind : ps.find? (fun p => p.idx == i) = some p := by
      cases hf : ps.find? (fun p => p.idx == i) with
      | none =>
        rw [List.find?_eq_none] at hf
        have := hf p hp; simp [hpi] at this
      | some q =>
        have h1 := List.mem_of_find?_eq_some hf
        have h2 : q.idx = i := by simpa using List.find?_some hf
        rw [inv.idxInj q h1 p hp (h2.trans hpi.symm)]
    rw [hfind]
    simp only
    have hstep := split_step inv hp hsp
    rw [hpi] at hstep
    refine splitLoop_inv r _ _ _ hstep hord.2 ?_
    intro x hx
    obtain ⟨q, hq, hqi, hxq⟩ := hloc x (by simp [hx])
    by_cases hqp : q.idx = i
    · have hqe : q = p := inv.idxInj q hq p hp (hqp.trans hpi.symm)
      subst hqe
      refine ⟨(splitPiece newIdx s q).1, ?_, by rw [← hqi]; rfl, ?_⟩
      · apply List.mem_append_left
        exact List.mem_map.2 ⟨q, hq, by rw [if_pos hpi]⟩
      · show x.1 ∈ q.rev.filter _
        refine List.mem_filter.2 ⟨hxq, ?_⟩
        simp only [decide_eq_true_eq]
        exact axis_mono (inv.weak q hq) (inv.on q hq _ hxq) (inv.on q hq _ hsp) (hord.1 x hx)
    · exact ⟨q, List.mem_append_left _ (List.mem_map.2 ⟨q, hq, by rw [if_neg hqp]⟩), hqi, hxq⟩

/-! ### shrinking -/

theorem minPt_spec (L : List Node) (h : L ≠ []) : ∃ m, minPt L = some m ∧ m ∈ L ∧ ∀ n ∈ L, ¬ n.lt m = true := by
  induction L with
  | nil => exact absurd rfl h
  | cons a r ih =>
    cases r with
    | nil => exact ⟨a, rfl, by simp, by intro n hn; simp at hn; rw [hn]; exact Node.lt_irrefl a⟩
    | cons b r =>
      obtain ⟨m, h1, h2, h3⟩ := ih (by simp)
      rw [minPt, h1]
      simp only
      by_cases hc : m.lt a = true
      · rw [if_pos hc]
        refine ⟨m, rfl, by simp at h2 ⊢; exact .inr h2, ?_⟩
        intro n hn
        rcases List.mem_cons.1 hn with hn | hn
        · rw [hn]; intro h'; exact Node.lt_irrefl _ (Node.lt_trans h' hc)
        · exact h3 n hn
      · rw [if_neg hc]
        refine ⟨a, rfl, by simp, ?_⟩
        intro n hn
        rcases List.mem_cons.1 hn with hn | hn
        · rw [hn]; exact Node.lt_irrefl a
        · intro h'
          by_cases hma : a.lt m = true
          · exact h3 n hn (Node.lt_trans h' hma)
          · have := Node.eq_of_not_lt hc hma
            rw [← this] at h'; exact h3 n hn h'

theorem maxPt_spec (L : List Node) (h : L ≠ []) : ∃ m, maxPt L = some m ∧ m ∈ L ∧ ∀ n ∈ L, ¬ m.lt n = true := by
  induction L with
  | nil => exact absurd rfl h
  | cons a r ih =>
    cases r with
    | nil => exact ⟨a, rfl, by simp, by intro n hn; simp at hn; rw [hn]; exact Node.lt_irrefl a⟩
    | cons b r =>
      obtain ⟨m, h1, h2, h3⟩ := ih (by simp)
      rw [maxPt, h1]
      simp only
      by_cases hc : a.lt m = true
      · rw [if_pos hc]
        refine ⟨m, rfl, by simp at h2 ⊢; exact .inr h2, ?_⟩
        intro n hn
        rcases List.mem_cons.1 hn with hn | hn
        · rw [hn]; intro h'; exact Node.lt_irrefl _ (Node.lt_trans h' hc)
        · exact h3 n hn
      · rw [if_neg hc]
        refine ⟨a, rfl, by simp, ?_⟩
        intro n hn
        rcases List.mem_cons.1 hn with hn | hn
        · rw [hn]; exact Node.lt_irrefl a
        · intro h'
          by_cases hma : m.lt a = true
          · exact h3 n hn (Node.lt_trans hma h')
          · have := Node.eq_of_not_lt hma hc
            rw [← this] at h'; exact h3 n hn h'

theorem shrink_spec {p : Piece} (hw : p.w.Weak) (hon : ∀ n ∈ p.rev, p.w.On n) :
    (shrinkPiece p).PartOf p.w ∧ (∀ n ∈ p.rev, (shrinkPiece p).On n) ∧ (shrinkPiece p).Weak := by
  unfold shrinkPiece
  by_cases hne : p.rev = []
  · have h1 : minPt p.rev = none := by rw [hne]; rfl
    rw [h1]
    simp only
    refine ⟨⟨rfl, fun n h => h⟩, ?_, hw⟩
    rw [hne]; simp
  · obtain ⟨mn, a1, a2, a3⟩ := minPt_spec p.rev hne
    obtain ⟨mx, b1, b2, b3⟩ := maxPt_spec p.rev hne
    rw [a1, b1]
    simp only
    split
    · have hmn := hon mn a2
      have hmx := hon mx b2
      have hle : ¬ mx.lt mn = true := a3 mx b2
      rw [Node.lt_iff] at hle
      refine ⟨⟨rfl, ?_⟩, ?_, ?_⟩
      · intro n hn
        unfold CWire.Weak CWire.On at *
        simp only at hn
        refine ⟨hn.1, ?_⟩
        omega
      · intro n hn
        have h1 := hon n hn
        have h2 := a3 n hn
        have h3 := b3 n hn
        rw [Node.lt_iff] at h2 h3
        unfold CWire.Weak CWire.On at *
        simp only
        refine ⟨h1.1, ?_⟩
        omega
      · unfold CWire.Weak CWire.On at *
        simp only
        omega
    · exact ⟨⟨rfl, fun n h => h⟩, hon, hw⟩

end TR
