import Verif.NetOrd.Model
import Verif.PaRun.RunProps
/-! # Properties of the order in which the nets of a region are routed -/
namespace TR

/-- the area of a rectangle -/
def NoNet.area (a : NoNet) : Int := (a.box.right - a.box.left) * (a.box.top - a.box.bottom)

/-- the box of the pins is small enough for its area to be a 32-bit number -/
def NoNet.Small (a : NoNet) : Prop := -2147483648 ≤ a.area ∧ a.area ≤ 2147483647

/-- `a` is to be routed before `b`: fewer pins, or as many and a smaller box around them, or the smaller number -/
def NoNet.Before (a b : NoNet) : Prop :=
  a.pins < b.pins ∨ (a.pins = b.pins ∧ (a.area < b.area ∨ (a.area = b.area ∧ a.id < b.id)))

theorem noArea_small {a : NoNet} (h : a.Small) : noArea a = some a.area := by
  rw [noArea, mul32, if_pos]
  · rfl
  · exact h

theorem noLess_small {a b : NoNet} (ha : a.Small) (hb : b.Small) : ∃ r, noLess a b = some r ∧ (r = true ↔ a.Before b) := by
  refine ⟨_, by rw [noLess, noArea_small ha, noArea_small hb], ?_⟩
  unfold NoNet.Before
  by_cases h1 : a.pins = b.pins
  · rw [if_pos h1]
    by_cases h2 : a.area = b.area
    · rw [if_pos h2, decide_eq_true_eq]; omega
    · rw [if_neg h2, decide_eq_true_eq]; omega
  · rw [if_neg h1, decide_eq_true_eq]; omega

theorem before_total {a b : NoNet} (h : a.id ≠ b.id) : a.Before b ∨ b.Before a := by
  unfold NoNet.Before; omega

/-- **C176 (the comparison).** Where it is defined the comparison is a strict order that tells any two nets apart, which is what the sort needs to be defined. -/
theorem c176_comparison (a b c : NoNet) (ha : a.Small) (hb : b.Small) (hc : c.Small) :
    noLess a a = some false ∧ (noLess a b = some true → noLess b a = some false) ∧ (noLess a b = some true → noLess b c = some true → noLess a c = some true) ∧
    (a.id ≠ b.id → noLess a b = some true ∨ noLess b a = some true) := by
  obtain ⟨raa, eaa, haa⟩ := noLess_small ha ha
  obtain ⟨rab, eab, hab⟩ := noLess_small ha hb
  obtain ⟨rba, eba, hba⟩ := noLess_small hb ha
  obtain ⟨rbc, ebc, hbc⟩ := noLess_small hb hc
  obtain ⟨rac, eac, hac⟩ := noLess_small ha hc
  rw [eaa, eab, eba, ebc, eac]
  simp only [Option.some.injEq]
  unfold NoNet.Before at *
  refine ⟨?_, ?_, ?_, ?_⟩
  · rw [← Bool.not_eq_true, haa]; omega
  · intro h
    rw [← Bool.not_eq_true, hba]
    have := hab.1 h
    omega
  · intro h1 h2
    have := hab.1 h1
    have := hbc.1 h2
    rw [hac]
    omega
  · intro h
    rw [hab, hba]
    omega

theorem noSort_before {l r : List NoNet} (hs : ∀ a ∈ l, a.Small) (hid : l.Pairwise (fun a b => a.id ≠ b.id)) (h : NoSort l r) : r.Pairwise NoNet.Before := by
  have hid' : r.Pairwise (fun a b => a.id ≠ b.id) := (h.1.pairwise_iff (fun {a b} hab => Ne.symm hab)).2 hid
  rw [List.pairwise_iff_getElem] at *
  intro i j hi hj hij
  have hne := hid' i j hi hj hij
  have h2 := h.2 i j hij _ _ (List.getElem?_eq_getElem hi) (List.getElem?_eq_getElem hj)
  obtain ⟨rr, er, hr⟩ := noLess_small (hs _ (h.1.subset (List.getElem_mem hj))) (hs _ (h.1.subset (List.getElem_mem hi)))
  rw [er] at h2
  injection h2 with h2
  rcases before_total hne with h3 | h3
  · exact h3
  · rw [hr.2 h3] at h2; cases h2

/-- **C176 (the order).** Each net of the region is in the order exactly once, and a net comes before another exactly when it has fewer pins in the region, or as many and a smaller box
around them, or also the same area and the smaller number. -/
theorem c176_order (l r : List NoNet) (hs : ∀ a ∈ l, a.Small) (hid : l.Pairwise (fun a b => a.id ≠ b.id)) (h : NoSort l r) :
    r.Perm l ∧ ∀ (i j : Nat) (a b : NoNet), r[i]? = some a → r[j]? = some b → (i < j ↔ a.Before b) := by
  refine ⟨h.1, ?_⟩
  have hp := noSort_before hs hid h
  rw [List.pairwise_iff_getElem] at hp
  intro i j a b ha hb
  obtain ⟨hi, rfl⟩ := List.getElem?_eq_some_iff.1 ha
  obtain ⟨hj, rfl⟩ := List.getElem?_eq_some_iff.1 hb
  refine ⟨hp i j hi hj, ?_⟩
  intro hb
  apply Classical.byContradiction
  intro hno
  by_cases e : i = j
  · subst e
    unfold NoNet.Before at hb; omega
  · have := hp j i hj hi (by omega)
    unfold NoNet.Before at *
    omega

/-- **C176 (the sort and the order of creation do not matter).** Whatever the library's sort does, and in whatever order the nets of the region were made, the result is the same. -/
theorem c176_unique (l l' r r' : List NoNet) (hp : l'.Perm l) (hs : ∀ a ∈ l, a.Small) (hid : l.Pairwise (fun a b => a.id ≠ b.id))
    (h : NoSort l r) (h' : NoSort l' r') : r = r' := by
  have h1 := noSort_before hs hid h
  have h2 := noSort_before (l := l') (fun a ha => hs a (hp.subset ha)) ((hp.pairwise_iff (fun {a b} hab => Ne.symm hab)).2 hid) h'
  have hperm : r.Perm r' := h.1.trans (hp.symm.trans h'.1.symm)
  refine List.Perm.eq_of_pairwise ?_ h1 h2 hperm
  intro a b _ _ hab hba
  unfold NoNet.Before at *
  omega

/-- such an order exists -/
theorem noSort_exists (l : List NoNet) (hs : ∀ a ∈ l, a.Small) : ∃ r, NoSort l r := by
  suffices h : ∀ l : List NoNet, (∀ a ∈ l, a.Small) → ∃ r : List NoNet, r.Perm l ∧ r.Pairwise (fun a b => ¬ b.Before a) by
    obtain ⟨r, hp, hr⟩ := h l hs
    refine ⟨r, hp, ?_⟩
    intro i j hij a b ha hb
    rw [List.pairwise_iff_getElem] at hr
    obtain ⟨hi, rfl⟩ := List.getElem?_eq_some_iff.1 ha
    obtain ⟨hj, rfl⟩ := List.getElem?_eq_some_iff.1 hb
    have := hr i j hi hj hij
    obtain ⟨rr, e, hrr⟩ := noLess_small (hs _ (hp.subset (List.getElem_mem hj))) (hs _ (hp.subset (List.getElem_mem hi)))
    rw [e]
    cases rr with
    | false => rfl
    | true => exact absurd (hrr.1 rfl) this
  intro l
  induction l with
  | nil => intro _; exact ⟨[], List.Perm.refl _, List.Pairwise.nil⟩
  | cons x l ih =>
    intro hs
    obtain ⟨r, hp, hr⟩ := ih (fun a ha => hs a (List.mem_cons_of_mem _ ha))
    suffices h : ∀ r : List NoNet, r.Pairwise (fun a b => ¬ b.Before a) → ∃ r' : List NoNet, r'.Perm (x :: r) ∧ r'.Pairwise (fun a b => ¬ b.Before a) by
      obtain ⟨r', h1, h2⟩ := h r hr
      exact ⟨r', h1.trans (hp.cons x), h2⟩
    intro r
    induction r with
    | nil => intro _; exact ⟨[x], List.Perm.refl _, by simp⟩
    | cons y r ihr =>
      intro hr
      obtain ⟨hy, hr'⟩ := List.pairwise_cons.1 hr
      by_cases hxy : y.Before x
      · obtain ⟨r', h1, h2⟩ := ihr hr'
        refine ⟨y :: r', (h1.cons y).trans (List.Perm.swap _ _ _), List.pairwise_cons.2 ⟨?_, h2⟩⟩
        intro z hz
        rcases List.mem_cons.1 (h1.subset hz) with rfl | hz
        · unfold NoNet.Before at *; omega
        · exact hy z hz
      · refine ⟨x :: y :: r, List.Perm.refl _, List.pairwise_cons.2 ⟨?_, hr⟩⟩
        intro z hz
        rcases List.mem_cons.1 hz with rfl | hz
        · exact hxy
        · have := hy z hz
          unfold NoNet.Before at *
          omega

theorem noSwap_perm (l : List NoNet) (i : Nat) : (noSwap l i).Perm l := by
  rw [noSwap]
  cases h1 : l[i]? with
  | none => exact List.Perm.refl _
  | some a =>
    cases h2 : l[(i + 1) % l.length]? with
    | none => exact List.Perm.refl _
    | some b =>
      obtain ⟨hi, rfl⟩ := List.getElem?_eq_some_iff.1 h1
      obtain ⟨hj, rfl⟩ := List.getElem?_eq_some_iff.1 h2
      exact List.set_set_perm hi hj

theorem noSwaps_perm : ∀ (idxs : List Nat) (r : List NoNet), (idxs.foldl noSwap r).Perm r
  | [], _ => List.Perm.refl _
  | i :: t, r => (noSwaps_perm t (noSwap r i)).trans (noSwap_perm r i)

/-- **C176 (OR_SEED).** With a seed for random swaps each net is still in the order exactly once. -/
theorem c176_shuffle (seed : Option (List Nat)) (l r : List NoNet) (h : NoSort l r) : (noShuffle seed r).Perm l := by
  refine List.Perm.trans ?_ h.1
  unfold noShuffle
  cases seed with
  | none => exact List.Perm.refl _
  | some idxs =>
    simp only
    split
    · exact noSwaps_perm idxs r
    · exact List.Perm.refl _

/-- **C176 (finding).** Pins at opposite corners of a region of 50000 by 50000 make the area too large for 32 bits. -/
theorem c176_overflow : noLess ⟨1, 2, ⟨⟨0, 0⟩, ⟨50000, 50000⟩⟩⟩ ⟨2, 2, ⟨⟨0, 0⟩, ⟨10, 10⟩⟩⟩ = none := by decide

/-- three nets, the second with more pins, the third with a smaller box than the first -/
def noNets : List NoNet := [⟨1, 2, ⟨⟨0, 0⟩, ⟨100, 50⟩⟩⟩, ⟨2, 3, ⟨⟨0, 0⟩, ⟨10, 10⟩⟩⟩, ⟨3, 2, ⟨⟨0, 0⟩, ⟨60, 60⟩⟩⟩]

example : (∀ a ∈ noNets, a.Small) ∧ noNets.Pairwise (fun a b => a.id ≠ b.id) ∧
    NoSort noNets [⟨3, 2, ⟨⟨0, 0⟩, ⟨60, 60⟩⟩⟩, ⟨1, 2, ⟨⟨0, 0⟩, ⟨100, 50⟩⟩⟩, ⟨2, 3, ⟨⟨0, 0⟩, ⟨10, 10⟩⟩⟩] := by
  refine ⟨?_, by decide, by decide, ?_⟩
  · intro a ha
    simp [noNets] at ha
    rcases ha with rfl | rfl | rfl <;> exact ⟨by decide, by decide⟩
  · intro i j hij a b ha hb
    have hj := (List.getElem?_eq_some_iff.1 hb).1
    simp at hj
    have : (i = 0 ∧ j = 1) ∨ (i = 0 ∧ j = 2) ∨ (i = 1 ∧ j = 2) := by omega
    rcases this with ⟨rfl, rfl⟩ | ⟨rfl, rfl⟩ | ⟨rfl, rfl⟩ <;> simp at ha hb <;> subst ha hb <;> decide

example : (noShuffle (some [0, 2]) noNets).map (fun a => a.id) = [3, 1, 2] := by decide

end TR
