import Verif.Hist.Record
import Verif.Seek.Examples
/-! Property theorems C144–C147: past violations and guides in the grid. -/
namespace TR

/-! ## C144: recording -/

/-- C144: recording a violation raises the wire counter of a node by ten for each movable shape found there that covers the
node near the violation, unless it would exceed 255; a node is remembered iff it was or some such shape covers it. -/
theorem c144_recorded (R : Box) (s : HState) (k : HMark) (hs : s.grid.Sorted) (hk : k.Placed s.grid) (m : MIdx) (hm : s.grid.On m)
    (hc : s.grid.attr m .markP + 10 * k.hits R s.grid m ≤ 255) :
    (s.record R k).grid.attr m .markP = s.grid.attr m .markP + 10 * k.hits R s.grid m ∧
    (m ∈ (s.record R k).planar ↔ m ∈ s.planar ∨ ∃ f ∈ k.found, f.Movable R ∧ m ∈ f.nodes s.grid k.box k.z) := by
  obtain ⟨_, b, _, d⟩ := markFigs_wires (R := R) hk.1 k.found (s, []) hs hk.2
  exact ⟨(d m hm).trans (raiseN_small _ _ hc), b m⟩

/-- C144: of every net with a movable via at a violation, the node of at least one such via is remembered; no other node is
added. -/
theorem c144_via_remembered (R : Box) (s : HState) (k : HMark) :
    (∀ o net m, HFig.via o net m ∈ k.found → R.Has o →
      ∃ o' m', HFig.via o' net m' ∈ k.found ∧ R.Has o' ∧ m' ∈ (s.record R k).via) ∧
    (∀ m ∈ s.via, m ∈ (s.record R k).via) ∧
    (∀ m ∈ (s.record R k).via, m ∈ s.via ∨ ∃ o net, HFig.via o net m ∈ k.found ∧ R.Has o) := by
  obtain ⟨a, b, c, _⟩ := markFigs_via (R := R) (mk := k.box) (z := k.z) k.found k.found (s, []) (fun _ h => h) (fun _ h => by cases h)
  exact ⟨b, a, c⟩

/-! ## C145: forgetting -/

/-- the invariant: everything raised is remembered -/
structure HInv (g : Grid) (s : HState) : Prop where
  same : SameGrid g s.grid
  pnd : s.planar.Nodup
  vnd : s.via.Nodup
  pon : ∀ m ∈ s.planar, g.On m
  von : ∀ m ∈ s.via, g.On m
  kept : ∀ m, g.On m → s.grid.attr m .markP ≠ 0 → m ∈ s.planar

/-- the same for the vias -/
def VInv (g : Grid) (s : HState) : Prop := ∀ m, g.On m → s.grid.attr m .markV ≤ 10 ∧ (s.grid.attr m .markV ≠ 0 → m ∈ s.via)

theorem raiseN_zero {c : Nat} : raiseN 0 c = c := rfl

theorem record_inv {g : Grid} (hs : g.Sorted) {R : Box} {s : HState} (h : HInv g s) {k : HMark} (hk : k.Placed g) :
    HInv g (s.record R k) := by
  have hs' := sameGrid_sorted h.same hs
  have hp : ∀ f ∈ k.found, f.Placed s.grid k.z := fun f hf => sameGrid_placed h.same (hk.2 f hf)
  obtain ⟨a, b, c, d⟩ := markFigs_wires (R := R) hk.1 k.found (s, []) hs' hp
  obtain ⟨_, _, v3, v4⟩ := markFigs_via (R := R) (mk := k.box) (z := k.z) k.found k.found (s, []) (fun _ h => h) (fun _ h => by cases h)
  refine ⟨hgrid_trans h.same a, c h.pnd, v4 h.vnd, fun m hm => ?_, fun m hm => ?_, fun m hm h0 => ?_⟩
  · rcases (b m).1 hm with hm | ⟨f, hf, hh⟩
    · exact h.pon m hm
    · exact (sameGrid_on h.same m).1 (placed_nodes hs' hk.1 (hp f hf) m hh.2)
  · rcases v3 m hm with hm | ⟨o, net, hf, _⟩
    · exact h.von m hm
    · exact hk.2 _ hf
  · refine (b m).2 ?_
    by_cases q : s.grid.attr m .markP = 0
    · right
      have e := d m ((sameGrid_on h.same m).2 hm)
      by_cases z : k.found.countP (fun f => decide (f.Hits R s.grid k.box k.z m)) = 0
      · exact absurd (e.trans (by show raiseN (k.found.countP _) _ = 0; rw [z]; exact q)) h0
      · obtain ⟨f, hf, hh⟩ := List.countP_pos_iff.1 (Nat.pos_of_ne_zero z)
        exact ⟨f, hf, of_decide_eq_true hh⟩
    · exact Or.inl (h.kept m hm q)

theorem record_vinv {g : Grid} (hs : g.Sorted) {R : Box} {s : HState} (h : HInv g s) (hv : VInv g s) {k : HMark} (hk : k.Placed g)
    (hn : ∀ f ∈ k.found, ∀ o b, f ≠ .patch o b) : VInv g (s.record R k) := by
  have hs' := sameGrid_sorted h.same hs
  have hp : ∀ f ∈ k.found, f.Placed s.grid k.z := fun f hf => sameGrid_placed h.same (hk.2 f hf)
  have key := markFigs_vcount (R := R) s hs' hk.1 k.found (s, []) (hgrid_refl _) hp hn (fun _ h => h)
    (fun m _ => by rw [if_neg (fun q => q.2 q.1)])
  intro m hm
  have e := key m ((sameGrid_on h.same m).2 hm)
  obtain ⟨v1, v2⟩ := hv m hm
  by_cases q : m ∈ (s.record R k).via ∧ m ∉ s.via
  · have : (s.record R k).grid.attr m .markV = raise (s.grid.attr m .markV) := e.trans (if_pos q)
    have z : s.grid.attr m .markV = 0 := by
      by_cases z : s.grid.attr m .markV = 0
      · exact z
      · exact absurd (v2 z) q.2
    rw [this, z]
    exact ⟨by decide, fun _ => q.1⟩
  · have : (s.record R k).grid.attr m .markV = s.grid.attr m .markV := e.trans (if_neg q)
    rw [this]
    exact ⟨v1, fun h0 => (c144_via_remembered R s k).2.1 m (v2 h0)⟩

theorem decay_inv {g : Grid} {s : HState} (h : HInv g s) :
    HInv g s.decay ∧ (∀ m, g.On m → s.decay.grid.attr m .markP = s.grid.attr m .markP * 4 / 5) ∧
    (∀ m, g.On m → s.decay.grid.attr m .markV = if m ∈ s.via then s.grid.attr m .markV * 4 / 5 else s.grid.attr m .markV) ∧
    (∀ m, m ∈ s.decay.planar ↔ m ∈ s.planar ∧ s.grid.attr m .markP * 4 / 5 ≠ 0) ∧
    (∀ m, m ∈ s.decay.via ↔ m ∈ s.via ∧ s.grid.attr m .markV * 4 / 5 ≠ 0) := by
  obtain ⟨a1, a2, a3, a4, a5⟩ := fadeWires s.planar s h.pnd h.pnd (fun n hn => (sameGrid_on h.same n).2 (h.pon n hn))
  have hv : ∀ n ∈ (s.planar.foldl HState.fadePlanar s).via, (s.planar.foldl HState.fadePlanar s).grid.On n := by
    intro n hn
    rw [a2] at hn
    exact (sameGrid_on (hgrid_trans h.same a1) n).2 (h.von n hn)
  obtain ⟨b1, b2, b3, b4, b5⟩ := fadeVias (s.planar.foldl HState.fadePlanar s).via (s.planar.foldl HState.fadePlanar s)
    (a2 ▸ h.vnd) (a2 ▸ h.vnd) hv
  have same := hgrid_trans h.same (hgrid_trans a1 b1)
  have hP : ∀ m, g.On m → s.decay.grid.attr m .markP = s.grid.attr m .markP * 4 / 5 := by
    intro m hm
    have hm1 := (sameGrid_on h.same m).2 hm
    refine (b5 m .markP ((sameGrid_on a1 m).2 hm1)).trans ?_
    rw [if_neg (by simp), a5 m .markP hm1]
    by_cases q : m ∈ s.planar
    · rw [if_pos ⟨q, rfl⟩]
    · rw [if_neg (fun e => q e.1)]
      have : s.grid.attr m .markP = 0 := by
        by_cases z : s.grid.attr m .markP = 0
        · exact z
        · exact absurd (h.kept m hm z) q
      rw [this]
  have hpl : ∀ m, m ∈ s.decay.planar ↔ m ∈ s.planar ∧ s.grid.attr m .markP * 4 / 5 ≠ 0 := by
    intro m
    have : s.decay.planar = (s.planar.foldl HState.fadePlanar s).planar := b2
    rw [this, a4]
    constructor
    · rintro ⟨p, q⟩; exact ⟨p, fun z => q ⟨p, z⟩⟩
    · rintro ⟨p, q⟩; exact ⟨p, fun z => q z.2⟩
  have hvl : ∀ m, m ∈ s.decay.via ↔ m ∈ s.via ∧ s.grid.attr m .markV * 4 / 5 ≠ 0 := by
    intro m
    refine (b4 m).trans ?_
    rw [a2]
    have e : m ∈ s.via → (s.planar.foldl HState.fadePlanar s).grid.attr m .markV = s.grid.attr m .markV := by
      intro hm
      rw [a5 m .markV ((sameGrid_on h.same m).2 (h.von m hm)), if_neg (by simp)]
    constructor
    · rintro ⟨p, q⟩; exact ⟨p, fun z => q ⟨p, by rw [e p]; exact z⟩⟩
    · rintro ⟨p, q⟩; exact ⟨p, fun z => q (by rw [e p] at z; exact z.2)⟩
  have hV : ∀ m, g.On m → s.decay.grid.attr m .markV = if m ∈ s.via then s.grid.attr m .markV * 4 / 5 else s.grid.attr m .markV := by
    intro m hm
    have hm1 := (sameGrid_on h.same m).2 hm
    refine (b5 m .markV ((sameGrid_on a1 m).2 hm1)).trans ?_
    have e5 : (s.planar.foldl HState.fadePlanar s).grid.attr m .markV = s.grid.attr m .markV := by
      rw [a5 m .markV hm1, if_neg (by simp)]
    rw [e5, a2]
    by_cases q : m ∈ s.via
    · rw [if_pos ⟨q, rfl⟩, if_pos q]
    · rw [if_neg (fun e => q e.1), if_neg q]
  refine ⟨⟨same, ?_, b3, fun m hm => h.pon m ((hpl m).1 hm).1, fun m hm => h.von m ((hvl m).1 hm).1, fun m hm h0 => ?_⟩, hP, hV, hpl, hvl⟩
  · have : s.decay.planar = (s.planar.foldl HState.fadePlanar s).planar := b2
    rw [this]; exact a3
  · rw [hP m hm] at h0
    exact (hpl m).2 ⟨h.kept m hm (by omega), h0⟩

theorem run_inv {g : Grid} (hs : g.Sorted) {R : Box} (l : List HStep) : ∀ s, HInv g s → (∀ x ∈ l, x.Placed g) → HInv g (s.run R l) := by
  induction l with
  | nil => intro s h _; exact h
  | cons x l ih =>
    intro s h hp
    refine ih _ ?_ (fun y hy => hp y (by simp [hy]))
    cases x with
    | record k => exact record_inv hs h (hp (.record k) (by simp))
    | decay => exact (decay_inv h).1

theorem decay_vinv {g : Grid} {s : HState} (h : HInv g s) (hv : VInv g s) : VInv g s.decay := by
  obtain ⟨_, _, c, _, e⟩ := decay_inv h
  intro m hm
  obtain ⟨v1, v2⟩ := hv m hm
  rw [c m hm]
  by_cases q : m ∈ s.via
  · rw [if_pos q]; exact ⟨by omega, fun z => (e m).2 ⟨q, z⟩⟩
  · rw [if_neg q]; exact ⟨v1, fun z => absurd (v2 z) q⟩

theorem run_vinv {g : Grid} (hs : g.Sorted) {R : Box} (l : List HStep) : ∀ s, HInv g s → VInv g s → (∀ x ∈ l, x.Placed g) →
    (∀ x ∈ l, x.NoPatch) → VInv g (s.run R l) := by
  induction l with
  | nil => intro s _ h _ _; exact h
  | cons x l ih =>
    intro s h hv hp hn
    cases x with
    | record k =>
      exact ih _ (record_inv hs h (hp (.record k) (by simp))) (record_vinv hs h hv (hp (.record k) (by simp)) (hn (.record k) (by simp)))
        (fun y hy => hp y (by simp [hy])) (fun y hy => hn y (by simp [hy]))
    | decay =>
      exact ih _ (decay_inv h).1 (decay_vinv h hv) (fun y hy => hp y (by simp [hy])) (fun y hy => hn y (by simp [hy]))

theorem clean_inv {s : HState} (h : s.Clean) : HInv s.grid s ∧ VInv s.grid s := by
  obtain ⟨a, b, c⟩ := h
  refine ⟨⟨hgrid_refl _, by rw [a]; exact List.nodup_nil, by rw [b]; exact List.nodup_nil, fun m hm => ?_, fun m hm => ?_,
    fun m hm h0 => absurd (c m hm).1 h0⟩, fun m hm => ?_⟩
  · rw [a] at hm; cases hm
  · rw [b] at hm; cases hm
  · rw [(c m hm).2]; exact ⟨by omega, fun h => absurd rfl h⟩

/-- C145: at any time during the queue, every node with a raised wire counter is remembered, so that it will fade. -/
theorem c145_wires_remembered (R : Box) (s : HState) (hs : s.grid.Sorted) (h : s.Clean) (l : List HStep) (hl : ∀ x ∈ l, x.Placed s.grid)
    (m : MIdx) (hm : s.grid.On m) (h0 : (s.run R l).grid.attr m .markP ≠ 0) : m ∈ (s.run R l).planar :=
  (run_inv hs l s (clean_inv h).1 hl).kept m hm h0

def fadeN : Nat → Nat → Nat
  | 0, c => c
  | k + 1, c => fadeN k (c * 4 / 5)

theorem fadeN_zero (k : Nat) : fadeN k 0 = 0 := by
  induction k with
  | zero => rfl
  | succ k ih => exact ih

theorem fadeN_mono (k : Nat) : ∀ {a b : Nat}, a ≤ b → fadeN k a ≤ fadeN k b := by
  induction k with
  | zero => intro a b h; exact h
  | succ k ih => intro a b h; exact ih (Nat.div_le_div_right (Nat.mul_le_mul_right 4 h))

theorem fadeN_add (a b c : Nat) : fadeN (a + b) c = fadeN b (fadeN a c) := by
  induction a generalizing c with
  | zero => simp [fadeN]
  | succ a ih => rw [Nat.add_right_comm, fadeN, fadeN, ih]

theorem fadeN_done {k c : Nat} (h : c ≤ 255) (hk : 21 ≤ k) : fadeN k c = 0 := by
  have e : fadeN 21 255 = 0 := by decide
  have := fadeN_mono 21 h
  rw [e] at this
  obtain ⟨j, rfl⟩ := Nat.le.dest hk
  rw [fadeN_add, show fadeN 21 c = 0 by omega, fadeN_zero]

theorem fadeN_done7 {k c : Nat} (h : c ≤ 10) (hk : 7 ≤ k) : fadeN k c = 0 := by
  have e : fadeN 7 10 = 0 := by decide
  have := fadeN_mono 7 h
  rw [e] at this
  obtain ⟨j, rfl⟩ := Nat.le.dest hk
  rw [fadeN_add, show fadeN 7 c = 0 by omega, fadeN_zero]

theorem decays {g : Grid} {R : Box} (k : Nat) : ∀ s, HInv g s → HInv g (s.run R (List.replicate k .decay)) ∧
    (∀ m, g.On m → (s.run R (List.replicate k .decay)).grid.attr m .markP = fadeN k (s.grid.attr m .markP)) ∧
    (VInv g s → ∀ m, g.On m → (s.run R (List.replicate k .decay)).grid.attr m .markV = fadeN k (s.grid.attr m .markV)) := by
  induction k with
  | zero => intro s h; exact ⟨h, fun _ _ => rfl, fun _ _ _ => rfl⟩
  | succ k ih =>
    intro s h
    obtain ⟨a, b, c, _, _⟩ := decay_inv h
    obtain ⟨i1, i2, i3⟩ := ih s.decay a
    refine ⟨i1, fun m hm => ?_, fun hv m hm => ?_⟩
    · refine (i2 m hm).trans ?_
      rw [b m hm]; rfl
    · refine (i3 (decay_vinv h hv) m hm).trans ?_
      rw [c m hm]
      by_cases q : m ∈ s.via
      · rw [if_pos q]; rfl
      · rw [if_neg q]
        have z : s.grid.attr m .markV = 0 := by
          by_cases z : s.grid.attr m .markV = 0
          · exact z
          · exact absurd ((hv m hm).2 z) q
        rw [z, fadeN_zero, fadeN_zero]

/-- C145: whatever was recorded, once 21 nets have been routed without a new violation no node is costlier for wires. -/
theorem c145_wires_forgotten (R : Box) (s : HState) (hs : s.grid.Sorted) (h : s.Clean) (l : List HStep) (hl : ∀ x ∈ l, x.Placed s.grid)
    (k : Nat) (hk : 21 ≤ k) (m : MIdx) (hm : s.grid.On m) :
    ((s.run R l).run R (List.replicate k .decay)).grid.attr m .markP = 0 := by
  rw [(decays k _ (run_inv hs l s (clean_inv h).1 hl)).2.1 m hm]
  have := attr_lt (s.run R l).grid m .markP
  exact fadeN_done (by simp only [Attr.field] at this; omega) hk

/-- C145 for vias, if no patch was found at a violation: the counter of a via is at most ten, and it is zero after seven nets. The
full statement is false, see `c145_patch_never_forgotten`. -/
theorem c145_vias_forgotten_partial (R : Box) (s : HState) (hs : s.grid.Sorted) (h : s.Clean) (l : List HStep) (hl : ∀ x ∈ l, x.Placed s.grid)
    (hn : ∀ x ∈ l, x.NoPatch) (k : Nat) (hk : 7 ≤ k) (m : MIdx) (hm : s.grid.On m) :
    (s.run R l).grid.attr m .markV ≤ 10 ∧ ((s.run R l).grid.attr m .markV ≠ 0 → m ∈ (s.run R l).via) ∧
    ((s.run R l).run R (List.replicate k .decay)).grid.attr m .markV = 0 := by
  have hv := run_vinv hs (R := R) l s (clean_inv h).1 (clean_inv h).2 hl hn
  refine ⟨(hv m hm).1, (hv m hm).2, ?_⟩
  rw [(decays k _ (run_inv hs l s (clean_inv h).1 hl)).2.2 hv m hm]
  exact fadeN_done7 (hv m hm).1 hk

/-! ### examples -/

/-- lines 0, 100, … 500 on two layers -/
def exHGrid : Grid := bareGrid [0, 100, 200, 300, 400, 500] [0, 100, 200] [2, 4] false

def exHState : HState := ⟨exHGrid, [], []⟩

def exHR : Box := ⟨⟨0, 0⟩, ⟨500, 200⟩⟩

/-- a wire, two vias of a net and a patch at a violation -/
def exHMark : HMark := ⟨⟨⟨190, 90⟩, ⟨210, 110⟩⟩, 0,
  [.wire ⟨0, 100⟩ ⟨500, 100⟩ ⟨0, 1, 0⟩ ⟨5, 1, 0⟩ 20, .via ⟨200, 100⟩ 7 ⟨2, 1, 0⟩, .via ⟨300, 100⟩ 7 ⟨3, 1, 0⟩]⟩

def exHPatch : HMark := ⟨⟨⟨190, 90⟩, ⟨210, 110⟩⟩, 0, [.patch ⟨200, 100⟩ ⟨⟨150, 90⟩, ⟨250, 110⟩⟩]⟩

theorem exH_sorted : exHGrid.Sorted := by
  unfold Grid.Sorted StrictInc exHGrid bareGrid
  decide

theorem exH_clean : exHState.Clean := by
  refine ⟨rfl, rfl, fun m _ => ⟨?_, ?_⟩⟩ <;> (show (0#64).toNat / _ % _ = 0) <;> simp

theorem exH_placed : exHMark.Placed exHGrid := by
  refine ⟨by unfold Box.Proper; decide, fun f hf => ?_⟩
  simp only [exHMark, List.mem_cons, List.not_mem_nil, or_false] at hf
  rcases hf with rfl | rfl | rfl <;> simp only [HFig.Placed] <;> decide

theorem exH_placed2 : exHPatch.Placed exHGrid := by
  refine ⟨by unfold Box.Proper; decide, fun f hf => ?_⟩
  simp only [exHPatch, List.mem_cons, List.not_mem_nil, or_false] at hf
  subst hf
  simp only [HFig.Placed]; decide

/-- one width around the marker there is only one node; five times more gives 200 ± 120: nodes 1, 2, 3 -/
example : wireNodes exHGrid exHMark.box ⟨0, 1, 0⟩ ⟨5, 1, 0⟩ 20 = [⟨1, 1, 0⟩, ⟨2, 1, 0⟩, ⟨3, 1, 0⟩] := by decide +kernel

/-- the hypotheses of `c144_recorded` and its conclusion in a case -/
example : exHMark.hits exHR exHGrid ⟨2, 1, 0⟩ = 1 ∧ (exHState.record exHR exHMark).grid.attr ⟨2, 1, 0⟩ .markP = 10 ∧
    (exHState.record exHR exHMark).via = [⟨2, 1, 0⟩] := by decide +kernel

/-- C145 is false of vias: the cost a patch adds to them stays however many nets are routed. -/
theorem c145_patch_never_forgotten : ∃ (R : Box) (s : HState) (k : HMark) (m : MIdx), s.grid.Sorted ∧ s.Clean ∧ k.Placed s.grid ∧
    s.grid.On m ∧ ∀ j, ((s.record R k).run R (List.replicate j .decay)).grid.attr m .markV = 10 := by
  refine ⟨exHR, exHState, exHPatch, ⟨2, 1, 0⟩, exH_sorted, exH_clean, exH_placed2, by decide, fun j => ?_⟩
  have h0 := record_inv (R := exHR) exH_sorted (clean_inv exH_clean).1 exH_placed2
  have hv : (exHState.record exHR exHPatch).via = [] := by decide +kernel
  have hc : (exHState.record exHR exHPatch).grid.attr ⟨2, 1, 0⟩ .markV = 10 := by decide +kernel
  generalize exHState.record exHR exHPatch = s at h0 hv hc
  induction j generalizing s with
  | zero => exact hc
  | succ j ih =>
    obtain ⟨a, _, c, _, e⟩ := decay_inv h0
    refine ih s.decay a ?_ ?_
    · rcases q : s.decay.via with _ | ⟨x, t⟩
      · rfl
      · have := (e x).1 (by rw [q]; simp)
        rw [hv] at this; exact absurd this.1 (by simp)
    · rw [c _ (by decide), hv, if_neg (by simp)]; exact hc

/-- C144: the counter wraps: after 26 violations at the same wire its node is as cheap as before. -/
theorem c144_wraps : ∃ (R : Box) (s : HState) (k : HMark) (m : MIdx), s.grid.Sorted ∧ s.Clean ∧ k.Placed s.grid ∧ s.grid.On m ∧
    k.hits R s.grid m = 1 ∧ (s.run R (List.replicate 25 (.record k))).grid.attr m .markP = 250 ∧
    (s.run R (List.replicate 26 (.record k))).grid.attr m .markP = 0 :=
  ⟨exHR, exHState, exHMark, ⟨2, 1, 0⟩, exH_sorted, exH_clean, exH_placed, by decide, by decide +kernel, by decide +kernel, by decide +kernel⟩

/-- C144: a patch reaching beyond the last line charges a node of another row: here the corner of the patch is at (510, 110),
and the first node of the next row, at (0, 100), is charged. -/
theorem c144_patch_beyond : ∃ (R : Box) (s : HState) (k : HMark) (o : Point) (box : Box), s.grid.Sorted ∧ s.Clean ∧
    k.found = [.patch o box] ∧ box.Proper ∧ R.Has o ∧ 400 < box.left ∧ coordAt s.grid.xs 0 = 0 ∧
    (s.record R k).grid.attr ⟨0, 2, 0⟩ .markP = 10 :=
  ⟨exHR, exHState, ⟨⟨⟨490, 90⟩, ⟨500, 110⟩⟩, 0, [.patch ⟨500, 100⟩ ⟨⟨490, 90⟩, ⟨510, 110⟩⟩]⟩, ⟨500, 100⟩, ⟨⟨490, 90⟩, ⟨510, 110⟩⟩, exH_sorted, exH_clean,
    rfl, by unfold Box.Proper; decide, by unfold Box.Has; decide, by decide, by decide, by decide +kernel⟩

/-! ## C146: the price of the next search -/

theorem edgeCost_marker (g : Grid) (T : SeekTech) (n : MIdx) (d : Dir) (h : g.hasMarkerCost n d = true) :
    (1 + T.marker) * g.edgeLen T n d ≤ g.edgeCost T n d := by
  unfold Grid.edgeCost
  dsimp only
  rw [h, if_pos rfl, Nat.add_mul, Nat.one_mul]
  omega

/-- C146: after a violation is recorded, each step along the layer onto a node that a movable shape covers near the violation costs
the marker price times its length on top of its length (as long as the counter does not exceed 255). -/
theorem c146_wires_cost_more (R : Box) (s : HState) (k : HMark) (hs : s.grid.Sorted) (hk : k.Placed s.grid) (T : SeekTech) (n : MIdx) (d : Dir)
    (hd : d = .E ∨ d = .W ∨ d = .N ∨ d = .S) (hm : s.grid.On (n.nbr d)) (f : HFig) (hf : f ∈ k.found) (hR : f.Movable R)
    (hn : n.nbr d ∈ f.nodes s.grid k.box k.z)
    (hc : s.grid.attr (n.nbr d) .markP + 10 * k.hits R s.grid (n.nbr d) ≤ 255) :
    (1 + T.marker) * (s.record R k).grid.edgeLen T n d ≤ (s.record R k).grid.edgeCost T n d := by
  apply edgeCost_marker
  have q := ((c08_queries (s.record R k).grid n).2.2.2.2.2.2.2.2.2.2.2.1 d (by rcases hd with rfl | rfl | rfl | rfl <;> simp)
    (by rcases hd with rfl | rfl | rfl | rfl <;> simp) (by rcases hd with rfl | rfl | rfl | rfl <;> simp)).2.1
  rw [q, (c144_recorded R s k hs hk _ hm hc).1]
  have : 0 < k.hits R s.grid (n.nbr d) := List.countP_pos_iff.2 ⟨f, hf, decide_eq_true ⟨hR, hn⟩⟩
  rw [bne_iff_ne]
  omega

/-- C146: and, if no patch was ever found at a violation, a via where one was found costs more: of each net with a movable via at the violation,
one such via at least. -/
theorem c146_vias_cost_more (R : Box) (s : HState) (hs : s.grid.Sorted) (h : s.Clean) (l : List HStep) (hl : ∀ x ∈ l, x.Placed s.grid)
    (hn : ∀ x ∈ l, x.NoPatch) (k : HMark) (hk : k.Placed s.grid) (hkn : ∀ f ∈ k.found, ∀ o b, f ≠ .patch o b) (T : SeekTech)
    (o : Point) (net : Nat) (m : MIdx) (hm : HFig.via o net m ∈ k.found) (hR : R.Has o) :
    ∃ o' m', HFig.via o' net m' ∈ k.found ∧ R.Has o' ∧ (m' ∉ (s.run R l).via →
      (1 + T.marker) * ((s.run R l).record R k).grid.edgeLen T m' .U ≤ ((s.run R l).record R k).grid.edgeCost T m' .U) := by
  have hi := run_inv hs (R := R) l s (clean_inv h).1 hl
  have hv := run_vinv hs (R := R) l s (clean_inv h).1 (clean_inv h).2 hl hn
  obtain ⟨o', m', a, b, c⟩ := (c144_via_remembered R (s.run R l) k).1 o net m hm hR
  refine ⟨o', m', a, b, fun hnew => edgeCost_marker _ _ _ _ ?_⟩
  have on' : s.grid.On m' := hk.2 _ a
  have hp : ∀ f ∈ k.found, f.Placed (s.run R l).grid k.z := fun f hf => sameGrid_placed hi.same (hk.2 f hf)
  have key := markFigs_vcount (R := R) (s.run R l) (sameGrid_sorted hi.same hs) hk.1 k.found (s.run R l, []) (hgrid_refl _) hp hkn (fun _ h => h)
    (fun m _ => by rw [if_neg (fun q => q.2 q.1)]) m' ((sameGrid_on hi.same m').2 on')
  have e : ((s.run R l).record R k).grid.attr m' .markV = raise ((s.run R l).grid.attr m' .markV) := key.trans (if_pos ⟨c, hnew⟩)
  rw [(c08_queries _ m').2.2.2.2.2.2.2.2.2.2.2.2.2.1.1, e, raise_small (by have := (hv m' on').1; omega), bne_iff_ne]
  omega

example : HFig.via ⟨200, 100⟩ 7 ⟨2, 1, 0⟩ ∈ exHMark.found ∧ exHR.Has ⟨200, 100⟩ ∧ (exHState.run exHR []).via = [] := by
  refine ⟨by simp [exHMark], by unfold Box.Has; decide, rfl⟩

/-! ## C147: guides -/

/-- the node lies in a guide of the list, on its layer -/
def InGuide (g : Grid) (gs : List (Box × Int)) (m : MIdx) : Prop :=
  ∃ r ∈ gs, m.z = r.2 ∧ r.1.Has ⟨coordAt g.xs m.x, coordAt g.ys m.y⟩

theorem guide_one (g : Grid) (hs : g.Sorted) (b : Box) (z : Int) (hz : 0 ≤ z ∧ z < g.zs.length) (v : Bool) (m : MIdx) (hm : g.On m) :
    (g.fillGuideRect (g.idxBox b).1.1 (g.idxBox b).1.2 (g.idxBox b).2.1 (g.idxBox b).2.2 z v).guides (g.idx m) =
      if m.z = z ∧ b.Has ⟨coordAt g.xs m.x, coordAt g.ys m.y⟩ then v else g.guides (g.idx m) := by
  have ix := idx_between hs.1 b.left b.right m.x hm.1 hm.2.1
  have iy := idx_between hs.2.1 b.bottom b.top m.y hm.2.2.1 hm.2.2.2.1
  have ex := (idx_range_empty hs.1 b.left b.right).1
  have ey := (idx_range_empty hs.2.1 b.bottom b.top).1
  by_cases he : (g.idxBox b).2.1 < (g.idxBox b).1.1 ∨ (g.idxBox b).2.2 < (g.idxBox b).1.2
  · have e1 : g.fillGuideRect (g.idxBox b).1.1 (g.idxBox b).1.2 (g.idxBox b).2.1 (g.idxBox b).2.2 z v = g := by
      unfold Grid.fillGuideRect; rw [if_pos he]
    rw [e1, if_neg]
    rintro ⟨_, hh⟩
    unfold Box.Has at hh
    simp only [Grid.idxBox] at he
    have a1 := ix.1.2 (by simp only at hh; omega)
    have a2 := ix.2.2 (by simp only at hh; omega)
    have a3 := iy.1.2 (by simp only at hh; omega)
    have a4 := iy.2.2 (by simp only at hh; omega)
    omega
  · have hl1 : g.On ⟨(g.idxBox b).1.1, (g.idxBox b).1.2, z⟩ := by
      unfold Grid.On
      simp only [Grid.idxBox] at *
      omega
    have hl2 : g.On ⟨(g.idxBox b).2.1, (g.idxBox b).2.2, z⟩ := by
      unfold Grid.On
      simp only [Grid.idxBox] at *
      omega
    rw [fillRect_guides g _ _ _ _ z v m hl1 hl2 hm]
    have : ((g.idxBox b).1.1 ≤ m.x ∧ m.x ≤ (g.idxBox b).2.1 ∧ (g.idxBox b).1.2 ≤ m.y ∧ m.y ≤ (g.idxBox b).2.2 ∧ m.z = z) ↔
        (m.z = z ∧ b.Has ⟨coordAt g.xs m.x, coordAt g.ys m.y⟩) := by
      simp only [Grid.idxBox, Box.Has]
      rw [ix.1, ix.2, iy.1, iy.2]
      omega
    by_cases q : m.z = z ∧ b.Has ⟨coordAt g.xs m.x, coordAt g.ys m.y⟩
    · rw [if_pos q, if_pos (this.2 q)]
    · rw [if_neg q, if_neg (fun e => q (this.1 e))]

theorem fold_dims (lo hi : Int → MIdx) (v : Bool) (L : List Int) : ∀ g : Grid,
    SameGrid g (L.foldl (fun g i => g.fillGuide (g.idx (lo i)) (g.idx (hi i)) v) g) ∧
    (L.foldl (fun g i => g.fillGuide (g.idx (lo i)) (g.idx (hi i)) v) g).zDir = g.zDir := by
  induction L with
  | nil => intro g; exact ⟨hgrid_refl _, rfl⟩
  | cons i L ih =>
    intro g
    obtain ⟨a, b⟩ := ih (g.fillGuide (g.idx (lo i)) (g.idx (hi i)) v)
    exact ⟨hgrid_trans ⟨rfl, rfl, rfl⟩ a, b⟩

theorem fillRect_same (g : Grid) (x1 y1 x2 y2 z : Int) (v : Bool) :
    SameGrid g (g.fillGuideRect x1 y1 x2 y2 z v) ∧ (g.fillGuideRect x1 y1 x2 y2 z v).zDir = g.zDir := by
  unfold Grid.fillGuideRect
  by_cases h : x2 < x1 ∨ y2 < y1
  · rw [if_pos h]; exact ⟨hgrid_refl _, rfl⟩
  · rw [if_neg h]
    by_cases hz : g.zDir z = true
    · rw [if_pos hz]; exact fold_dims (fun i => ⟨x1, i, z⟩) (fun i => ⟨x2, i, z⟩) v _ g
    · rw [if_neg hz]; exact fold_dims (fun i => ⟨i, y1, z⟩) (fun i => ⟨i, y2, z⟩) v _ g

theorem labels_step (g : Grid) (add : Bool) (r : Box × Int) (gs : List (Box × Int)) :
    guideLabels g add (r :: gs) = guideLabels (g.fillGuideRect (g.idxBox r.1).1.1 (g.idxBox r.1).1.2 (g.idxBox r.1).2.1 (g.idxBox r.1).2.2 r.2 add) add gs := by
  unfold guideLabels
  rw [List.foldl_cons]
  cases add <;> rfl

theorem guideLabels_spec (add : Bool) (gs : List (Box × Int)) : ∀ (g : Grid), g.Sorted → (∀ r ∈ gs, 0 ≤ r.2 ∧ r.2 < g.zs.length) →
    SameGrid g (guideLabels g add gs) ∧ (guideLabels g add gs).zDir = g.zDir ∧
    ∀ m, g.On m → ((InGuide g gs m → (guideLabels g add gs).guides (g.idx m) = add) ∧
      (¬ InGuide g gs m → (guideLabels g add gs).guides (g.idx m) = g.guides (g.idx m))) := by
  induction gs with
  | nil =>
    intro g _ _
    refine ⟨hgrid_refl _, rfl, fun m _ => ⟨?_, fun _ => rfl⟩⟩
    rintro ⟨r, hr, _⟩; cases hr
  | cons r gs ih =>
    intro g hs hz
    rw [labels_step]
    obtain ⟨d1, d2⟩ := fillRect_same g (g.idxBox r.1).1.1 (g.idxBox r.1).1.2 (g.idxBox r.1).2.1 (g.idxBox r.1).2.2 r.2 add
    obtain ⟨i1, i2, i3⟩ := ih _ (sameGrid_sorted d1 hs) (fun q hq => by rw [d1.2.2]; exact hz q (by simp [hq]))
    refine ⟨hgrid_trans d1 i1, i2.trans d2, fun m hm => ?_⟩
    have hidx : (g.fillGuideRect (g.idxBox r.1).1.1 (g.idxBox r.1).1.2 (g.idxBox r.1).2.1 (g.idxBox r.1).2.2 r.2 add).idx m = g.idx m := by
      simp only [Grid.idx, Grid.X, Grid.Y, d1.1, d1.2.1, d2]
    obtain ⟨j1, j2⟩ := i3 m ((sameGrid_on d1 m).2 hm)
    rw [hidx] at j1 j2
    have one := guide_one g hs r.1 r.2 (hz r (by simp)) add m hm
    have same : InGuide (g.fillGuideRect (g.idxBox r.1).1.1 (g.idxBox r.1).1.2 (g.idxBox r.1).2.1 (g.idxBox r.1).2.2 r.2 add) gs m ↔ InGuide g gs m := by
      unfold InGuide; rw [d1.1, d1.2.1]
    rw [same] at j1 j2
    have cons : InGuide g (r :: gs) m ↔ (m.z = r.2 ∧ r.1.Has ⟨coordAt g.xs m.x, coordAt g.ys m.y⟩) ∨ InGuide g gs m := by
      unfold InGuide; simp only [List.mem_cons, exists_eq_or_imp]
    rw [cons]
    by_cases q : InGuide g gs m
    · exact ⟨fun _ => j1 q, fun h => absurd (Or.inr q) h⟩
    · rw [j2 q, one]
      by_cases q' : m.z = r.2 ∧ r.1.Has ⟨coordAt g.xs m.x, coordAt g.ys m.y⟩
      · rw [if_pos q']; exact ⟨fun _ => rfl, fun h => absurd (Or.inl q') h⟩
      · rw [if_neg q']; exact ⟨fun h => (h.elim (fun e => absurd e q') (fun e => absurd e q)), fun _ => rfl⟩

/-- C147: while a net is routed by a worker that follows guides, a step is free of the guide price iff it ends at a node inside a guide of
that net on the guide's layer; after the net, no step is. No label of another net is left behind. -/
theorem c147_guides_of_the_net (g : Grid) (hs : g.Sorted) (gs : List (Box × Int)) (hz : ∀ r ∈ gs, 0 ≤ r.2 ∧ r.2 < g.zs.length)
    (h0 : ∀ m, g.On m → g.guides (g.idx m) = false) (n : MIdx) (d : Dir) (hm : g.On (n.nbr d)) :
    ((guideLabels g true gs).hasGuide n d = true ↔ InGuide g gs (n.nbr d)) ∧
    (guideLabels (guideLabels g true gs) false gs).hasGuide n d = false := by
  obtain ⟨a1, a2, a3⟩ := guideLabels_spec true gs g hs hz
  obtain ⟨b1, b2, b3⟩ := guideLabels_spec false gs (guideLabels g true gs) (sameGrid_sorted a1 hs) (fun r hr => by rw [a1.2.2]; exact hz r hr)
  have e1 : ∀ m, (guideLabels g true gs).idx m = g.idx m := by
    intro m; simp only [Grid.idx, Grid.X, Grid.Y, a1.1, a1.2.1, a2]
  have e2 : ∀ m, (guideLabels (guideLabels g true gs) false gs).idx m = g.idx m := by
    intro m; rw [← e1]; simp only [Grid.idx, Grid.X, Grid.Y, b1.1, b1.2.1, b2]
  unfold Grid.hasGuide
  rw [nbr_reverse, e1, e2]
  obtain ⟨p, q⟩ := a3 _ hm
  obtain ⟨p', q'⟩ := b3 _ ((sameGrid_on a1 _).2 hm)
  rw [e1] at p' q'
  have same : InGuide (guideLabels g true gs) gs (n.nbr d) ↔ InGuide g gs (n.nbr d) := by
    unfold InGuide; rw [a1.1, a1.2.1]
  rw [same] at p' q'
  by_cases h : InGuide g gs (n.nbr d)
  · exact ⟨⟨fun _ => h, fun _ => p h⟩, p' h⟩
  · refine ⟨⟨fun e => ?_, fun e => absurd e h⟩, (q' h).trans ((q h).trans (h0 _ hm))⟩
    rw [q h, h0 _ hm] at e; cases e

/-- a guide over nodes 1 to 2 of the first layer, another partly outside the grid -/
example : (guideLabels exHGrid true [(⟨⟨50, 50⟩, ⟨250, 150⟩⟩, 0), (⟨⟨450, 150⟩, ⟨900, 900⟩⟩, 1)]).hasGuide ⟨0, 1, 0⟩ .E = true ∧
    (guideLabels exHGrid true [(⟨⟨50, 50⟩, ⟨250, 150⟩⟩, 0), (⟨⟨450, 150⟩, ⟨900, 900⟩⟩, 1)]).hasGuide ⟨2, 1, 0⟩ .E = false ∧
    (guideLabels exHGrid true [(⟨⟨50, 50⟩, ⟨250, 150⟩⟩, 0), (⟨⟨450, 150⟩, ⟨900, 900⟩⟩, 1)]).hasGuide ⟨5, 2, 0⟩ .U = true := by decide +kernel

end TR
