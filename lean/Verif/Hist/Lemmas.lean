import Verif.Hist.Model
import Verif.Maze.CounterProps
import Verif.Maze.LabelProps
import Verif.Track.Props
import Verif.Cost.History
/-! Lemmas about the marker counters. -/
namespace TR

/-- a counter after ten more -/
def raise (c : Nat) : Nat := (if c + 10 > 256 then 256 else c + 10) % 256

theorem raise_small {c : Nat} (h : c ≤ 245) : raise c = c + 10 := by
  unfold raise; rw [if_neg (by omega)]; omega

def raiseN : Nat → Nat → Nat
  | 0, c => c
  | k + 1, c => raiseN k (raise c)

theorem raiseN_add (a b c : Nat) : raiseN (a + b) c = raiseN b (raiseN a c) := by
  induction a generalizing c with
  | zero => simp [raiseN]
  | succ a ih => rw [Nat.add_right_comm, raiseN, raiseN, ih]

theorem raiseN_small (k : Nat) : ∀ c, c + 10 * k ≤ 255 → raiseN k c = c + 10 * k := by
  induction k with
  | zero => intro c _; rfl
  | succ k ih =>
    intro c h
    rw [raiseN, raise_small (by omega), ih _ (by omega)]
    omega

theorem addP_attr (g : Grid) (n m : MIdx) (b : Attr) (hn : g.On n) (hm : g.On m) :
    (g.addMarkerPlanar n).attr m b = if m = n ∧ b = .markP then raise (g.attr n .markP) else g.attr m b := by
  have hl : (GOp.addMarkerPlanar n).Legal g := Or.inr fun k a e => by
    simp only [GOp.target, Option.some.injEq, Prod.mk.injEq] at e; rw [← e.1]; exact (on_iff _ _).1 hn
  by_cases h : m = n ∧ b = .markP
  · rw [if_pos h, h.1, h.2]; exact upd_add_attr g n .markP 10
  · rw [if_neg h]
    refine c08_single_attribute g (.addMarkerPlanar n) hl m b hm (fun e => h ?_)
    simp only [GOp.target, Option.some.injEq, Prod.mk.injEq] at e
    exact ⟨e.1.symm, e.2.symm⟩

theorem addV_attr (g : Grid) (n m : MIdx) (b : Attr) (hn : g.On n) (hm : g.On m) :
    (g.addMarkerVia n).attr m b = if m = n ∧ b = .markV then raise (g.attr n .markV) else g.attr m b := by
  have hl : (GOp.addMarkerVia n).Legal g := Or.inr fun k a e => by
    simp only [GOp.target, Option.some.injEq, Prod.mk.injEq] at e; rw [← e.1]; exact (on_iff _ _).1 hn
  by_cases h : m = n ∧ b = .markV
  · rw [if_pos h, h.1, h.2]; exact upd_add_attr g n .markV 10
  · rw [if_neg h]
    refine c08_single_attribute g (.addMarkerVia n) hl m b hm (fun e => h ?_)
    simp only [GOp.target, Option.some.injEq, Prod.mk.injEq] at e
    exact ⟨e.1.symm, e.2.symm⟩

theorem addUp_eq (g : Grid) (n : MIdx) (hn : g.On n) : g.addMarker n .U = g.addMarkerVia n := by
  have := (on_iff _ _).1 hn
  simp only [Grid.addMarker, correct, this, if_true, Grid.addMarkerVia]

def belowNode (n : MIdx) : MIdx := ⟨n.x, n.y, n.z - 1⟩

theorem addDown_eq (g : Grid) (n : MIdx) :
    g.addMarker n .D = if g.On (belowNode n) then g.addMarkerVia (belowNode n) else g := by
  have e : g.addMarker n .D = if g.isValid (belowNode n) = true then g.addMarkerVia (belowNode n) else g := rfl
  rw [e]
  by_cases h : g.On (belowNode n)
  · rw [if_pos h, if_pos ((on_iff _ _).1 h)]
  · rw [if_neg h, if_neg (fun e => h ((on_iff _ _).2 e))]

theorem fade_attr (g : Grid) (n m : MIdx) (b a : Attr) (ha : a.field.2 = 8) (hn : g.On n) (hm : g.On m) :
    (g.upd (g.idx n) (setBits · a.field.1 8 (max 0 (fade (getBits (g.bits (g.idx n)) a.field.1 8))).toNat)).attr m b =
      if m = n ∧ b = a then g.attr n a * 4 / 5 else g.attr m b := by
  have e := put_attr g n m a b (max 0 (fade (getBits (g.bits (g.idx n)) a.field.1 8))).toNat ((on_iff _ _).1 hn) ((on_iff _ _).1 hm)
  have hlt := attr_lt g n a
  have q : (g.upd (g.idx n) (setBits · a.field.1 8 (max 0 (fade (getBits (g.bits (g.idx n)) a.field.1 8))).toNat)) =
      g.put n a (max 0 (fade (getBits (g.bits (g.idx n)) a.field.1 8))).toNat := by
    unfold Grid.put; rw [ha]
  rw [q, e]
  have v : (max 0 (fade (getBits (g.bits (g.idx n)) a.field.1 8))).toNat = g.attr n a * 4 / 5 := by
    rw [attr_eq, ha]; unfold fade; omega
  rw [v, ha] at *
  by_cases h : m = n ∧ b = a
  · rw [if_pos h, if_pos h]; exact Nat.mod_eq_of_lt (by omega)
  · rw [if_neg h, if_neg h]

theorem fadeP_attr (g : Grid) (n m : MIdx) (b : Attr) (hn : g.On n) (hm : g.On m) :
    (g.decayMarkerPlanarF n fade).1.attr m b = if m = n ∧ b = .markP then g.attr n .markP * 4 / 5 else g.attr m b :=
  fade_attr g n m b .markP rfl hn hm

theorem fadeV_attr (g : Grid) (n m : MIdx) (b : Attr) (hn : g.On n) (hm : g.On m) :
    (g.decayMarkerViaF n fade).1.attr m b = if m = n ∧ b = .markV then g.attr n .markV * 4 / 5 else g.attr m b :=
  fade_attr g n m b .markV rfl hn hm

theorem fadeP_flag (g : Grid) (n : MIdx) : (g.decayMarkerPlanarF n fade).2 = decide (g.attr n .markP * 4 / 5 = 0) := by
  have e : (g.decayMarkerPlanarF n fade).2 = decide (max 0 (fade (getBits (g.bits (g.idx n)) 32 8)) = 0) := rfl
  rw [e, attr_eq, Bool.eq_iff_iff, decide_eq_true_eq, decide_eq_true_eq]
  unfold fade
  simp only [Attr.field]
  omega

theorem fadeV_flag (g : Grid) (n : MIdx) : (g.decayMarkerViaF n fade).2 = decide (g.attr n .markV * 4 / 5 = 0) := by
  have e : (g.decayMarkerViaF n fade).2 = decide (max 0 (fade (getBits (g.bits (g.idx n)) 40 8)) = 0) := rfl
  rw [e, attr_eq, Bool.eq_iff_iff, decide_eq_true_eq, decide_eq_true_eq]
  unfold fade
  simp only [Attr.field]
  omega

theorem mem_insNode (l : List MIdx) (n m : MIdx) : m ∈ insNode l n ↔ m ∈ l ∨ m = n := by
  unfold insNode
  by_cases h : n ∈ l
  · rw [if_pos h]
    constructor
    · exact Or.inl
    · rintro (h' | rfl)
      · exact h'
      · exact h
  · rw [if_neg h, List.mem_cons, or_comm]

theorem insNode_nodup {l : List MIdx} (h : l.Nodup) (n : MIdx) : (insNode l n).Nodup := by
  unfold insNode
  by_cases h' : n ∈ l
  · rw [if_pos h']; exact h
  · rw [if_neg h']; exact List.nodup_cons.2 ⟨h', h⟩

theorem hgrid_refl (g : Grid) : SameGrid g g := ⟨rfl, rfl, rfl⟩

theorem hgrid_trans {g g' g'' : Grid} (h : SameGrid g g') (h' : SameGrid g' g'') : SameGrid g g'' :=
  ⟨h'.1.trans h.1, h'.2.1.trans h.2.1, h'.2.2.trans h.2.2⟩

theorem addMarker_same (g : Grid) (n : MIdx) (d : Dir) : SameGrid g (g.addMarker n d) := by
  unfold Grid.addMarker
  dsimp only
  split
  · split <;> exact ⟨rfl, rfl, rfl⟩
  · exact ⟨rfl, rfl, rfl⟩

theorem sameGrid_wireNodes {g g' : Grid} (h : SameGrid g g') (mk : Box) (m1 m2 : MIdx) (w : Int) :
    wireNodes g' mk m1 m2 w = wireNodes g mk m1 m2 w := by
  have hr : ∀ horz b, wireRange g' horz m1 m2 b = wireRange g horz m1 m2 b := by
    intro horz b
    unfold wireRange Grid.idxBox
    rw [h.1, h.2.1]
  have hg : ∀ horz k b, growBox g' horz m1 m2 w k b = growBox g horz m1 m2 w k b := by
    intro horz k
    induction k with
    | zero => intro b; rfl
    | succ k ih => intro b; unfold growBox; rw [hr, ih]
  unfold wireNodes
  dsimp only
  rw [hr, hg]

theorem sameGrid_patchNodes {g g' : Grid} (h : SameGrid g g') (b : Box) (z : Int) : patchNodes g' b z = patchNodes g b z := by
  unfold patchNodes Grid.mazeXIdx Grid.mazeYIdx
  rw [h.1, h.2.1]

/-! ### one list of nodes -/

/-- effect of charging the nodes of a wire -/
theorem markWires (l : List MIdx) : ∀ (s : HState), (∀ n ∈ l, s.grid.On n) →
    SameGrid s.grid (l.foldl HState.markWire s).grid ∧ (l.foldl HState.markWire s).via = s.via ∧
    (∀ m, m ∈ (l.foldl HState.markWire s).planar ↔ m ∈ s.planar ∨ m ∈ l) ∧
    (s.planar.Nodup → (l.foldl HState.markWire s).planar.Nodup) ∧
    ∀ m b, s.grid.On m → (l.foldl HState.markWire s).grid.attr m b =
      if b = .markP then raiseN (l.count m) (s.grid.attr m .markP) else s.grid.attr m b := by
  induction l with
  | nil =>
    intro s _
    refine ⟨hgrid_refl _, rfl, fun m => by simp, id, fun m b _ => ?_⟩
    by_cases h : b = .markP
    · rw [if_pos h, h]; rfl
    · rw [if_neg h]; rfl
  | cons n l ih =>
    intro s hon
    have hn := hon n (by simp)
    have hs : SameGrid s.grid (s.markWire n).grid := ⟨rfl, rfl, rfl⟩
    obtain ⟨i1, i2, i3, i4, i5⟩ := ih (s.markWire n) (fun k hk => (sameGrid_on hs k).2 (hon k (by simp [hk])))
    rw [List.foldl_cons]
    refine ⟨hgrid_trans hs i1, i2, fun m => ?_, fun h => i4 (insNode_nodup h n), fun m b hm => ?_⟩
    · rw [i3]
      show m ∈ insNode s.planar n ∨ _ ↔ _
      rw [mem_insNode, List.mem_cons, or_assoc]
    · rw [i5 m b ((sameGrid_on hs m).2 hm)]
      show (if b = .markP then raiseN (l.count m) ((s.grid.addMarkerPlanar n).attr m .markP) else (s.grid.addMarkerPlanar n).attr m b) = _
      rw [addP_attr _ _ _ _ hn hm, addP_attr _ _ _ _ hn hm, List.count_cons]
      by_cases h : b = .markP
      · rw [if_pos h, if_pos h]
        by_cases e : m = n
        · subst e; simp [raiseN]
        · have : (n == m) = false := by simpa using fun h => e h.symm
          simp [e, this]
      · rw [if_neg h, if_neg h, if_neg (fun e => h e.2)]

/-- effect of charging the nodes of a patch -/
theorem markPatches (l : List MIdx) : ∀ (s : HState), (∀ n ∈ l, s.grid.On n) →
    SameGrid s.grid (l.foldl HState.markPatch s).grid ∧ (l.foldl HState.markPatch s).via = s.via ∧
    (∀ m, m ∈ (l.foldl HState.markPatch s).planar ↔ m ∈ s.planar ∨ m ∈ l) ∧
    (s.planar.Nodup → (l.foldl HState.markPatch s).planar.Nodup) ∧
    ∀ m b, s.grid.On m → (l.foldl HState.markPatch s).grid.attr m b =
      if b = .markP then raiseN (l.count m) (s.grid.attr m .markP)
      else if b = .markV then raiseN (l.count m + (l.map belowNode).count m) (s.grid.attr m .markV) else s.grid.attr m b := by
  induction l with
  | nil =>
    intro s _
    refine ⟨hgrid_refl _, rfl, fun m => by simp, id, fun m b _ => ?_⟩
    by_cases h : b = .markP
    · rw [if_pos h, h]; rfl
    · rw [if_neg h]
      by_cases h' : b = .markV
      · rw [if_pos h', h']; rfl
      · rw [if_neg h']; rfl
  | cons n l ih =>
    intro s hon
    have hn := hon n (by simp)
    have h1 : SameGrid s.grid (s.grid.addMarkerPlanar n) := ⟨rfl, rfl, rfl⟩
    have h2 := hgrid_trans h1 (addMarker_same (s.grid.addMarkerPlanar n) n .U)
    have hs : SameGrid s.grid (s.markPatch n).grid := hgrid_trans h2 (addMarker_same _ n .D)
    obtain ⟨i1, i2, i3, i4, i5⟩ := ih (s.markPatch n) (fun k hk => (sameGrid_on hs k).2 (hon k (by simp [hk])))
    rw [List.foldl_cons]
    have key : ∀ m b, s.grid.On m → (s.markPatch n).grid.attr m b =
        if m = n ∧ b = .markP then raise (s.grid.attr m .markP)
        else if b = .markV then raiseN ((if m = n then 1 else 0) + (if m = belowNode n then 1 else 0)) (s.grid.attr m .markV)
        else s.grid.attr m b := by
      intro m b hm
      show (((s.grid.addMarkerPlanar n).addMarker n .U).addMarker n .D).attr m b = _
      rw [addDown_eq, addUp_eq _ _ ((sameGrid_on h1 n).2 hn)]
      have g1 : SameGrid s.grid ((s.grid.addMarkerPlanar n).addMarkerVia n) := ⟨rfl, rfl, rfl⟩
      have a1 : ∀ k c, s.grid.On k → ((s.grid.addMarkerPlanar n).addMarkerVia n).attr k c =
          if k = n ∧ c = .markV then raise (s.grid.attr n .markV)
          else if k = n ∧ c = .markP then raise (s.grid.attr n .markP) else s.grid.attr k c := by
        intro k c hk
        rw [addV_attr _ _ _ _ ((sameGrid_on h1 n).2 hn) ((sameGrid_on h1 k).2 hk), addP_attr _ _ _ _ hn hn, addP_attr _ _ _ _ hn hk]
        simp
      have nb : n ≠ belowNode n := by
        intro e; have := congrArg MIdx.z e; simp only [belowNode] at this; omega
      by_cases hb : ((s.grid.addMarkerPlanar n).addMarkerVia n).On (belowNode n)
      · rw [if_pos hb, addV_attr _ _ _ _ hb ((sameGrid_on g1 m).2 hm), a1 _ _ ((sameGrid_on g1 _).1 hb), a1 _ _ hm]
        by_cases e1 : m = n
        · subst e1
          cases b <;> simp [nb, raiseN]
        · by_cases e2 : m = belowNode n
          · subst e2
            cases b <;> simp [nb.symm, raiseN]
          · cases b <;> simp [e1, e2, raiseN]
      · rw [if_neg hb, a1 _ _ hm]
        have e2 : m ≠ belowNode n := fun e => hb ((sameGrid_on g1 _).2 (e ▸ hm))
        by_cases e1 : m = n
        · subst e1
          cases b <;> simp [nb, raiseN]
        · cases b <;> simp [e1, e2, raiseN]
    refine ⟨hgrid_trans hs i1, i2, fun m => ?_, fun h => i4 (insNode_nodup h n), fun m b hm => ?_⟩
    · rw [i3]
      show m ∈ insNode s.planar n ∨ _ ↔ _
      rw [mem_insNode, List.mem_cons, or_assoc]
    · rw [i5 m b ((sameGrid_on hs m).2 hm), key _ _ hm, key _ _ hm, key _ _ hm, List.map_cons, List.count_cons, List.count_cons]
      have c1 : (if (n == m) = true then 1 else 0) = (if m = n then 1 else 0) := by
        by_cases e : m = n
        · simp [e]
        · have : (n == m) = false := by simpa using fun h => e h.symm
          simp [e, this]
      have c2 : (if (belowNode n == m) = true then 1 else 0) = (if m = belowNode n then 1 else 0) := by
        by_cases e : m = belowNode n
        · simp [e]
        · have : (belowNode n == m) = false := by simpa using fun h => e h.symm
          simp [e, this]
      rw [c1, c2]
      by_cases h : b = .markP
      · subst h
        by_cases e : m = n
        · simp [e, raiseN]
        · simp [e]
      · by_cases h' : b = .markV
        · subst h'
          simp only [reduceCtorEq, and_false, if_false, if_true]
          rw [← raiseN_add]
          congr 1
          omega
        · simp [h, h']

end TR
