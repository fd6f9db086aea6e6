import Verif.GC.CornerSpec
import Verif.GC.Layer
/-! Lemmas about corners. -/
namespace TR

theorem pos_mul_iff {l x : Int} (h : 0 < l) : 0 < l * x ↔ 0 < x := by
  constructor
  · intro g
    rcases Int.lt_trichotomy x 0 with hx | hx | hx
    · have := Int.mul_neg_of_pos_of_neg h hx
      omega
    · subst hx; simp at g
    · exact hx
  · exact Int.mul_pos h

theorem pos_mul_neg_iff {l x : Int} (h : l < 0) : 0 < l * x ↔ x < 0 := by
  have := pos_mul_iff (l := -l) (x := -x) (by omega)
  rw [Int.neg_mul_neg] at this
  rw [this]
  omega

theorem onLeft_iff {e : GEdge} (he : e.Ok) (dx dy : Int) : OnLeft e dx dy ↔
    (e.dir = .N ∧ dx < 0) ∨ (e.dir = .S ∧ 0 < dx) ∨ (e.dir = .E ∧ 0 < dy) ∨ (e.dir = .W ∧ dy < 0) := by
  unfold OnLeft
  have hc := edge_coords he
  cases hd : e.dir <;> simp only [hd, reduceCtorEq, false_and, true_and, false_or, or_false, forall_const, false_implies, and_true] at hc ⊢
  · have e1 : e.hi.y - e.lo.y = 0 := by omega
    rw [e1, Int.zero_mul, Int.sub_zero, pos_mul_neg_iff (by omega)]
  · have e1 : e.hi.y - e.lo.y = 0 := by omega
    rw [e1, Int.zero_mul, Int.sub_zero, pos_mul_iff (by omega)]
  · have e1 : e.hi.x - e.lo.x = 0 := by omega
    have := pos_mul_neg_iff (l := -(e.hi.y - e.lo.y)) (x := dx) (by omega)
    rw [e1, Int.zero_mul, ← this, Int.neg_mul]
    omega
  · have e1 : e.hi.x - e.lo.x = 0 := by omega
    have := pos_mul_iff (l := -(e.hi.y - e.lo.y)) (x := dx) (by omega)
    rw [e1, Int.zero_mul, ← this, Int.neg_mul]
    omega

theorem cross_onLeft (a b : GEdge) : crossEdge a b = (a.hi.x - a.lo.x) * (b.hi.y - b.lo.y) - (a.hi.y - a.lo.y) * (b.hi.x - b.lo.x) := rfl

theorem leftTurn_iff {a b : GEdge} (ha : a.Ok) (hb : b.Ok) : LeftTurn a b ↔ turnSign a.dir b.dir = 1 := by
  have h := onLeft_iff ha (b.hi.x - b.lo.x) (b.hi.y - b.lo.y)
  have hl : LeftTurn a b ↔ OnLeft a (b.hi.x - b.lo.x) (b.hi.y - b.lo.y) := Iff.rfl
  rw [hl, h]
  have hc := edge_coords hb
  cases hd : a.dir <;> cases hd' : b.dir <;>
    simp only [hd', reduceCtorEq, false_and, true_and, false_or, or_false, forall_const, false_implies, and_true] at hc <;>
    simp [turnSign] <;> omega

theorem rightTurn_iff {a b : GEdge} (ha : a.Ok) (hb : b.Ok) : RightTurn a b ↔ turnSign a.dir b.dir = -1 := by
  have h := onLeft_iff ha (-(b.hi.x - b.lo.x)) (-(b.hi.y - b.lo.y))
  have hl : RightTurn a b ↔ OnLeft a (-(b.hi.x - b.lo.x)) (-(b.hi.y - b.lo.y)) := by
    unfold RightTurn OnLeft
    rw [cross_onLeft, Int.mul_neg, Int.mul_neg]
    omega
  rw [hl, h]
  have hc := edge_coords hb
  cases hd : a.dir <;> cases hd' : b.dir <;>
    simp only [hd', reduceCtorEq, false_and, true_and, false_or, or_false, forall_const, false_implies, and_true] at hc <;>
    simp [turnSign] <;> omega

theorem cornKind_convex {a b : GEdge} (ha : a.Ok) (hb : b.Ok) : cornKind a.dir b.dir = .convex ↔ LeftTurn a b := by
  rw [leftTurn_iff ha hb]
  cases a.dir <;> cases b.dir <;> decide

theorem cornKind_concave {a b : GEdge} (ha : a.Ok) (hb : b.Ok) : cornKind a.dir b.dir = .concave ↔ RightTurn a b := by
  rw [rightTurn_iff ha hb]
  cases a.dir <;> cases b.dir <;> decide

/-- the direction of a corner as a vector -/
def dirVec : CornDir → Option (Int × Int)
  | .ne => some (1, 1)
  | .se => some (1, -1)
  | .sw => some (-1, -1)
  | .nw => some (-1, 1)
  | .unknown => none

theorem metalAt_iff {a b : GEdge} (ha : a.Ok) (hb : b.Ok) (dx dy : Int) : MetalAt a b dx dy ↔
    (turnSign a.dir b.dir = 1 ∧ ((a.dir = .N ∧ dx < 0) ∨ (a.dir = .S ∧ 0 < dx) ∨ (a.dir = .E ∧ 0 < dy) ∨ (a.dir = .W ∧ dy < 0)) ∧
      ((b.dir = .N ∧ dx < 0) ∨ (b.dir = .S ∧ 0 < dx) ∨ (b.dir = .E ∧ 0 < dy) ∨ (b.dir = .W ∧ dy < 0))) ∨
    (turnSign a.dir b.dir = -1 ∧ (((a.dir = .N ∧ dx < 0) ∨ (a.dir = .S ∧ 0 < dx) ∨ (a.dir = .E ∧ 0 < dy) ∨ (a.dir = .W ∧ dy < 0)) ∨
      ((b.dir = .N ∧ dx < 0) ∨ (b.dir = .S ∧ 0 < dx) ∨ (b.dir = .E ∧ 0 < dy) ∨ (b.dir = .W ∧ dy < 0)))) := by
  unfold MetalAt
  rw [leftTurn_iff ha hb, rightTurn_iff ha hb, onLeft_iff ha, onLeft_iff hb]

theorem outward_iff {a b : GEdge} (ha : a.Ok) (hb : b.Ok) (sx sy : Int) : CornOut a b sx sy ↔
    dirVec (cornDir a.dir b.dir) = some (sx, sy) := by
  have key : CornOut a b sx sy ↔ (sx = 1 ∨ sx = -1) ∧ (sy = 1 ∨ sy = -1) ∧ ¬ MetalAt a b sx sy ∧ MetalAt a b (-sx) (-sy) :=
    ⟨fun h => ⟨h.1, h.2, h.3, h.4⟩, fun ⟨h1, h2, h3, h4⟩ => ⟨h1, h2, h3, h4⟩⟩
  rw [key, metalAt_iff ha hb, metalAt_iff ha hb]
  constructor
  · rintro ⟨h1, h2, h3, h4⟩
    revert h3 h4
    rcases h1 with rfl | rfl <;> rcases h2 with rfl | rfl <;> cases a.dir <;> cases b.dir <;> simp [turnSign, cornDir, dirVec]
  · intro h
    have h1 : sx = 1 ∨ sx = -1 := by
      cases hd : cornDir a.dir b.dir <;> simp [hd, dirVec] at h <;> omega
    have h2 : sy = 1 ∨ sy = -1 := by
      cases hd : cornDir a.dir b.dir <;> simp [hd, dirVec] at h <;> omega
    refine ⟨h1, h2, ?_⟩
    revert h
    rcases h1 with rfl | rfl <;> rcases h2 with rfl | rfl <;> cases a.dir <;> cases b.dir <;> simp [turnSign, cornDir, dirVec]

theorem cornerOn_iff (c : GCorner) (b : Box) : cornerOn c b = true ↔ ∃ sx sy, dirVec c.dir = some (sx, sy) ∧ CornerOf b c.pt sx sy := by
  unfold cornerOn CornerOf
  constructor
  · intro h
    cases hd : c.dir <;> simp [hd] at h <;> exact ⟨_, _, rfl, by simpa using h⟩
  · rintro ⟨sx, sy, h1, h2⟩
    cases hd : c.dir <;> simp [hd, dirVec] at h1 <;> obtain ⟨rfl, rfl⟩ := h1 <;> simpa using h2

end TR
