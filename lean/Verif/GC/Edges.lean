import Verif.GC.Lemmas
/-! Exposed edges: the flags of `hasPolyEdge` mean what the specification says. -/
namespace TR

theorem edgeTouches_iff {q : Box} {e : GEdge} : edgeTouches q e = true ↔
    min e.lo.x e.hi.x ≤ q.right ∧ q.left ≤ max e.lo.x e.hi.x ∧ min e.lo.y e.hi.y ≤ q.top ∧ q.bottom ≤ max e.lo.y e.hi.y := by
  unfold edgeTouches Box.overlaps
  simp [Box.left, Box.right, Box.bottom, Box.top]
  omega

def flagOf (D : GDb) (n1 n2 : Nat) (m : Box) (prl : Int) (k : Fin 4) : Bool :=
  (D.edges.filter (fun e => edgeTouches m e && (e.net == n1 || e.net == n2))).any (fun e => edgeFlag m prl e == some k)

theorem flagOf_iff {D : GDb} {n1 n2 : Nat} {m : Box} {prl : Int} {k : Fin 4} :
    flagOf D n1 n2 m prl k = true ↔ ∃ e, EdgesOf D n1 n2 e ∧ edgeTouches m e = true ∧ edgeFlag m prl e = some k := by
  unfold flagOf EdgesOf
  simp only [List.any_eq_true, List.mem_filter, Bool.and_eq_true, Bool.or_eq_true, beq_iff_eq]
  constructor
  · rintro ⟨e, ⟨h1, h2, h3⟩, h4⟩; exact ⟨e, ⟨h1, h3⟩, h2, h4⟩
  · rintro ⟨e, ⟨h1, h3⟩, h2, h4⟩; exact ⟨e, ⟨h1, h2, h3⟩, h4⟩

theorem hasPolyEdge_flags {D : GDb} {n1 n2 : Nat} {m : Box} {type : Nat} {prl : Int} :
    hasPolyEdge D n1 n2 m type prl = true ↔
      ((type = 0 ∨ type = 2) ∧ flagOf D n1 n2 m prl 0 = true ∧ flagOf D n1 n2 m prl 1 = true) ∨
      ((type = 1 ∨ type = 2) ∧ flagOf D n1 n2 m prl 2 = true ∧ flagOf D n1 n2 m prl 3 = true) := by
  show (if (type = 0 ∨ type = 2) ∧ (flagOf D n1 n2 m prl 0 && flagOf D n1 n2 m prl 1) = true then true
      else if (type = 1 ∨ type = 2) ∧ (flagOf D n1 n2 m prl 2 && flagOf D n1 n2 m prl 3) = true then true else false) = true ↔ _
  simp only [Bool.and_eq_true]
  split
  · simp [*]
  · split
    · simp [*]
    · rename_i h1 h2
      simp only [Bool.false_eq_true, false_iff]
      rintro (h | h)
      · exact h1 h
      · exact h2 h

/-- the flag of an edge in terms of its direction -/
def FlagCond (m : Box) (prl : Int) (e : GEdge) : Fin 4 → Prop
  | 0 => e.dir = .W ∧ (prl ≤ 0 ∧ e.lo.y = m.bottom ∨ 0 < prl ∧ m.bottom ≤ e.lo.y ∧ e.lo.y < m.top ∧ m.left < e.lo.x ∧ e.hi.x < m.right)
  | 1 => e.dir = .E ∧ (prl ≤ 0 ∧ e.lo.y = m.top ∨ 0 < prl ∧ m.bottom < e.lo.y ∧ e.lo.y ≤ m.top ∧ m.left < e.hi.x ∧ e.lo.x < m.right)
  | 2 => e.dir = .N ∧ (prl ≤ 0 ∧ e.lo.x = m.left ∨ 0 < prl ∧ m.left ≤ e.lo.x ∧ e.lo.x < m.right ∧ m.bottom < e.hi.y ∧ e.lo.y < m.top)
  | 3 => e.dir = .S ∧ (prl ≤ 0 ∧ e.lo.x = m.right ∨ 0 < prl ∧ m.left < e.lo.x ∧ e.lo.x ≤ m.right ∧ m.bottom < e.lo.y ∧ e.hi.y < m.top)

theorem edgeFlag_iff {m : Box} {prl : Int} {e : GEdge} {k : Fin 4} : edgeFlag m prl e = some k ↔ FlagCond m prl e k := by
  unfold edgeFlag
  by_cases hp : prl ≤ 0
  · rw [if_pos hp]
    cases hd : e.dir <;> simp only [reduceCtorEq, false_and, true_and, if_false]
    all_goals
      split
      all_goals
        rename_i hc
        match k with
        | 0 => simp [FlagCond, hd, hc, hp]; try omega
        | 1 => simp [FlagCond, hd, hc, hp]; try omega
        | 2 => simp [FlagCond, hd, hc, hp]; try omega
        | 3 => simp [FlagCond, hd, hc, hp]; try omega
  · rw [if_neg hp]
    cases hd : e.dir <;> simp only [reduceCtorEq, false_and, true_and, if_false]
    all_goals
      split
      all_goals
        rename_i hc
        match k with
        | 0 => simp [FlagCond, hd, hp]; try omega
        | 1 => simp [FlagCond, hd, hp]; try omega
        | 2 => simp [FlagCond, hd, hp]; try omega
        | 3 => simp [FlagCond, hd, hp]; try omega

theorem UpperSide.of {e : GEdge} (he : e.Ok) (h : e.dir = .W) : UpperSide e e.lo.y e.hi.x e.lo.x := by
  unfold GEdge.Ok at he
  rw [h] at he
  refine ⟨h, rfl, ?_⟩
  rw [he.1]

theorem LowerSide.of {e : GEdge} (he : e.Ok) (h : e.dir = .E) : LowerSide e e.lo.y e.lo.x e.hi.x := by
  unfold GEdge.Ok at he
  rw [h] at he
  refine ⟨h, rfl, ?_⟩
  rw [he.1]

theorem RightSide.of {e : GEdge} (he : e.Ok) (h : e.dir = .N) : RightSide e e.lo.x e.lo.y e.hi.y := by
  unfold GEdge.Ok at he
  rw [h] at he
  refine ⟨h, rfl, ?_⟩
  rw [he.1]

theorem LeftSide.of {e : GEdge} (he : e.Ok) (h : e.dir = .S) : LeftSide e e.lo.x e.hi.y e.lo.y := by
  unfold GEdge.Ok at he
  rw [h] at he
  refine ⟨h, rfl, ?_⟩
  rw [he.1]

theorem edge_coords {e : GEdge} (he : e.Ok) : (e.dir = .W → e.lo.y = e.hi.y ∧ e.hi.x < e.lo.x) ∧ (e.dir = .E → e.lo.y = e.hi.y ∧ e.lo.x < e.hi.x) ∧
    (e.dir = .N → e.lo.x = e.hi.x ∧ e.lo.y < e.hi.y) ∧ (e.dir = .S → e.lo.x = e.hi.x ∧ e.hi.y < e.lo.y) := by
  unfold GEdge.Ok at he
  refine ⟨?_, ?_, ?_, ?_⟩ <;> intro h <;> rw [h] at he <;> exact he

theorem facingV_iff {D : GDb} (hD : D.Ok) {n1 n2 : Nat} {m : Box} {prl : Int} (hp : 0 < prl) :
    (flagOf D n1 n2 m prl 0 = true ∧ flagOf D n1 n2 m prl 1 = true) ↔ FacingV (EdgesOf D n1 n2) m := by
  rw [flagOf_iff, flagOf_iff]
  unfold FacingV
  apply and_congr
  · constructor
    · rintro ⟨e, h1, h2, h3⟩
      have h4 := edgeFlag_iff.1 h3
      unfold FlagCond at h4
      obtain ⟨hd, h4⟩ := h4
      have he := hD.edges e h1.1
      exact ⟨e, _, _, _, h1, .of he hd, by omega, by omega, by omega, by omega⟩
    · rintro ⟨e, y, x1, x2, h1, ⟨hd, hl, hh⟩, g1, g2, g3, g4⟩
      have he := (edge_coords (hD.edges e h1.1)).1 hd
      refine ⟨e, h1, edgeTouches_iff.2 ?_, edgeFlag_iff.2 ⟨hd, ?_⟩⟩
      all_goals
        rw [hl, hh] at *
        simp only at *
        omega
  · constructor
    · rintro ⟨e, h1, h2, h3⟩
      have h4 := edgeFlag_iff.1 h3
      unfold FlagCond at h4
      obtain ⟨hd, h4⟩ := h4
      have he := hD.edges e h1.1
      exact ⟨e, _, _, _, h1, .of he hd, by omega, by omega, by omega, by omega⟩
    · rintro ⟨e, y, x1, x2, h1, ⟨hd, hl, hh⟩, g1, g2, g3, g4⟩
      have he := (edge_coords (hD.edges e h1.1)).2.1 hd
      refine ⟨e, h1, edgeTouches_iff.2 ?_, edgeFlag_iff.2 ⟨hd, ?_⟩⟩
      all_goals
        rw [hl, hh] at *
        simp only at *
        omega

theorem facingH_iff {D : GDb} (hD : D.Ok) {n1 n2 : Nat} {m : Box} {prl : Int} (hp : 0 < prl) :
    (flagOf D n1 n2 m prl 2 = true ∧ flagOf D n1 n2 m prl 3 = true) ↔ FacingH (EdgesOf D n1 n2) m := by
  rw [flagOf_iff, flagOf_iff]
  unfold FacingH
  apply and_congr
  · constructor
    · rintro ⟨e, h1, h2, h3⟩
      have h4 := edgeFlag_iff.1 h3
      unfold FlagCond at h4
      obtain ⟨hd, h4⟩ := h4
      have he := hD.edges e h1.1
      exact ⟨e, _, _, _, h1, .of he hd, by omega, by omega, by omega, by omega⟩
    · rintro ⟨e, y, x1, x2, h1, ⟨hd, hl, hh⟩, g1, g2, g3, g4⟩
      have he := (edge_coords (hD.edges e h1.1)).2.2.1 hd
      refine ⟨e, h1, edgeTouches_iff.2 ?_, edgeFlag_iff.2 ⟨hd, ?_⟩⟩
      all_goals
        rw [hl, hh] at *
        simp only at *
        omega
  · constructor
    · rintro ⟨e, h1, h2, h3⟩
      have h4 := edgeFlag_iff.1 h3
      unfold FlagCond at h4
      obtain ⟨hd, h4⟩ := h4
      have he := hD.edges e h1.1
      exact ⟨e, _, _, _, h1, .of he hd, by omega, by omega, by omega, by omega⟩
    · rintro ⟨e, y, x1, x2, h1, ⟨hd, hl, hh⟩, g1, g2, g3, g4⟩
      have he := (edge_coords (hD.edges e h1.1)).2.2.2 hd
      refine ⟨e, h1, edgeTouches_iff.2 ?_, edgeFlag_iff.2 ⟨hd, ?_⟩⟩
      all_goals
        rw [hl, hh] at *
        simp only at *
        omega

theorem facingCorner_iff {D : GDb} (hD : D.Ok) {n1 n2 : Nat} {m : Box} (hm : m.Proper) {prl : Int} (hp : prl ≤ 0) :
    ((flagOf D n1 n2 m prl 0 = true ∧ flagOf D n1 n2 m prl 1 = true) ∨ (flagOf D n1 n2 m prl 2 = true ∧ flagOf D n1 n2 m prl 3 = true)) ↔
      FacingCorner (EdgesOf D n1 n2) m := by
  rw [flagOf_iff, flagOf_iff, flagOf_iff, flagOf_iff]
  unfold FacingCorner
  unfold Box.Proper at hm
  refine or_congr (and_congr ?_ ?_) (and_congr ?_ ?_)
  · constructor
    · rintro ⟨e, h1, h2, h3⟩
      have h4 := edgeFlag_iff.1 h3
      unfold FlagCond at h4
      obtain ⟨hd, h4⟩ := h4
      have he := hD.edges e h1.1
      have hy : e.lo.y = m.bottom := by omega
      have := UpperSide.of he hd
      have hc := (edge_coords he).1 hd
      rw [edgeTouches_iff] at h2
      rw [hy] at this
      exact ⟨e, _, _, h1, this, by omega, by omega⟩
    · rintro ⟨e, x1, x2, h1, ⟨hd, hl, hh⟩, g3, g4⟩
      have he := (edge_coords (hD.edges e h1.1)).1 hd
      refine ⟨e, h1, edgeTouches_iff.2 ?_, edgeFlag_iff.2 ⟨hd, .inl ⟨hp, by rw [hl]⟩⟩⟩
      rw [hl, hh] at *
      simp only at *
      omega
  · constructor
    · rintro ⟨e, h1, h2, h3⟩
      have h4 := edgeFlag_iff.1 h3
      unfold FlagCond at h4
      obtain ⟨hd, h4⟩ := h4
      have he := hD.edges e h1.1
      have hy : e.lo.y = m.top := by omega
      have := LowerSide.of he hd
      have hc := (edge_coords he).2.1 hd
      rw [edgeTouches_iff] at h2
      rw [hy] at this
      exact ⟨e, _, _, h1, this, by omega, by omega⟩
    · rintro ⟨e, x1, x2, h1, ⟨hd, hl, hh⟩, g3, g4⟩
      have he := (edge_coords (hD.edges e h1.1)).2.1 hd
      refine ⟨e, h1, edgeTouches_iff.2 ?_, edgeFlag_iff.2 ⟨hd, .inl ⟨hp, by rw [hl]⟩⟩⟩
      rw [hl, hh] at *
      simp only at *
      omega
  · constructor
    · rintro ⟨e, h1, h2, h3⟩
      have h4 := edgeFlag_iff.1 h3
      unfold FlagCond at h4
      obtain ⟨hd, h4⟩ := h4
      have he := hD.edges e h1.1
      have hy : e.lo.x = m.left := by omega
      have := RightSide.of he hd
      have hc := (edge_coords he).2.2.1 hd
      rw [edgeTouches_iff] at h2
      rw [hy] at this
      exact ⟨e, _, _, h1, this, by omega, by omega⟩
    · rintro ⟨e, x1, x2, h1, ⟨hd, hl, hh⟩, g3, g4⟩
      have he := (edge_coords (hD.edges e h1.1)).2.2.1 hd
      refine ⟨e, h1, edgeTouches_iff.2 ?_, edgeFlag_iff.2 ⟨hd, .inl ⟨hp, by rw [hl]⟩⟩⟩
      rw [hl, hh] at *
      simp only at *
      omega
  · constructor
    · rintro ⟨e, h1, h2, h3⟩
      have h4 := edgeFlag_iff.1 h3
      unfold FlagCond at h4
      obtain ⟨hd, h4⟩ := h4
      have he := hD.edges e h1.1
      have hy : e.lo.x = m.right := by omega
      have := LeftSide.of he hd
      have hc := (edge_coords he).2.2.2 hd
      rw [edgeTouches_iff] at h2
      rw [hy] at this
      exact ⟨e, _, _, h1, this, by omega, by omega⟩
    · rintro ⟨e, x1, x2, h1, ⟨hd, hl, hh⟩, g3, g4⟩
      have he := (edge_coords (hD.edges e h1.1)).2.2.2 hd
      refine ⟨e, h1, edgeTouches_iff.2 ?_, edgeFlag_iff.2 ⟨hd, .inl ⟨hp, by rw [hl]⟩⟩⟩
      rw [hl, hh] at *
      simp only at *
      omega

end TR
