import Verif.GC.Spec
import Verif.Tech.Props
import Verif.WB.Props
/-! Lemmas on distances, gaps, edges and areas. -/
namespace TR

theorem sort4_mid {a b c d : Int} (h1 : a ≤ b) (h2 : c ≤ d) :
    (sort4 a b c d).getD 1 0 = min (max a c) (min b d) ∧ (sort4 a b c d).getD 2 0 = max (max a c) (min b d) := by
  unfold sort4
  simp only [insSorted]
  repeat' split
  all_goals simp only [insSorted] at *
  all_goals (repeat' split)
  all_goals simp [insSorted] at *
  all_goals (repeat' split)
  all_goals (try simp)
  all_goals (try omega)

theorem genIntersect_between {a b : Box} (ha : a.Proper) (hb : b.Proper) : IsBetween a b (genIntersect a b) := by
  have hx := sort4_mid ha.1 hb.1
  have hy := sort4_mid ha.2 hb.2
  exact ⟨hx.1, hx.2, hy.1, hy.2⟩

theorem ivDist_shared {a b c d : Int} (h1 : a ≤ b) (h2 : c ≤ d) : ivDist a b c d = max 0 (max a c - min b d) := by
  unfold ivDist
  split
  · omega
  · split <;> omega

theorem ivDist_nonneg (a b c d : Int) : 0 ≤ ivDist a b c d := by
  unfold ivDist
  split
  · omega
  · split <;> omega

theorem sq_le_of_abs {d u : Int} (h0 : 0 ≤ d) (h : d ≤ u ∨ d ≤ -u) : d * d ≤ u * u := by
  rcases h with h | h
  · exact Int.mul_le_mul h h h0 (by omega)
  · have := Int.mul_le_mul h h h0 (by omega)
    rwa [Int.neg_mul_neg] at this

theorem ivDist_le {a b c d p q : Int} (hp : a ≤ p ∧ p ≤ b) (hq : c ≤ q ∧ q ≤ d) : ivDist a b c d * ivDist a b c d ≤ (p - q) * (p - q) := by
  apply sq_le_of_abs (ivDist_nonneg a b c d)
  unfold ivDist
  split
  · omega
  · split <;> omega

theorem ivDist_attained {a b c d : Int} (h1 : a ≤ b) (h2 : c ≤ d) :
    ∃ p q, (a ≤ p ∧ p ≤ b) ∧ (c ≤ q ∧ q ≤ d) ∧ (p - q) * (p - q) = ivDist a b c d * ivDist a b c d := by
  unfold ivDist
  by_cases hb : b < c
  · refine ⟨b, c, by omega, by omega, ?_⟩
    rw [if_pos hb, ← Int.neg_mul_neg]
    congr 1 <;> omega
  · by_cases hd : d < a
    · exact ⟨a, d, by omega, by omega, by rw [if_neg hb, if_pos hd]⟩
    · refine ⟨max a c, max a c, by omega, by omega, ?_⟩
      rw [if_neg hb, if_neg hd, Int.sub_self]

/-- squared distance of two rectangles -/
def dist2 (a b : Box) : Int :=
  ivDist a.left a.right b.left b.right * ivDist a.left a.right b.left b.right +
  ivDist a.bottom a.top b.bottom b.top * ivDist a.bottom a.top b.bottom b.top

theorem closer_iff {a b : Box} (ha : a.Proper) (hb : b.Proper) (d : Int) : Closer a b d ↔ dist2 a b < d * d := by
  constructor
  · rintro ⟨p, q, hp, hq, h⟩
    have h1 := ivDist_le (p := p.x) (q := q.x) ⟨hp.1, hp.2.1⟩ ⟨hq.1, hq.2.1⟩
    have h2 := ivDist_le (p := p.y) (q := q.y) ⟨hp.2.2.1, hp.2.2.2⟩ ⟨hq.2.2.1, hq.2.2.2⟩
    unfold dist2
    omega
  · intro h
    obtain ⟨px, qx, h1, h2, h3⟩ := ivDist_attained ha.1 hb.1
    obtain ⟨py, qy, g1, g2, g3⟩ := ivDist_attained ha.2 hb.2
    refine ⟨⟨px, py⟩, ⟨qx, qy⟩, ⟨h1.1, h1.2, g1.1, g1.2⟩, ⟨h2.1, h2.2, g2.1, g2.2⟩, ?_⟩
    simp only [h3, g3]
    exact h

theorem touches_iff_shared {a b : Box} (ha : a.Proper) (hb : b.Proper) : Touches a b ↔ 0 ≤ sharedX a b ∧ 0 ≤ sharedY a b := by
  unfold sharedX sharedY
  unfold Box.Proper at ha hb
  constructor
  · rintro ⟨p, hp, hq⟩
    unfold Box.Has at hp hq
    simp only [Box.left, Box.right, Box.bottom, Box.top] at *
    omega
  · intro h
    refine ⟨⟨max a.left b.left, max a.bottom b.bottom⟩, ?_, ?_⟩ <;>
    · unfold Box.Has
      simp only [Box.left, Box.right, Box.bottom, Box.top] at *
      omega

theorem mem_intsFrom {a b x : Int} : x ∈ intsFrom a b ↔ a ≤ x ∧ x < b := by
  unfold intsFrom
  rw [List.mem_map]
  constructor
  · rintro ⟨i, hi, rfl⟩
    rw [List.mem_range] at hi
    omega
  · intro h
    exact ⟨(x - a).toNat, by rw [List.mem_range]; omega, by omega⟩

theorem mem_unitCells {b : Box} {c : Point} : c ∈ unitCells b ↔ CellOf b c := by
  unfold unitCells CellOf
  simp only [List.mem_flatMap, List.mem_map, mem_intsFrom]
  constructor
  · rintro ⟨x, hx, y, hy, rfl⟩
    exact ⟨hx.1, hx.2, hy.1, hy.2⟩
  · rintro ⟨h1, h2, h3, h4⟩
    exact ⟨c.x, ⟨h1, h2⟩, c.y, ⟨h3, h4⟩, rfl⟩

theorem cellIn_iff {b : Box} {c : Point} : cellIn b c = true ↔ CellOf b c := by
  unfold cellIn CellOf
  simp only [Bool.and_eq_true, decide_eq_true_eq]
  constructor
  · rintro ⟨⟨⟨h1, h2⟩, h3⟩, h4⟩; exact ⟨h1, h2, h3, h4⟩
  · rintro ⟨h1, h2, h3, h4⟩; exact ⟨⟨⟨h1, h2⟩, h3⟩, h4⟩

theorem covered_lt {b : Box} {shapes : List Box} :
    coveredArea b shapes < (unitCells b).length ↔ ∃ c, CellOf b c ∧ ∀ s ∈ shapes, ¬ CellOf s c := by
  have hle : coveredArea b shapes ≤ (unitCells b).length := List.countP_le_length
  have heq : coveredArea b shapes = (unitCells b).length ↔ ∀ c ∈ unitCells b, (shapes.any (fun s => cellIn s c)) = true := List.countP_eq_length
  constructor
  · intro h
    have hn : ¬ ∀ c ∈ unitCells b, (shapes.any (fun s => cellIn s c)) = true := fun hh => by
      have := heq.2 hh
      omega
    by_cases hex : ∃ c, CellOf b c ∧ ∀ s ∈ shapes, ¬ CellOf s c
    · exact hex
    · exfalso
      apply hn
      intro c hc
      rw [List.any_eq_true]
      by_cases hs : ∃ s ∈ shapes, CellOf s c
      · obtain ⟨s, h1, h2⟩ := hs
        exact ⟨s, h1, cellIn_iff.2 h2⟩
      · exact absurd ⟨c, mem_unitCells.1 hc, fun s h1 h2 => hs ⟨s, h1, h2⟩⟩ hex
  · rintro ⟨c, hc, hn⟩
    have : coveredArea b shapes ≠ (unitCells b).length := by
      intro he
      have := heq.1 he c (mem_unitCells.2 hc)
      rw [List.any_eq_true] at this
      obtain ⟨s, h1, h2⟩ := this
      exact hn s h1 (cellIn_iff.1 h2)
    omega

theorem covered_zero {b : Box} {shapes : List Box} : coveredArea b shapes = 0 ↔ ¬ ∃ c, CellOf b c ∧ ∃ s ∈ shapes, CellOf s c := by
  unfold coveredArea
  rw [List.countP_eq_zero]
  constructor
  · rintro h ⟨c, hc, s, hs, hcs⟩
    exact h c (mem_unitCells.2 hc) (List.any_eq_true.2 ⟨s, hs, cellIn_iff.2 hcs⟩)
  · intro h c hc ha
    obtain ⟨s, h1, h2⟩ := List.any_eq_true.1 ha
    exact h ⟨c, mem_unitCells.1 hc, s, h1, cellIn_iff.1 h2⟩

theorem hasRouteNear_iff {D : GDb} {m : Box} {r : GRect} :
    hasRouteNear D m r = true ↔ RoutedNear (D.fixedPolys r.net) r.box m (min (r.box.right - r.box.left) (r.box.top - r.box.bottom)) := by
  unfold hasRouteNear RoutedNear
  simp only [decide_eq_true_eq, covered_lt]
  have hc : ∀ c, CellOf (boxMeet (gBloat m r.width) r.box) c ↔ CellOf r.box c ∧ m.left - r.width ≤ c.x ∧ c.x < m.right + r.width ∧
      m.bottom - r.width ≤ c.y ∧ c.y < m.top + r.width := by
    intro c
    unfold CellOf boxMeet gBloat
    simp only [Box.left, Box.right, Box.bottom, Box.top]
    omega
  constructor
  · rintro ⟨c, h1, h2⟩
    obtain ⟨g1, g2⟩ := (hc c).1 h1
    exact ⟨c, g1, g2.1, g2.2.1, g2.2.2.1, g2.2.2.2, h2⟩
  · rintro ⟨c, h1, h2, h3, h4, h5, h6⟩
    exact ⟨c, (hc c).2 ⟨h1, h2, h3, h4, h5⟩, h6⟩

end TR
