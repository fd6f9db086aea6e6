import Verif.Patch.Area
import Verif.Seek.Costs
/-! Metal of a straight run with its patch. -/
namespace TR

/-- coordinate of a node along the preferred direction -/
def Grid.alongPos (g : Grid) (horz : Bool) (m : MIdx) : Int := if horz then coordAt g.xs m.x else coordAt g.ys m.y

theorem alongPos_lt {g : Grid} (hx : g.xs.Pairwise (· ≤ ·)) (hy : g.ys.Pairwise (· ≤ ·)) {horz : Bool} {p q : MIdx}
    (hq : g.On q) (h : alongIdx horz p ≤ alongIdx horz q) : g.alongPos horz p ≤ g.alongPos horz q := by
  unfold Grid.On at hq
  unfold Grid.alongPos
  unfold alongIdx at h
  cases horz
  · simp only [Bool.false_eq_true, if_false] at h ⊢
    exact coordAt_mono hy h (by omega) (by omega)
  · simp only [if_true] at h ⊢
    exact coordAt_mono hx h (by omega) (by omega)

theorem across_same {g : Grid} {horz : Bool} {p q : MIdx} (h : alongIdx (!horz) p = alongIdx (!horz) q) :
    g.alongPos (!horz) p = g.alongPos (!horz) q := by
  unfold Grid.alongPos
  unfold alongIdx at h
  cases horz
  · simp only [Bool.not_false, if_true] at h ⊢; rw [h]
  · simp only [Bool.not_true, Bool.false_eq_true, if_false] at h ⊢; rw [h]

theorem step_len {g : Grid} {horz : Bool} {p q : MIdx} (h : alongIdx (!horz) p = alongIdx (!horz) q) :
    (coordAt g.xs p.x - coordAt g.xs q.x).natAbs + (coordAt g.ys p.y - coordAt g.ys q.y).natAbs =
      (g.alongPos horz p - g.alongPos horz q).natAbs := by
  unfold Grid.alongPos
  unfold alongIdx at h
  cases horz
  · simp only [Bool.not_false, if_true, Bool.false_eq_true, if_false] at h ⊢; rw [h]; omega
  · simp only [Bool.not_true, Bool.false_eq_true, if_false, if_true] at h ⊢; rw [h]; omega

theorem centre_up {g : Grid} (hx : g.xs.Pairwise (· ≤ ·)) (hy : g.ys.Pairwise (· ≤ ·)) (horz : Bool) :
    ∀ (pts : List MIdx) (p : MIdx), (∀ a ∈ p :: pts, g.On a) →
    (∀ a ∈ p :: pts, ∀ b ∈ p :: pts, alongIdx (!horz) a = alongIdx (!horz) b) →
    (p :: pts).Pairwise (fun a b => alongIdx horz a < alongIdx horz b) →
    g.alongPos horz p ≤ g.alongPos horz (pts.getLastD p) ∧
    (centreLen g (p :: pts) : Int) = g.alongPos horz (pts.getLastD p) - g.alongPos horz p
  | [], p, _, _, _ => by simp [centreLen]
  | q :: pts, p, hon, hrow, hinc => by
    have ih := centre_up hx hy horz pts q (fun a ha => hon a (List.mem_cons_of_mem _ ha))
      (fun a ha b hb => hrow a (List.mem_cons_of_mem _ ha) b (List.mem_cons_of_mem _ hb)) (List.pairwise_cons.1 hinc).2
    have h1 := (List.pairwise_cons.1 hinc).1 q (by simp)
    have h2 := alongPos_lt hx hy (hon q (by simp)) (Int.le_of_lt h1)
    have h3 := step_len (g := g) (hrow p (by simp) q (by simp))
    have e : (q :: pts).getLastD p = pts.getLastD q := by cases pts <;> rfl
    rw [e]
    simp only [centreLen, Int.natCast_add]
    omega

theorem centre_down {g : Grid} (hx : g.xs.Pairwise (· ≤ ·)) (hy : g.ys.Pairwise (· ≤ ·)) (horz : Bool) :
    ∀ (pts : List MIdx) (p : MIdx), (∀ a ∈ p :: pts, g.On a) →
    (∀ a ∈ p :: pts, ∀ b ∈ p :: pts, alongIdx (!horz) a = alongIdx (!horz) b) →
    (p :: pts).Pairwise (fun a b => alongIdx horz b < alongIdx horz a) →
    g.alongPos horz (pts.getLastD p) ≤ g.alongPos horz p ∧
    (centreLen g (p :: pts) : Int) = g.alongPos horz p - g.alongPos horz (pts.getLastD p)
  | [], p, _, _, _ => by simp [centreLen]
  | q :: pts, p, hon, hrow, hinc => by
    have ih := centre_down hx hy horz pts q (fun a ha => hon a (List.mem_cons_of_mem _ ha))
      (fun a ha b hb => hrow a (List.mem_cons_of_mem _ ha) b (List.mem_cons_of_mem _ hb)) (List.pairwise_cons.1 hinc).2
    have h1 := (List.pairwise_cons.1 hinc).1 q (by simp)
    have h2 := alongPos_lt hx hy (hon p (by simp)) (Int.le_of_lt h1)
    have h3 := step_len (g := g) (hrow p (by simp) q (by simp))
    have e : (q :: pts).getLastD p = pts.getLastD q := by cases pts <;> rfl
    rw [e]
    simp only [centreLen, Int.natCast_add]
    omega

theorem wireBox_slab (g : Grid) (horz : Bool) (p q : MIdx) (w : Int) (h : alongIdx (!horz) p = alongIdx (!horz) q) :
    wireBox horz (g.pos p) (g.pos q) w = slab horz (min (g.alongPos horz p) (g.alongPos horz q))
      (max (g.alongPos horz p) (g.alongPos horz q)) (g.alongPos (!horz) p - w / 2) (g.alongPos (!horz) p + w / 2) := by
  unfold wireBox slab Grid.pos Grid.alongPos
  cases horz <;> simp

theorem patchWire_slab (g : Grid) (net : Nat) (n : MIdx) (horz left : Bool) (len w : Int) (hw : 0 ≤ w) :
    (patchWire g net n horz left len w).metal = slab horz
      (if left then g.alongPos horz n - len else g.alongPos horz n)
      (if left then g.alongPos horz n else g.alongPos horz n + len)
      (g.alongPos (!horz) n - w / 2) (g.alongPos (!horz) n + w / 2) := by
  unfold patchWire DPatch.metal Box.moved slab Grid.alongPos
  have : w.tdiv 2 = w / 2 := Int.tdiv_eq_ediv_of_nonneg hw
  simp only [this]
  cases horz <;> cases left <;> simp <;> omega

/-- half extents of a via along and across -/
def viaAlong (horz : Bool) (hx hy : Int) : Int := if horz then hx else hy

theorem viaBox_half (g : Grid) (horz : Bool) (n : MIdx) (hx hy : Int) (h1 : 0 ≤ hx) (h2 : 0 ≤ hy) (c : Int × Int) :
    (InBox (slab horz (g.alongPos horz n) (g.alongPos horz n + viaAlong horz hx hy)
      (g.alongPos (!horz) n - viaAlong (!horz) hx hy) (g.alongPos (!horz) n + viaAlong (!horz) hx hy)) c →
      InBox ((viaBox hx hy).moved (g.pos n)) c) ∧
    (InBox (slab horz (g.alongPos horz n - viaAlong horz hx hy) (g.alongPos horz n)
      (g.alongPos (!horz) n - viaAlong (!horz) hx hy) (g.alongPos (!horz) n + viaAlong (!horz) hx hy)) c →
      InBox ((viaBox hx hy).moved (g.pos n)) c) := by
  unfold InBox slab viaBox Box.moved Grid.pos Grid.alongPos viaAlong
  cases horz <;> simp [Box.left, Box.right, Box.bottom, Box.top] <;> omega

theorem via_half_area (horz : Bool) (hx hy : Int) (h1 : 0 ≤ hx) (h2 : 0 ≤ hy) :
    (viaBox hx hy).width * (viaBox hx hy).length / 2 =
      viaAlong horz hx hy * (2 * viaAlong (!horz) hx hy) := by
  have e : (viaBox hx hy).width * (viaBox hx hy).length = 2 * (2 * (hx * hy)) := by
    unfold viaBox Box.width Box.length
    simp only [Box.left, Box.right, Box.bottom, Box.top]
    rcases Int.le_total hx hy with h | h
    · rw [Int.min_eq_left (by omega), Int.max_eq_right (by omega), show hx - -hx = 2 * hx by omega,
        show hy - -hy = 2 * hy by omega, Int.mul_assoc, ← Int.mul_assoc hx, Int.mul_comm hx 2, Int.mul_assoc]
    · rw [Int.min_eq_right (by omega), Int.max_eq_left (by omega), show hx - -hx = 2 * hx by omega,
        show hy - -hy = 2 * hy by omega, Int.mul_assoc, ← Int.mul_assoc hy, Int.mul_comm hy 2, Int.mul_assoc,
        Int.mul_comm hy hx]
  rw [e, Int.mul_ediv_cancel_left _ (by decide)]
  unfold viaAlong
  cases horz
  · simp only [Bool.false_eq_true, if_false, Bool.not_false, if_true]
    rw [← Int.mul_assoc, ← Int.mul_assoc, Int.mul_comm 2 hx, Int.mul_comm hy 2, Int.mul_comm hx 2, Int.mul_assoc,
      Int.mul_assoc, Int.mul_comm hx hy]
  · simp only [if_true, Bool.not_true, Bool.false_eq_true, if_false]
    rw [← Int.mul_assoc, ← Int.mul_assoc, Int.mul_comm 2 hx]

end TR
