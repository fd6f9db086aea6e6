import Verif.Patch.Lemmas
/-! Three slabs that follow each other cover the sum of their areas. -/
namespace TR

/-- a box with extent `[a1, a2]` along the preferred direction and `[c1, c2]` across -/
def slab (horz : Bool) (a1 a2 c1 c2 : Int) : Box :=
  if horz then ⟨⟨a1, c1⟩, ⟨a2, c2⟩⟩ else ⟨⟨c1, a1⟩, ⟨c2, a2⟩⟩

def slabCell (horz : Bool) (a1 c1 : Int) (m k : Nat) : Int × Int :=
  if horz then (a1 + (k / m : Nat), c1 + (k % m : Nat)) else (c1 + (k % m : Nat), a1 + (k / m : Nat))

def slabCells (horz : Bool) (a1 c1 : Int) (n m : Nat) : List (Int × Int) :=
  (List.range (n * m)).map (slabCell horz a1 c1 m)

theorem slabCells_nodup (horz : Bool) (a1 c1 : Int) (n m : Nat) : (slabCells horz a1 c1 n m).Nodup := by
  unfold slabCells List.Nodup
  rw [List.pairwise_map]
  refine List.Pairwise.imp ?_ (List.nodup_range (n := n * m))
  intro i j hij h
  apply hij
  have hd : i / m = j / m ∧ i % m = j % m := by
    unfold slabCell at h
    cases horz
    · simp only [Bool.false_eq_true, if_false, Prod.mk.injEq] at h; omega
    · simp only [if_true, Prod.mk.injEq] at h; omega
  rw [← Nat.div_add_mod i m, ← Nat.div_add_mod j m, hd.1, hd.2]

theorem slabCells_mem {horz : Bool} {a1 c1 : Int} {n m : Nat} {c : Int × Int} (h : c ∈ slabCells horz a1 c1 n m) :
    InBox (slab horz a1 (a1 + n) c1 (c1 + m)) c := by
  unfold slabCells at h
  obtain ⟨k, hk, rfl⟩ := List.mem_map.1 h
  rw [List.mem_range] at hk
  have hm : 0 < m := by
    rcases Nat.eq_zero_or_pos m with rfl | h
    · simp at hk
    · exact h
  have h1 : k / m < n := (Nat.div_lt_iff_lt_mul hm).2 hk
  have h2 := Nat.mod_lt k hm
  unfold InBox slabCell slab
  generalize k / m = u at *
  generalize k % m = v at *
  cases horz
  · simp only [Bool.false_eq_true, if_false, Box.left, Box.right, Box.bottom, Box.top]; omega
  · simp only [if_true, Box.left, Box.right, Box.bottom, Box.top]; omega

/-- coordinate of a unit square along the preferred direction -/
def alongCell (horz : Bool) (c : Int × Int) : Int := if horz then c.1 else c.2

theorem slab_along {horz : Bool} {a1 a2 c1 c2 : Int} {c : Int × Int} (h : InBox (slab horz a1 a2 c1 c2) c) :
    a1 ≤ alongCell horz c ∧ alongCell horz c + 1 ≤ a2 := by
  unfold InBox slab at h
  unfold alongCell
  cases horz
  · simp only [Bool.false_eq_true, if_false, Box.left, Box.right, Box.bottom, Box.top] at h ⊢; omega
  · simp only [if_true, Box.left, Box.right, Box.bottom, Box.top] at h ⊢; omega

theorem covers_three (horz : Bool) (bs : List Box) (a1 a2 a3 a4 c1 d1 c2 d2 c3 d3 : Int)
    (h12 : a1 ≤ a2) (h23 : a2 ≤ a3) (h34 : a3 ≤ a4) (hc1 : c1 ≤ d1) (hc2 : c2 ≤ d2) (hc3 : c3 ≤ d3)
    (i1 : ∀ c, InBox (slab horz a1 a2 c1 d1) c → ∃ b ∈ bs, InBox b c)
    (i2 : ∀ c, InBox (slab horz a2 a3 c2 d2) c → ∃ b ∈ bs, InBox b c)
    (i3 : ∀ c, InBox (slab horz a3 a4 c3 d3) c → ∃ b ∈ bs, InBox b c) :
    CoversAtLeast bs ((a2 - a1) * (d1 - c1) + (a3 - a2) * (d2 - c2) + (a4 - a3) * (d3 - c3)) := by
  obtain ⟨n1, e1⟩ := Int.eq_ofNat_of_zero_le (show 0 ≤ a2 - a1 by omega)
  obtain ⟨n2, e2⟩ := Int.eq_ofNat_of_zero_le (show 0 ≤ a3 - a2 by omega)
  obtain ⟨n3, e3⟩ := Int.eq_ofNat_of_zero_le (show 0 ≤ a4 - a3 by omega)
  obtain ⟨m1, f1⟩ := Int.eq_ofNat_of_zero_le (show 0 ≤ d1 - c1 by omega)
  obtain ⟨m2, f2⟩ := Int.eq_ofNat_of_zero_le (show 0 ≤ d2 - c2 by omega)
  obtain ⟨m3, f3⟩ := Int.eq_ofNat_of_zero_le (show 0 ≤ d3 - c3 by omega)
  have s1 : ∀ c ∈ slabCells horz a1 c1 n1 m1, InBox (slab horz a1 a2 c1 d1) c := fun c hc => by
    have := slabCells_mem hc
    rw [show a1 + (n1 : Int) = a2 by omega, show c1 + (m1 : Int) = d1 by omega] at this; exact this
  have s2 : ∀ c ∈ slabCells horz a2 c2 n2 m2, InBox (slab horz a2 a3 c2 d2) c := fun c hc => by
    have := slabCells_mem hc
    rw [show a2 + (n2 : Int) = a3 by omega, show c2 + (m2 : Int) = d2 by omega] at this; exact this
  have s3 : ∀ c ∈ slabCells horz a3 c3 n3 m3, InBox (slab horz a3 a4 c3 d3) c := fun c hc => by
    have := slabCells_mem hc
    rw [show a3 + (n3 : Int) = a4 by omega, show c3 + (m3 : Int) = d3 by omega] at this; exact this
  refine ⟨slabCells horz a1 c1 n1 m1 ++ (slabCells horz a2 c2 n2 m2 ++ slabCells horz a3 c3 n3 m3), ?_, ?_, ?_⟩
  · rw [List.nodup_append]
    refine ⟨slabCells_nodup .., ?_, ?_⟩
    · rw [List.nodup_append]
      refine ⟨slabCells_nodup .., slabCells_nodup .., ?_⟩
      intro x hx y hy hxy
      have h1 := slab_along (s2 x hx)
      have h2 := slab_along (s3 y hy)
      rw [hxy] at h1; omega
    · intro x hx y hy hxy
      have h1 := slab_along (s1 x hx)
      rw [hxy] at h1
      rcases List.mem_append.1 hy with hy | hy
      · have h2 := slab_along (s2 y hy); omega
      · have h2 := slab_along (s3 y hy); omega
  · rw [e1, e2, e3, f1, f2, f3]
    simp [slabCells, Int.natCast_mul]
    omega
  · intro c hc
    rcases List.mem_append.1 hc with hc | hc
    · exact i1 c (s1 c hc)
    · rcases List.mem_append.1 hc with hc | hc
      · exact i2 c (s2 c hc)
      · exact i3 c (s3 c hc)

theorem covers_mono {bs : List Box} {a a' : Int} (h : CoversAtLeast bs a) (ha : a' ≤ a) : CoversAtLeast bs a' := by
  obtain ⟨cs, h1, h2, h3⟩ := h
  exact ⟨cs, h1, by omega, h3⟩

/-! ### length of a patch -/

theorem marLen_spec (T : PatchTech) (gap w : Int) (hw : 0 < w) (hm : 0 < T.mfg) :
    gap ≤ marLen T gap w * w ∧ (marLen T gap w - T.mfg) * w < gap ∧ T.mfg ∣ marLen T gap w := by
  have hp : 0 < w * T.mfg := Int.mul_pos hw hm
  have h1 := Int.mul_ediv_add_emod (-gap) (w * T.mfg)
  have h2 := Int.emod_nonneg (-gap) (Int.ne_of_gt hp)
  have h3 := Int.emod_lt_of_pos (-gap) hp
  unfold marLen
  generalize (-gap) / (w * T.mfg) = q at *
  generalize (-gap) % (w * T.mfg) = r at *
  have e1 : -q * T.mfg * w = -(w * T.mfg * q) := by
    rw [Int.neg_mul, Int.neg_mul]; congr 1
    rw [Int.mul_assoc, Int.mul_comm, Int.mul_comm T.mfg w]
  have e2 : (-q * T.mfg - T.mfg) * w = -(w * T.mfg * q) - w * T.mfg := by
    rw [Int.sub_mul, e1, Int.mul_comm T.mfg w]
  exact ⟨by omega, by omega, ⟨-q, by rw [Int.mul_comm]⟩⟩

end TR
