import Verif.Maze.Grid
/-! Bit-level helper lemmas for the maze grid. -/
namespace TR

theorem maskLen_getLsbD (l : Nat) (hl : l < 64) (i : Nat) :
    (maskLen l).getLsbD i = decide (i < l) := by
  have hlt : 2 ^ l < 2 ^ 64 := Nat.pow_lt_pow_right (by omega) hl
  have h1 : (1#64 <<< l).toNat = 2 ^ l := by
    simp [BitVec.toNat_shiftLeft, Nat.shiftLeft_eq]
    omega
  have hpos : 0 < 2 ^ l := Nat.pos_of_ne_zero (by simp)
  have h2 : (maskLen l).toNat = 2 ^ l - 1 := by
    simp only [maskLen, BitVec.toNat_sub, h1]
    simp
    omega
  rw [BitVec.getLsbD, h2, Nat.testBit_two_pow_sub_one]

theorem getBits_testBit (w : Word) (p l : Nat) (hl : l < 64) (hp : p + l ≤ 64) (i : Nat) :
    (getBits w p l).testBit i = (decide (i < l) && w.getLsbD (p + i)) := by
  have : (getBits w p l).testBit i = (((w &&& (maskLen l <<< p)) >>> p).getLsbD i) := rfl
  rw [this]
  simp only [BitVec.getLsbD_ushiftRight, BitVec.getLsbD_and, BitVec.getLsbD_shiftLeft,
    maskLen_getLsbD l hl]
  by_cases hi : i < l
  · have h1 : p + i < 64 := by omega
    have h2 : ¬ (p + i < p) := by omega
    have h3 : p + i - p = i := by omega
    simp [hi, h1, h3]
  · have h3 : p + i - p = i := by omega
    simp [hi, h3]

theorem setBits_getLsbD (w : Word) (p l v : Nat) (hl : l < 64) (hp : p + l ≤ 64) (i : Nat) (hi : i < 64) :
    (setBits w p l v).getLsbD i =
      if p ≤ i ∧ i < p + l then v.testBit (i - p) else w.getLsbD i := by
  simp only [setBits, BitVec.getLsbD_or, BitVec.getLsbD_and, BitVec.getLsbD_not,
    BitVec.getLsbD_shiftLeft, maskLen_getLsbD l hl, BitVec.getLsbD_ofNat]
  by_cases h1 : p ≤ i
  · have h1' : ¬ (i < p) := by omega
    by_cases h2 : i < p + l
    · have h3 : i - p < l := by omega
      have h4 : i - p < 64 := by omega
      simp [h1, h1', h2, h3, h4, hi]
    · have h3 : ¬ (i - p < l) := by omega
      simp [h1', h2, h3, hi]
  · have h1' : i < p := by omega
    simp [h1, h1', hi]

theorem getBits_lt (w : Word) (p l : Nat) (hl : l < 64) (hp : p + l ≤ 64) : getBits w p l < 2 ^ l := by
  apply Nat.lt_pow_two_of_testBit
  intro i hi
  rw [getBits_testBit w p l hl hp]
  simp; omega

theorem getBits_setBits_same (w : Word) (p l v : Nat) (hl : l < 64) (hp : p + l ≤ 64) :
    getBits (setBits w p l v) p l = v % 2 ^ l := by
  apply Nat.eq_of_testBit_eq
  intro i
  rw [getBits_testBit _ p l hl hp, Nat.testBit_mod_two_pow]
  by_cases hi : i < l
  · rw [setBits_getLsbD w p l v hl hp _ (by omega)]
    have h1 : p ≤ p + i ∧ p + i < p + l := by omega
    have h2 : p + i - p = i := by omega
    simp [hi]
  · simp [hi]

theorem getBits_setBits_disj (w : Word) (p l v p' l' : Nat) (hl : l < 64) (hp : p + l ≤ 64)
    (hl' : l' < 64) (hp' : p' + l' ≤ 64) (hd : p + l ≤ p' ∨ p' + l' ≤ p) :
    getBits (setBits w p l v) p' l' = getBits w p' l' := by
  apply Nat.eq_of_testBit_eq
  intro i
  rw [getBits_testBit _ p' l' hl' hp', getBits_testBit _ p' l' hl' hp']
  by_cases hi : i < l'
  · rw [setBits_getLsbD w p l v hl hp _ (by omega)]
    have h1 : ¬ (p ≤ p' + i ∧ p' + i < p + l) := by omega
    simp [h1]
  · simp [hi]

theorem one_shl_getLsbD (pos i : Nat) (hi : i < 64) :
    (1#64 <<< pos).getLsbD i = decide (i = pos) := by
  have e : (1#64).getLsbD (i - pos) = decide (i - pos = 0) := by
    simp [BitVec.getLsbD_one]
  simp only [BitVec.getLsbD_shiftLeft, e, hi]
  by_cases h : i < pos
  · have : i ≠ pos := by omega
    simp [h, this]
  · by_cases h2 : i = pos
    · simp [h2]
    · have : i - pos ≠ 0 := by omega
      simp [this, h2]

theorem setBit_eq (w : Word) (pos : Nat) (hp : pos < 64) : setBit w pos = setBits w pos 1 1 := by
  apply BitVec.eq_of_getLsbD_eq
  intro i hi
  rw [setBits_getLsbD w pos 1 1 (by omega) (by omega) i hi]
  simp only [setBit, BitVec.getLsbD_or, one_shl_getLsbD pos i hi]
  by_cases h : i = pos
  · subst h; simp
  · have : ¬ (pos ≤ i ∧ i < pos + 1) := by omega
    simp [h, this]

theorem resetBit_eq (w : Word) (pos : Nat) (hp : pos < 64) : resetBit w pos = setBits w pos 1 0 := by
  apply BitVec.eq_of_getLsbD_eq
  intro i hi
  rw [setBits_getLsbD w pos 1 0 (by omega) (by omega) i hi]
  simp only [resetBit, BitVec.getLsbD_and, BitVec.getLsbD_not, one_shl_getLsbD pos i hi, hi]
  by_cases h : i = pos
  · subst h; simp
  · have : ¬ (pos ≤ i ∧ i < pos + 1) := by omega
    simp [h, this]

theorem getBit_eq (w : Word) (pos : Nat) (hp : pos < 64) : getBit w pos = (getBits w pos 1 != 0) := by
  have h1 : getBit w pos = w.getLsbD pos := by
    have e : (w >>> pos) &&& 1#64 = if w.getLsbD pos then 1#64 else 0#64 := by
      apply BitVec.eq_of_getLsbD_eq
      intro i hi
      simp only [BitVec.getLsbD_and, BitVec.getLsbD_ushiftRight, BitVec.getLsbD_one]
      by_cases h0 : i = 0
      · subst h0; cases hw : w.getLsbD pos <;> simp [hw]
      · have : ¬ (i = 0) := h0
        cases hw : w.getLsbD pos <;> simp [h0]
    simp only [getBit, e]
    cases hw : w.getLsbD pos <;> simp
  have hb := getBits_testBit w pos 1 (by omega) (by omega) 0
  simp only [Nat.add_zero] at hb
  have hlt := getBits_lt w pos 1 (by omega) (by omega)
  rw [h1]
  have : getBits w pos 1 = 0 ∨ getBits w pos 1 = 1 := by omega
  rcases this with h | h <;> rw [h] at hb ⊢ <;> simp at hb ⊢ <;> simp [hb]

theorem addToBits_val (w : Word) (p l v : Nat) (hl : l < 64) (hp : p + l ≤ 64) :
    getBits (addToBits w p l v) p l =
      (if getBits w p l + v > 2 ^ l then 2 ^ l else getBits w p l + v) % 2 ^ l := by
  simp only [addToBits]
  rw [getBits_setBits_same _ _ _ _ hl hp]

theorem subToBits_val (w : Word) (p l v : Nat) (hl : l < 64) (hp : p + l ≤ 64) :
    getBits (subToBits w p l v) p l = getBits w p l - v := by
  simp only [subToBits]
  rw [getBits_setBits_same _ _ _ _ hl hp]
  have := getBits_lt w p l hl hp
  have e : (if (getBits w p l : Int) - (v : Int) < 0 then (0 : Int) else (getBits w p l : Int) - v).toNat
      = getBits w p l - v := by
    split <;> omega
  rw [e]
  exact Nat.mod_eq_of_lt (by omega)

/-! ### node positions -/

theorem isValid_iff (g : Grid) (n : MIdx) : g.isValid n = true ↔
    0 ≤ n.x ∧ n.x < g.X ∧ 0 ≤ n.y ∧ n.y < g.Y ∧ 0 ≤ n.z ∧ n.z < g.Z := by
  simp [Grid.isValid]; omega

/-- mixed-radix digits are unique -/
theorem radix_inj {X Y a b c a' b' c' : Int} (ha : 0 ≤ a) (ha1 : a < X) (hb : 0 ≤ b) (hb1 : b < Y)
    (ha' : 0 ≤ a') (ha1' : a' < X) (hb' : 0 ≤ b') (hb1' : b' < Y)
    (h : a + b * X + c * X * Y = a' + b' * X + c' * X * Y) : a = a' ∧ b = b' ∧ c = c' := by
  have e : ∀ a b c : Int, a + b * X + c * X * Y = a + X * (b + Y * c) := by
    intro a b c
    rw [Int.mul_add, Int.mul_comm b X, Int.add_assoc, Int.mul_comm c X, Int.mul_assoc, Int.mul_comm c Y]
  rw [e, e] at h
  have q : ∀ a k : Int, 0 ≤ a → a < X → (a + X * k) % X = a ∧ (a + X * k) / X = k := by
    intro a k h0 h1
    constructor
    · rw [Int.add_mul_emod_self_left, Int.emod_eq_of_lt h0 h1]
    · rw [Int.add_mul_ediv_left _ _ (by omega), Int.ediv_eq_zero_of_lt h0 h1]; omega
  have h1 := (q a (b + Y * c) ha ha1).1
  have h2 := (q a' (b' + Y * c') ha' ha1').1
  have h3 := (q a (b + Y * c) ha ha1).2
  have h4 := (q a' (b' + Y * c') ha' ha1').2
  rw [h] at h1 h3
  have haa : a = a' := by omega
  have hbb : b + Y * c = b' + Y * c' := by omega
  have q2 : ∀ b k : Int, 0 ≤ b → b < Y → (b + Y * k) % Y = b ∧ (b + Y * k) / Y = k := by
    intro b k h0 h1
    constructor
    · rw [Int.add_mul_emod_self_left, Int.emod_eq_of_lt h0 h1]
    · rw [Int.add_mul_ediv_left _ _ (by omega), Int.ediv_eq_zero_of_lt h0 h1]; omega
  have h5 := q2 b c hb hb1
  have h6 := q2 b' c' hb' hb1'
  rw [hbb] at h5
  exact ⟨haa, by omega, by omega⟩

/-- layer-local part of the position -/
theorem plane_bounds {X Y a b : Int} (ha : 0 ≤ a) (ha1 : a < X) (hb : 0 ≤ b) (hb1 : b < Y) :
    0 ≤ a + b * X ∧ a + b * X < X * Y := by
  have h1 : 0 ≤ b * X := Int.mul_nonneg hb (by omega)
  have h2 : (b + 1) * X ≤ Y * X := Int.mul_le_mul_of_nonneg_right (by omega) (by omega)
  rw [Int.add_mul, Int.mul_comm Y X] at h2
  omega

theorem idx_plane (g : Grid) (n : MIdx) (h : g.isValid n = true) :
    ∃ r, 0 ≤ r ∧ r < g.X * g.Y ∧ g.idx n = r + n.z * (g.X * g.Y) := by
  rw [isValid_iff] at h
  obtain ⟨hx, hx1, hy, hy1, hz, hz1⟩ := h
  simp only [Grid.idx]
  split
  · have := plane_bounds hx hx1 hy hy1
    exact ⟨n.x + n.y * g.X, this.1, this.2, by rw [Int.mul_assoc]⟩
  · have := plane_bounds hy hy1 hx hx1
    rw [Int.mul_comm g.Y g.X] at this
    exact ⟨n.y + n.x * g.Y, this.1, this.2, by rw [Int.mul_assoc]⟩

theorem idx_inj (g : Grid) {n m : MIdx} (hn : g.isValid n = true) (hm : g.isValid m = true)
    (h : g.idx n = g.idx m) : n = m := by
  obtain ⟨r, r0, r1, hr⟩ := idx_plane g n hn
  obtain ⟨s, s0, s1, hs⟩ := idx_plane g m hm
  have hz : n.z = m.z := by
    rw [hr, hs] at h
    have q : ∀ a k : Int, 0 ≤ a → a < g.X * g.Y → (a + k * (g.X * g.Y)) / (g.X * g.Y) = k := by
      intro a k h0 h1
      rw [Int.add_mul_ediv_right _ _ (by omega), Int.ediv_eq_zero_of_lt h0 h1]; omega
    have h1 := q r n.z r0 r1
    have h2 := q s m.z s0 s1
    rw [h] at h1; omega
  rw [isValid_iff] at hn hm
  obtain ⟨hx, hx1, hy, hy1, _, _⟩ := hn
  obtain ⟨hx', hx1', hy', hy1', _, _⟩ := hm
  simp only [Grid.idx, hz] at h
  cases n; cases m
  simp only at *
  subst hz
  split at h
  · obtain ⟨a, b, _⟩ := radix_inj hx hx1 hy hy1 hx' hx1' hy' hy1' h
    subst a; subst b; rfl
  · have h' : ∀ a b c : Int, a + b * g.Y + c * g.X * g.Y = a + b * g.Y + c * g.Y * g.X := by
      intro a b c; rw [Int.mul_assoc, Int.mul_comm g.X g.Y, ← Int.mul_assoc]
    rw [h', h'] at h
    obtain ⟨a, b, _⟩ := radix_inj hy hy1 hx hx1 hy' hy1' hx' hx1' h
    subst a; subst b; rfl

theorem idx_range (g : Grid) {n : MIdx} (hn : g.isValid n = true) :
    0 ≤ g.idx n ∧ g.idx n < g.X * g.Y * g.Z := by
  obtain ⟨r, r0, r1, hr⟩ := idx_plane g n hn
  rw [isValid_iff] at hn
  obtain ⟨_, _, _, _, hz, hz1⟩ := hn
  have h1 : 0 ≤ n.z * (g.X * g.Y) := Int.mul_nonneg hz (by omega)
  have h2 : (n.z + 1) * (g.X * g.Y) ≤ g.Z * (g.X * g.Y) :=
    Int.mul_le_mul_of_nonneg_right (by omega) (by omega)
  rw [Int.add_mul] at h2
  rw [hr, Int.mul_comm (g.X * g.Y) g.Z]
  omega

end TR
