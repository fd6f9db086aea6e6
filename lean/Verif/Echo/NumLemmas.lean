import Verif.Echo.Num

namespace TR

theorem ehUnitAux_spec (f n u : Nat) (hu : ∃ k, u = 10 ^ k) (hlow : u = 1 ∨ 100000 * u ≤ n) (hf : n < u * 10 ^ f) :
    (∃ k, ehUnitAux f n u = 10 ^ k) ∧ n < 1000000 * ehUnitAux f n u ∧
      (ehUnitAux f n u = 1 ∨ 100000 * ehUnitAux f n u ≤ n) := by
  induction f generalizing u with
  | zero =>
      simp only [ehUnitAux]
      simp only [Nat.pow_zero, Nat.mul_one] at hf
      exact ⟨hu, by omega, hlow⟩
  | succ f ih =>
      simp only [ehUnitAux]
      split
      · next h => exact ⟨hu, h, hlow⟩
      · next h =>
        obtain ⟨k, rfl⟩ := hu
        refine ih (10 * 10 ^ k) ⟨k + 1, by rw [Nat.pow_succ]; omega⟩ (Or.inr (by omega)) ?_
        rw [Nat.pow_succ] at hf
        calc n < 10 ^ k * (10 ^ f * 10) := hf
          _ = 10 * 10 ^ k * 10 ^ f := by rw [Nat.mul_comm (10 ^ f) 10, ← Nat.mul_assoc, Nat.mul_comm (10 ^ k) 10]

theorem lt_ten_pow (n : Nat) : n < 10 ^ n := by
  induction n with
  | zero => simp
  | succ n ih => rw [Nat.pow_succ]; omega

theorem ehUnit_spec (n : Nat) :
    (∃ k, ehUnit n = 10 ^ k) ∧ n < 1000000 * ehUnit n ∧ (ehUnit n = 1 ∨ 100000 * ehUnit n ≤ n) :=
  ehUnitAux_spec n n 1 ⟨0, rfl⟩ (Or.inl rfl) (by have := lt_ten_pow n; omega)

theorem ehUnit_pos (n : Nat) : 0 < ehUnit n := by
  obtain ⟨⟨k, h⟩, _⟩ := ehUnit_spec n
  rw [h]; exact Nat.pow_pos (by omega)

theorem ehDigits_cases (n u : Nat) :
    (ehDigits n u = n / u ∧ 2 * (n % u) ≤ u) ∨ (ehDigits n u = n / u + 1 ∧ u ≤ 2 * (n % u)) := by
  unfold ehDigits
  split
  · left; exact ⟨rfl, by omega⟩
  · split
    · right; exact ⟨rfl, by omega⟩
    · split
      · left; exact ⟨rfl, by omega⟩
      · right; exact ⟨rfl, by omega⟩

theorem ehGNat_near (n : Nat) :
    2 * (ehGNat n - n) ≤ ehUnit n ∧ 2 * (n - ehGNat n) ≤ ehUnit n := by
  have hd := Nat.div_add_mod n (ehUnit n)
  have hm := Nat.mod_lt n (ehUnit_pos n)
  unfold ehGNat
  generalize ehUnit n = u at *
  rcases ehDigits_cases n u with ⟨h, h2⟩ | ⟨h, h2⟩
  · rw [h, Nat.mul_comm (n / u)]; omega
  · rw [h, Nat.add_mul, Nat.mul_comm (n / u)]; omega

theorem ehGNat_eq_iff (n : Nat) : ehGNat n = n ↔ ehUnit n ∣ n := by
  have hp := ehUnit_pos n
  constructor
  · intro h
    exact ⟨ehDigits n (ehUnit n), by rw [Nat.mul_comm]; exact h.symm⟩
  · intro h
    have hm : n % ehUnit n = 0 := Nat.mod_eq_zero_of_dvd h
    unfold ehGNat ehDigits
    rw [hm, if_pos (by omega)]
    exact Nat.div_mul_cancel h

theorem ehGNat_small {n : Nat} (h : n < 1000000) : ehGNat n = n := by
  rw [ehGNat_eq_iff]
  have hu : ehUnit n = 1 := by
    rcases (ehUnit_spec n).2.2 with h1 | h1
    · exact h1
    · obtain ⟨⟨k, hk⟩, _⟩ := ehUnit_spec n
      cases k with
      | zero => simpa using hk
      | succ k =>
          have : 0 < 10 ^ k := Nat.pow_pos (by omega)
          rw [Nat.pow_succ] at hk
          omega
  rw [hu]; exact Nat.one_dvd n

theorem ehG_natAbs (n : Int) : ehG n = n ↔ ehGNat n.natAbs = n.natAbs := by
  unfold ehG; split <;> omega

theorem ehG_small {n : Int} (h : n.natAbs < 1000000) : ehG n = n := (ehG_natAbs n).2 (ehGNat_small h)

/-- twice rounded is once rounded -/
theorem ehGNat_idem (n : Nat) : ehGNat (ehGNat n) = ehGNat n := by
  rw [ehGNat_eq_iff]
  obtain ⟨⟨k, hk⟩, hlt, hlow⟩ := ehUnit_spec n
  obtain ⟨⟨j, hj⟩, hlt2, hlow2⟩ := ehUnit_spec (ehGNat n)
  have hq : ehGNat n = ehDigits n (ehUnit n) * ehUnit n := rfl
  have hp := ehUnit_pos n
  have hdle : ehDigits n (ehUnit n) ≤ 1000000 := by
    have : n / ehUnit n < 1000000 := (Nat.div_lt_iff_lt_mul hp).2 hlt
    rcases ehDigits_cases n (ehUnit n) with ⟨h, _⟩ | ⟨h, _⟩ <;> omega
  by_cases hd : ehDigits n (ehUnit n) = 1000000
  · -- 10^(k+6): its unit is a smaller or equal power of ten
    rw [hd, hk] at hq
    have h6 : ehGNat n = 10 ^ (k + 6) := by rw [hq, Nat.pow_add, Nat.mul_comm]
    rw [hj, h6]
    have : j ≤ k + 6 := by
      rcases hlow2 with h | h
      · rw [hj] at h
        cases j with
        | zero => omega
        | succ j => have : 0 < 10 ^ j := Nat.pow_pos (by omega)
                    rw [Nat.pow_succ] at h; omega
      · rw [hj, h6] at h
        have : 10 ^ j ≤ 10 ^ (k + 6) := by omega
        exact (Nat.pow_le_pow_iff_right (by omega)).1 this
    exact Nat.pow_dvd_pow 10 this
  · have hlt3 : ehGNat n < 1000000 * 10 ^ k := by
      rw [hq, hk] at *
      exact Nat.mul_lt_mul_of_pos_right (by omega) (by omega)
    have hjk : j ≤ k := by
      rcases hlow2 with h | h
      · rw [hj] at h
        cases j with
        | zero => omega
        | succ j => have : 0 < 10 ^ j := Nat.pow_pos (by omega)
                    rw [Nat.pow_succ] at h; omega
      · rw [hj] at h
        apply Classical.byContradiction
        intro hc
        obtain ⟨d, rfl⟩ : ∃ d, j = k + 1 + d := ⟨j - (k + 1), by omega⟩
        have h1 : 10 ^ (k + 1) ≤ 10 ^ (k + 1 + d) := Nat.pow_le_pow_right (by omega) (by omega)
        rw [Nat.pow_succ 10 k] at h1
        omega
    rw [hj]
    exact Nat.dvd_trans (Nat.pow_dvd_pow 10 hjk) ⟨ehDigits n (ehUnit n), by rw [hq, hk, Nat.mul_comm]⟩

theorem ehG_idem (n : Int) : ehG (ehG n) = ehG n := by
  rw [ehG_natAbs]
  have : (ehG n).natAbs = ehGNat n.natAbs := by unfold ehG; split <;> omega
  rw [this]; exact ehGNat_idem _

end TR
