/-! Bit vectors from a function of the bit number. -/
namespace Verif

/-- The `n` bit vector with bit `i` equal to `f i`. -/
def vec : Nat → (Nat → Bool) → Nat
  | 0, _ => 0
  | n + 1, f => vec n f + (f n).toNat * 2 ^ n

theorem vec_lt (n : Nat) (f : Nat → Bool) : vec n f < 2 ^ n := by
  induction n with
  | zero => simp [vec]
  | succ n ih =>
    rw [vec, Nat.pow_succ]
    have := Bool.toNat_le (f n)
    have : (f n).toNat * 2 ^ n ≤ 1 * 2 ^ n := Nat.mul_le_mul_right _ this
    omega

theorem testBit_vec (n : Nat) (f : Nat → Bool) (i : Nat) : (vec n f).testBit i = (decide (i < n) && f i) := by
  induction n with
  | zero => simp [vec]
  | succ n ih =>
    rw [vec, Nat.add_comm, Nat.mul_comm]
    rw [Nat.testBit_two_pow_mul_add _ (vec_lt n f)]
    by_cases h : i < n
    · rw [if_pos h, ih]; simp [h, Nat.lt_succ_of_lt h]
    · rw [if_neg h]
      by_cases he : i = n
      · subst he; cases f i <;> simp
      · have : i - n ≠ 0 := by omega
        obtain ⟨k, hk⟩ : ∃ k, i - n = k + 1 := ⟨i - n - 1, by omega⟩
        rw [hk]
        have : ¬ i < n + 1 := by omega
        cases f n <;> simp [this, Nat.testBit_succ]

end Verif
