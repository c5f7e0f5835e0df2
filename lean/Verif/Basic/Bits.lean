/-!
Arithmetic facts about bit operations on `Nat`, used to turn field packing
(`&`, `|`, `<<`, `>>`) into linear arithmetic. No model content.
-/
namespace Verif

/-- `x & ~m` for non-negative Python integers: clear in `x` the bits set in `m`. -/
def andNot (x m : Nat) : Nat := x ^^^ (x &&& m)

@[simp] theorem testBit_andNot (x m i : Nat) :
    (andNot x m).testBit i = (x.testBit i && !m.testBit i) := by
  unfold andNot
  rw [Nat.testBit_xor, Nat.testBit_and]
  cases x.testBit i <;> cases m.testBit i <;> rfl

theorem and_mod (x k : Nat) : x &&& (2 ^ k - 1) = x % 2 ^ k :=
  Nat.and_two_pow_sub_one_eq_mod x k

theorem and_1 (x : Nat) : x &&& 1 = x % 2 := and_mod x 1
theorem and_3 (x : Nat) : x &&& 3 = x % 4 := and_mod x 2
theorem and_7 (x : Nat) : x &&& 7 = x % 8 := and_mod x 3
theorem and_15 (x : Nat) : x &&& 15 = x % 16 := and_mod x 4
theorem and_31 (x : Nat) : x &&& 31 = x % 32 := and_mod x 5
theorem and_63 (x : Nat) : x &&& 63 = x % 64 := and_mod x 6
theorem and_127 (x : Nat) : x &&& 127 = x % 128 := and_mod x 7
theorem and_255 (x : Nat) : x &&& 255 = x % 256 := and_mod x 8
theorem and_1023 (x : Nat) : x &&& 1023 = x % 1024 := and_mod x 10
theorem and_2047 (x : Nat) : x &&& 2047 = x % 2048 := and_mod x 11
theorem and_4095 (x : Nat) : x &&& 4095 = x % 4096 := and_mod x 12
theorem and_8191 (x : Nat) : x &&& 8191 = x % 8192 := and_mod x 13
theorem and_65535 (x : Nat) : x &&& 65535 = x % 65536 := and_mod x 16
theorem and_ffffffff (x : Nat) : x &&& 4294967295 = x % 4294967296 := and_mod x 32

theorem testBit_two_pow_sub_one_shift (n k i : Nat) :
    ((2 ^ n - 1) <<< k).testBit i = (decide (k ≤ i) && decide (i < k + n)) := by
  rw [Nat.testBit_shiftLeft, Nat.testBit_two_pow_sub_one]
  by_cases h : k ≤ i
  · by_cases h2 : i < k + n
    · have h3 : i - k < n := by omega
      simp [h, h2, h3]
    · have h3 : ¬ i - k < n := by omega
      simp [h, h2, h3]
  · simp [h]

/-- `x & (((1 << n) - 1) << k)`: keep the `n`-bit field at position `k`. -/
theorem and_field (x n k : Nat) :
    x &&& ((2 ^ n - 1) <<< k) = x / 2 ^ k % 2 ^ n * 2 ^ k := by
  apply Nat.eq_of_testBit_eq
  intro i
  rw [Nat.testBit_and, testBit_two_pow_sub_one_shift, ← Nat.shiftRight_eq_div_pow,
    ← Nat.shiftLeft_eq, Nat.testBit_shiftLeft, Nat.testBit_mod_two_pow, Nat.testBit_shiftRight]
  by_cases h : k ≤ i
  · have e : k + (i - k) = i := by omega
    rw [e]
    by_cases h2 : i < k + n
    · have h3 : i - k < n := by omega
      simp [h, h2, h3]
    · have h3 : ¬ i - k < n := by omega
      simp [h, h2, h3]
  · simp [h]

theorem and_4 (x : Nat) : x &&& 4 = x / 4 % 2 * 4 := and_field x 1 2
theorem and_fffffffc (x : Nat) : x &&& 4294967292 = x / 4 % 1073741824 * 4 := and_field x 30 2
theorem and_7c (x : Nat) : x &&& 124 = x / 4 % 32 * 4 := and_field x 5 2

/-- `a | (b << k)` is addition when `a` is below bit `k`. -/
theorem or_shift (a b k : Nat) (h : a < 2 ^ k) : a ||| (b <<< k) = a + b * 2 ^ k := by
  rw [Nat.or_comm, ← Nat.shiftLeft_add_eq_or_of_lt h, Nat.shiftLeft_eq]
  omega

theorem shift_or (a b k : Nat) (h : a < 2 ^ k) : (b <<< k) ||| a = a + b * 2 ^ k := by
  rw [Nat.or_comm, or_shift a b k h]

/-- `addr & ~3`. -/
theorem andNot_3 (x : Nat) : andNot x 3 = x / 4 * 4 := by
  apply Nat.eq_of_testBit_eq
  intro i
  have h3 : (3 : Nat).testBit i = decide (i < 2) := by
    have := Nat.testBit_two_pow_sub_one 2 i
    simpa using this
  have e : x / 4 * 4 = (x >>> 2) <<< 2 := by rw [Nat.shiftLeft_eq, Nat.shiftRight_eq_div_pow]
  rw [testBit_andNot, e, Nat.testBit_shiftLeft, Nat.testBit_shiftRight, h3]
  by_cases h : i < 2
  · have h2 : ¬ (2 ≤ i) := by omega
    simp [h, h2]
  · have h2 : 2 ≤ i := by omega
    have h4 : 2 + (i - 2) = i := by omega
    simp [h, h2, h4]

theorem andNot_mask (x k : Nat) : andNot x (2 ^ k - 1) = x / 2 ^ k * 2 ^ k := by
  apply Nat.eq_of_testBit_eq
  intro i
  have e : x / 2 ^ k * 2 ^ k = (x >>> k) <<< k := by
    rw [Nat.shiftLeft_eq, Nat.shiftRight_eq_div_pow]
  rw [testBit_andNot, e, Nat.testBit_shiftLeft, Nat.testBit_shiftRight, Nat.testBit_two_pow_sub_one]
  by_cases h : i < k
  · have h2 : ¬ (k ≤ i) := by omega
    simp [h, h2]
  · have h2 : k ≤ i := by omega
    have h4 : k + (i - k) = i := by omega
    simp [h, h2, h4]

end Verif
