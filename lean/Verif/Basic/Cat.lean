import Verif.Basic.Bits
/-!
Concatenation of bit fields, low field first, and the simp set that extracts fields from it.
No model content.
-/
namespace Verif

/-- `a` in the low `w` bits, `y` above. -/
def cat (a w y : Nat) : Nat := a + y * 2 ^ w

theorem cat_shr (a w y s : Nat) (h : a < 2 ^ w) (hs : w ≤ s) : cat a w y >>> s = y >>> (s - w) := by
  have e : s = w + (s - w) := by omega
  rw [e, Nat.shiftRight_add, Nat.add_sub_cancel_left]
  congr 1
  rw [cat, Nat.shiftRight_eq_div_pow, Nat.add_mul_div_right _ _ (Nat.two_pow_pos w),
    Nat.div_eq_of_lt h, Nat.zero_add]

theorem cat_mod (a w y : Nat) (h : a < 2 ^ w) : cat a w y % 2 ^ w = a := by
  rw [cat, Nat.add_mul_mod_self_right, Nat.mod_eq_of_lt h]

theorem cat_modn (a w y m : Nat) (hm : m = 2 ^ w) (h : a < 2 ^ w) : cat a w y % m = a := by
  rw [hm, cat_mod _ _ _ h]

theorem cat_mod_split (a w y k : Nat) (h : a < 2 ^ w) (hk : w ≤ k) :
    cat a w y % 2 ^ k = cat a w (y % 2 ^ (k - w)) := by
  have e : k = w + (k - w) := by omega
  rw [e, Nat.pow_add, Nat.add_sub_cancel_left, Nat.mod_mul, cat_mod _ _ _ h, cat, cat,
    Nat.add_mul_div_right _ _ (Nat.two_pow_pos w), Nat.div_eq_of_lt h, Nat.zero_add, Nat.mul_comm]

theorem cat_lt (a w y k : Nat) (h : a < 2 ^ w) (hk : w ≤ k) (hy : y < 2 ^ (k - w)) :
    cat a w y < 2 ^ k := by
  have e : k = w + (k - w) := by omega
  rw [e, Nat.pow_add, cat]
  have := Nat.mul_le_mul_right (2 ^ w) (Nat.succ_le_of_lt hy)
  rw [Nat.succ_mul] at this
  rw [Nat.mul_comm (2 ^ w)]
  omega

/-- `a | b << k` with `a` below bit `k`. -/
theorem or_shift_cat (a b k : Nat) (h : a < 2 ^ k) : a ||| (b <<< k) = cat a k b := or_shift a b k h

end Verif
