import Verif.Basic.Bits
/-!
Vectors of `w`-bit lanes packed into one integer, and single bits of an integer. No model content.
-/
namespace Verif

/-- `(x >> w*s) & (2**w - 1)`. -/
def getLane (w s x : Nat) : Nat := (x >>> (w * s)) &&& (2 ^ w - 1)

/-- `x & ~((2**w - 1) << w*s) | ((v & (2**w - 1)) << w*s)`. -/
def setLane (w s x v : Nat) : Nat :=
  andNot x ((2 ^ w - 1) <<< (w * s)) ||| ((v &&& (2 ^ w - 1)) <<< (w * s))

/-- `x | 1 << s`. -/
def setBit (x s : Nat) : Nat := x ||| (1 <<< s)

/-- `x & ~(1 << s)`. -/
def clearBit (x s : Nat) : Nat := andNot x (1 <<< s)

@[simp] theorem testBit_setBit (x s i : Nat) : (setBit x s).testBit i = (x.testBit i || decide (s = i)) := by
  unfold setBit
  rw [Nat.testBit_or, Nat.one_shiftLeft, Nat.testBit_two_pow]

@[simp] theorem testBit_clearBit (x s i : Nat) :
    (clearBit x s).testBit i = (x.testBit i && !decide (s = i)) := by
  unfold clearBit
  rw [testBit_andNot, Nat.one_shiftLeft, Nat.testBit_two_pow]

theorem testBit_getLane (w s x i : Nat) :
    (getLane w s x).testBit i = (decide (i < w) && x.testBit (w * s + i)) := by
  unfold getLane
  rw [Nat.testBit_and, Nat.testBit_shiftRight, Nat.testBit_two_pow_sub_one, Bool.and_comm]

theorem testBit_setLane (w s x v j : Nat) : (setLane w s x v).testBit j =
    if w * s ≤ j ∧ j < w * s + w then v.testBit (j - w * s) else x.testBit j := by
  unfold setLane
  rw [Nat.testBit_or, testBit_andNot, Nat.testBit_shiftLeft, Nat.testBit_shiftLeft, Nat.testBit_and,
    Nat.testBit_two_pow_sub_one]
  by_cases h1 : w * s ≤ j
  · by_cases h2 : j < w * s + w
    · simp [h1, h2, show j - w * s < w by omega]
    · simp [h1, h2, show ¬ j - w * s < w by omega]
  · simp [h1]

theorem getLane_setLane (w s x v : Nat) : getLane w s (setLane w s x v) = v % 2 ^ w := by
  apply Nat.eq_of_testBit_eq
  intro i
  rw [testBit_getLane, testBit_setLane, Nat.testBit_mod_two_pow]
  by_cases h : i < w
  · simp [h]
  · simp [h]

theorem getLane_setLane_ne (w s t x v : Nat) (h : s ≠ t) :
    getLane w s (setLane w t x v) = getLane w s x := by
  apply Nat.eq_of_testBit_eq
  intro i
  rw [testBit_getLane, testBit_getLane, testBit_setLane]
  by_cases hi : i < w
  · have : ¬ (w * t ≤ w * s + i ∧ w * s + i < w * t + w) := by
      intro ⟨h1, h2⟩
      rcases Nat.lt_or_gt_of_ne h with hl | hl
      · have := Nat.mul_le_mul_left w (Nat.succ_le_of_lt hl)
        rw [Nat.mul_succ] at this
        omega
      · have := Nat.mul_le_mul_left w (Nat.succ_le_of_lt hl)
        rw [Nat.mul_succ] at this
        omega
    rw [if_neg this]
  · simp [hi]

theorem getLane_lt (w s x : Nat) : getLane w s x < 2 ^ w := by
  unfold getLane
  rw [Nat.and_two_pow_sub_one_eq_mod]
  exact Nat.mod_lt _ (Nat.two_pow_pos w)

end Verif
