import Verif.Model.Util
/-! Helper lemmas for C01 and C02. -/
namespace Verif.Proofs
open Verif Verif.Model

theorem pcieId_toInt_eq (i : PcieId) :
    i.toInt = (i.bus % 256) * 256 + (i.device % 32) * 8 + i.function % 8 := by
  unfold PcieId.toInt
  have hf : (i.function % 8) < 2 ^ 3 := by omega
  have hd : (i.device % 32) <<< 3 ||| i.function % 8 = i.function % 8 + i.device % 32 * 2 ^ 3 :=
    shift_or _ _ 3 hf
  rw [Nat.or_assoc, and_255, and_31, and_7, hd, shift_or _ _ 8 (by omega)]
  omega

theorem testBit_applyBitmask (old new : Nat) (bm : BitMask) (i : Nat) :
    (applyBitmask old new bm).testBit i =
      if (bm.map (·.testBit i)).getD true then new.testBit i else old.testBit i := by
  cases bm with
  | none => simp [applyBitmask]
  | some m =>
    simp only [applyBitmask, Nat.testBit_or, Nat.testBit_and, testBit_andNot, Option.map_some,
      Option.getD_some]
    by_cases h : m.testBit i = true <;> simp [h]

theorem testBit_byte_lane (k i : Nat) :
    (0xff <<< (8 * k)).testBit i = decide (i / 8 = k) := by
  have h := testBit_two_pow_sub_one_shift 8 (8 * k) i
  have e : (2 ^ 8 - 1 : Nat) = 0xff := rfl
  rw [e] at h
  rw [h]
  by_cases hk : i / 8 = k
  · have h1 : 8 * k ≤ i := by omega
    have h2 : i < 8 * k + 8 := by omega
    simp [hk, h1, h2]
  · by_cases h1 : 8 * k ≤ i
    · have h2 : ¬ i < 8 * k + 8 := by omega
      simp [hk, h2]
    · simp [hk, h1]

theorem and_one_shift_ne_zero (m k : Nat) : (m &&& (1 <<< k) ≠ 0) ↔ m.testBit k = true := by
  rw [Nat.one_shiftLeft]
  constructor
  · intro h
    cases hb : m.testBit k with
    | true => rfl
    | false =>
      exfalso; apply h
      apply Nat.eq_of_testBit_eq
      intro i
      rw [Nat.testBit_and, Nat.testBit_two_pow, Nat.zero_testBit]
      by_cases e : k = i
      · subst e; simp [hb]
      · simp [e]
  · intro h h0
    have : (m &&& 2 ^ k).testBit k = false := by rw [h0]; simp
    rw [Nat.testBit_and, Nat.testBit_two_pow, h] at this
    simp at this

theorem testBit_byteMaskStep (mask new k old i : Nat) :
    (byteMaskStep mask new k old).testBit i =
      if i / 8 = k ∧ mask.testBit k = true then new.testBit i else old.testBit i := by
  unfold byteMaskStep
  simp only [and_one_shift_ne_zero]
  by_cases hm : mask.testBit k = true
  · rw [if_pos hm, Nat.testBit_or, Nat.testBit_and, testBit_andNot, testBit_byte_lane]
    by_cases hk : i / 8 = k
    · simp only [hk, hm, decide_true]; simp
    · simp only [hk, decide_false]; simp
  · simp [hm]

theorem byteMaskLoop_spec (mask new k old i : Nat) :
    (byteMaskLoop mask new k old).testBit i =
      if k ≤ i / 8 ∧ mask.testBit (i / 8) = true then new.testBit i else old.testBit i := by
  fun_induction byteMaskLoop mask new k old with
  | case1 k old hle ih =>
    rw [ih, testBit_byteMaskStep]
    by_cases hk : i / 8 = k
    · subst hk
      have : ¬ (i / 8 + 1 ≤ i / 8) := by omega
      simp [this]
    · have h1 : (k + 1 ≤ i / 8) ↔ (k ≤ i / 8) := by omega
      simp only [h1, hk, false_and, if_false]
  | case2 k old hle =>
    have hmask : mask < 2 ^ k := by rw [← Nat.one_shiftLeft]; omega
    by_cases hk : k ≤ i / 8
    · have : mask.testBit (i / 8) = false :=
        Nat.testBit_lt_two_pow (Nat.lt_of_lt_of_le hmask (Nat.pow_le_pow_right (by omega) hk))
      simp [this]
    · simp [hk]

end Verif.Proofs
