import Verif.Proofs.Util
/-!
C01 (IDs), C02 (`byte_mask_update`), C03 (`align`).
-/
namespace Verif.Props
open Verif Verif.Model Verif.Proofs

/-! ### C01 -/

/-- C01: IDs in the architectural range survive encoding and decoding. -/
theorem C01_id_roundtrip (bus dev fn : Nat) (hb : bus < 256) (hd : dev < 32) (hf : fn < 8) :
    (PcieId.mk bus dev fn).toInt < 65536 ∧
    PcieId.fromInt (PcieId.mk bus dev fn).toInt = PcieId.mk bus dev fn := by
  rw [pcieId_toInt_eq]
  refine ⟨by simp only; omega, ?_⟩
  unfold PcieId.fromInt
  rw [and_255, and_31, and_7, Nat.shiftRight_eq_div_pow, Nat.shiftRight_eq_div_pow]
  simp only [PcieId.mk.injEq]
  refine ⟨?_, ?_, ?_⟩ <;> omega

/-- C01, other direction: decoding then encoding is the identity on 16-bit values,
and the decoded fields are always in range. -/
theorem C01_int_roundtrip (v : Nat) (hv : v < 65536) :
    (PcieId.fromInt v).toInt = v ∧ (PcieId.fromInt v).bus < 256 ∧
    (PcieId.fromInt v).device < 32 ∧ (PcieId.fromInt v).function < 8 := by
  rw [pcieId_toInt_eq]
  unfold PcieId.fromInt
  simp only [and_255, and_31, and_7, Nat.shiftRight_eq_div_pow]
  refine ⟨?_, ?_, ?_, ?_⟩ <;> omega

/-- C01: distinct in-range IDs have distinct encodings. -/
theorem C01_id_injective (a b : PcieId)
    (ha : a.bus < 256 ∧ a.device < 32 ∧ a.function < 8)
    (hb : b.bus < 256 ∧ b.device < 32 ∧ b.function < 8)
    (h : a.toInt = b.toInt) : a = b := by
  have h1 := (C01_id_roundtrip a.bus a.device a.function ha.1 ha.2.1 ha.2.2).2
  have h2 := (C01_id_roundtrip b.bus b.device b.function hb.1 hb.2.1 hb.2.2).2
  have h3 : PcieId.fromInt a.toInt = a := h1
  have h4 : PcieId.fromInt b.toInt = b := h2
  rw [← h3, ← h4, h]

example : (PcieId.mk 0xa5 0x1f 7).toInt = 0xa5ff ∧
    PcieId.fromInt 0xa5ff = PcieId.mk 0xa5 0x1f 7 := by decide

/-! ### C02 -/

/-- C02: bit `i` of the result comes from `new` exactly when its byte lane is selected by
`mask` and the bit is writable (set in `bitmask`, or `bitmask` is the default `-1`);
otherwise it keeps the value it had in `old`. -/
theorem C02_byte_mask_update (old mask new : Nat) (bitmask : BitMask) (i : Nat) :
    (byteMaskUpdate old mask new bitmask).testBit i =
      if mask.testBit (i / 8) = true ∧ (bitmask = none ∨ ∃ m, bitmask = some m ∧ m.testBit i = true)
      then new.testBit i else old.testBit i := by
  unfold byteMaskUpdate
  rw [byteMaskLoop_spec, testBit_applyBitmask]
  cases bitmask with
  | none => simp
  | some m =>
    by_cases h1 : mask.testBit (i / 8) = true <;> by_cases h2 : m.testBit i = true <;>
      simp [h1, h2]

/-- C02, corollary in the form software uses: with all four lanes selected and no bit mask a
32-bit register takes the written value. -/
theorem C02_full_write (old new : Nat) (ho : old < 2 ^ 32) (hn : new < 2 ^ 32) :
    byteMaskUpdate old 0xf new = new := by
  apply Nat.eq_of_testBit_eq
  intro i
  rw [C02_byte_mask_update]
  by_cases hi : i < 32
  · have : (15 : Nat).testBit (i / 8) = true := by
      have h := Nat.testBit_two_pow_sub_one 4 (i / 8)
      have : i / 8 < 4 := by omega
      simpa [this] using h
    simp [this]
  · have h1 : old.testBit i = false :=
      Nat.testBit_lt_two_pow (Nat.lt_of_lt_of_le ho (Nat.pow_le_pow_right (by omega) (by omega)))
    have h2 : new.testBit i = false :=
      Nat.testBit_lt_two_pow (Nat.lt_of_lt_of_le hn (Nat.pow_le_pow_right (by omega) (by omega)))
    simp [h1, h2]

example : byteMaskUpdate 0x11223344 0b0110 0xaabbccdd (some 0x00ff0f00) = 0x11bb3c44 := by
  decide +kernel

/-! ### C03 -/

/-- C03: `align(val, 2^k-1)` is the least multiple of `2^k` that is at least `val`. -/
theorem C03_align_least (val k : Nat) :
    2 ^ k ∣ align val (2 ^ k - 1) ∧ val ≤ align val (2 ^ k - 1) ∧
    ∀ x, 2 ^ k ∣ x → val ≤ x → align val (2 ^ k - 1) ≤ x := by
  unfold align
  rw [and_mod]
  have hp : 0 < 2 ^ k := Nat.two_pow_pos k
  have hlt : val % 2 ^ k < 2 ^ k := Nat.mod_lt _ hp
  have hdm := Nat.div_add_mod val (2 ^ k)
  by_cases h : val % 2 ^ k = 0
  · simp only [h, ne_eq, not_true_eq_false, if_false]
    exact ⟨Nat.dvd_of_mod_eq_zero h, Nat.le_refl _, fun x _ hx => hx⟩
  · simp only [ne_eq, h, not_false_eq_true, if_true]
    have e : val + (2 ^ k - 1) + 1 - val % 2 ^ k = 2 ^ k * (val / 2 ^ k + 1) := by
      rw [Nat.mul_add, Nat.mul_one]; omega
    rw [e]
    refine ⟨Nat.dvd_mul_right _ _, ?_, ?_⟩
    · rw [Nat.mul_add, Nat.mul_one]; omega
    · rintro x ⟨c, rfl⟩ hx
      apply Nat.mul_le_mul_left
      have : val / 2 ^ k < c := by
        apply Nat.div_lt_of_lt_mul
        have hne : val ≠ 2 ^ k * c := by
          intro hc; apply h; rw [hc]; exact Nat.mul_mod_right _ _
        omega
      omega

example : align 0x1234 (2 ^ 8 - 1) = 0x1300 ∧ align 0x1300 (2 ^ 8 - 1) = 0x1300 := by decide

end Verif.Props
