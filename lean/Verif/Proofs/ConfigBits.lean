import Verif.Model.PcieCap
import Verif.Spec.Config
import Verif.Proofs.Util
import Verif.Basic.TestBit
/-! Helper lemmas for bit-level reasoning about configuration registers. -/
namespace Verif.Proofs
open Verif Verif.Model Verif.Spec

theorem testBit_flag (b : Bool) (k i : Nat) : (flag b k).testBit i = (b && decide (i = k)) := by
  unfold flag
  cases b
  · simp
  · simp [Nat.one_shiftLeft, Nat.testBit_two_pow, eq_comm]

theorem and_one_shift_ne (x k : Nat) : (x &&& (1 <<< k) ≠ 0) ↔ x.testBit k = true := by
  rw [Nat.one_shiftLeft]
  constructor
  · intro h
    by_cases hb : x.testBit k = true
    · exact hb
    · exfalso
      apply h
      apply Nat.eq_of_testBit_eq
      intro i
      rw [Nat.testBit_and, Nat.testBit_two_pow, Nat.zero_testBit]
      by_cases hk : k = i
      · subst hk; simp at hb; simp [hb]
      · simp [hk]
  · intro h h0
    have := congrArg (fun n => Nat.testBit n k) h0
    simp [Nat.testBit_and, h, Nat.testBit_two_pow_self] at this

theorem bitSet_eq (d k : Nat) : bitSet d k = d.testBit k := by
  unfold bitSet
  have := and_one_shift_ne d k
  cases h : d.testBit k with
  | true => simpa using this.2 h
  | false =>
    rw [h] at this
    simpa using this

theorem mask_1 (m : Nat) : (m &&& 0x1 ≠ 0) = (m.testBit 0 = true) := propext (and_one_shift_ne m 0)
theorem mask_2 (m : Nat) : (m &&& 0x2 ≠ 0) = (m.testBit 1 = true) := propext (and_one_shift_ne m 1)
theorem mask_4 (m : Nat) : (m &&& 0x4 ≠ 0) = (m.testBit 2 = true) := propext (and_one_shift_ne m 2)
theorem mask_8 (m : Nat) : (m &&& 0x8 ≠ 0) = (m.testBit 3 = true) := propext (and_one_shift_ne m 3)

theorem testBit_ite (c : Prop) [Decidable c] (a b i : Nat) :
    (if c then a else b).testBit i = if c then a.testBit i else b.testBit i := by
  split <;> rfl

theorem lt32 {i : Nat} (h : i < 32) : i = 0 ∨ i = 1 ∨ i = 2 ∨ i = 3 ∨ i = 4 ∨ i = 5 ∨ i = 6 ∨ i = 7 ∨
    i = 8 ∨ i = 9 ∨ i = 10 ∨ i = 11 ∨ i = 12 ∨ i = 13 ∨ i = 14 ∨ i = 15 ∨ i = 16 ∨ i = 17 ∨ i = 18 ∨
    i = 19 ∨ i = 20 ∨ i = 21 ∨ i = 22 ∨ i = 23 ∨ i = 24 ∨ i = 25 ∨ i = 26 ∨ i = 27 ∨ i = 28 ∨ i = 29 ∨
    i = 30 ∨ i = 31 := by omega

/-- Split a bit index below 32 into its 32 cases. -/
macro "bits32" h:ident : tactic => `(tactic|
  (rcases lt32 $h with e | e | e | e | e | e | e | e | e | e | e | e | e | e | e | e | e | e | e | e |
    e | e | e | e | e | e | e | e | e | e | e | e <;> subst e))

/-- A field of a register, given bit by bit. -/
theorem field_eq (x y p w : Nat) (h : ∀ i, i < w → x.testBit (p + i) = y.testBit i) :
    x / 2 ^ p % 2 ^ w = y % 2 ^ w := by
  apply Nat.eq_of_testBit_eq
  intro i
  rw [Nat.testBit_mod_two_pow, Nat.testBit_mod_two_pow, Nat.testBit_div_two_pow]
  by_cases hi : i < w
  · rw [Nat.add_comm i p, h i hi]
  · simp [hi]

end Verif.Proofs
