import Verif.Spec.Us
import Verif.Basic.TestBit
/-! Helper lemmas for byte parity. -/
namespace Verif.Proofs
open Verif Verif.Model Verif.Spec

theorem and_two_pow_ite (d n : Nat) : d &&& 2 ^ n = if d.testBit n then 2 ^ n else 0 := by
  apply Nat.eq_of_testBit_eq
  intro i
  rw [Nat.testBit_and, Nat.testBit_two_pow]
  by_cases h : n = i
  · subst h; cases h' : d.testBit n <;> simp [Nat.testBit_two_pow]
  · cases h' : d.testBit n <;> simp [h, Nat.testBit_two_pow]

theorem fold_testBit (d k : Nat) : (parityFold d).testBit (8 * k) = byteParity d k := by
  unfold parityFold byteParity
  simp only [Nat.testBit_xor, Nat.testBit_shiftRight, show List.range 8 = [0,1,2,3,4,5,6,7] from rfl,
    List.foldl_cons, List.foldl_nil, Nat.add_zero, Bool.false_xor]
  rw [show 4 + 8 * k = 8 * k + 4 by omega, show 2 + 8 * k = 8 * k + 2 by omega,
    show 1 + 8 * k = 8 * k + 1 by omega,
    show 4 + (8 * k + 2) = 8 * k + 6 by omega, show 4 + (8 * k + 1) = 8 * k + 5 by omega,
    show 2 + (8 * k + 1) = 8 * k + 3 by omega, show 4 + (8 * k + 3) = 8 * k + 7 by omega]
  generalize d.testBit (8 * k) = b0
  generalize d.testBit (8 * k + 1) = b1
  generalize d.testBit (8 * k + 2) = b2
  generalize d.testBit (8 * k + 3) = b3
  generalize d.testBit (8 * k + 4) = b4
  generalize d.testBit (8 * k + 5) = b5
  generalize d.testBit (8 * k + 6) = b6
  generalize d.testBit (8 * k + 7) = b7
  revert b0 b1 b2 b3 b4 b5 b6 b7
  decide

theorem dwordParity_eq (d : Nat) : dwordParity d =
    (byteParity d 0).toNat + 2 * (byteParity d 1).toNat + 4 * (byteParity d 2).toNat +
      8 * (byteParity d 3).toNat := by
  unfold dwordParity
  have h0 := and_two_pow_ite (parityFold d) 0
  have h1 := and_two_pow_ite (parityFold d) 8
  have h2 := and_two_pow_ite (parityFold d) 16
  have h3 := and_two_pow_ite (parityFold d) 24
  simp only [Nat.reducePow] at h0 h1 h2 h3
  simp only [h0, h1, h2, h3, ← fold_testBit]
  cases (parityFold d).testBit 0 <;> cases (parityFold d).testBit 8 <;>
    cases (parityFold d).testBit 16 <;> cases (parityFold d).testBit 24 <;> rfl

theorem dwordParityIf_eq (d : Nat) : dwordParityIf d = dwordParity d := by
  unfold dwordParityIf dwordParity
  have h0 := and_two_pow_ite (parityFold d) 0
  have h1 := and_two_pow_ite (parityFold d) 8
  have h2 := and_two_pow_ite (parityFold d) 16
  have h3 := and_two_pow_ite (parityFold d) 24
  simp only [Nat.reducePow] at h0 h1 h2 h3
  simp only [h0, h1, h2, h3]
  cases (parityFold d).testBit 0 <;> cases (parityFold d).testBit 8 <;>
    cases (parityFold d).testBit 16 <;> cases (parityFold d).testBit 24 <;> rfl

theorem four_bits (b0 b1 b2 b3 : Bool) (k : Nat) :
    (b0.toNat + 2 * b1.toNat + 4 * b2.toNat + 8 * b3.toNat).testBit k =
      match k with | 0 => b0 | 1 => b1 | 2 => b2 | 3 => b3 | _ => false := by
  match k with
  | 0 => revert b0 b1 b2 b3; decide
  | 1 => revert b0 b1 b2 b3; decide
  | 2 => revert b0 b1 b2 b3; decide
  | 3 => revert b0 b1 b2 b3; decide
  | k + 4 =>
    apply Nat.testBit_lt_two_pow
    have h := b0.toNat_le; have h := b1.toNat_le; have h := b2.toNat_le; have h := b3.toNat_le
    have : 2 ^ 4 ≤ 2 ^ (k + 4) := Nat.pow_le_pow_right (by omega) (by omega)
    omega

theorem dwordParity_testBit (d k : Nat) :
    (dwordParity d).testBit k = (decide (k < 4) && byteParity d k) := by
  rw [dwordParity_eq, four_bits]
  match k with
  | 0 => simp
  | 1 => simp
  | 2 => simp
  | 3 => simp
  | k + 4 => simp [show ¬ k + 4 < 4 by omega]

theorem parityLoop_testBit (d k p j : Nat) : (parityLoop d k p).testBit j =
    (p.testBit j || (decide (k ≤ j) && d.testBit (8 * (j - k)))) := by
  fun_induction parityLoop d k p with
  | case1 k p => simp
  | case2 d k p h ih =>
    simp only [dite_eq_ite] at ih
    rw [ih]
    have h0 := and_two_pow_ite d 0
    simp only [Nat.reducePow] at h0
    rw [h0, Nat.testBit_shiftRight]
    have e : (if (if d.testBit 0 = true then 1 else 0) ≠ 0 then p ||| 1 <<< k else p).testBit j =
        (p.testBit j || (d.testBit 0 && decide (k = j))) := by
      cases d.testBit 0 <;> simp [Nat.testBit_two_pow, Nat.shiftLeft_eq]
    rw [e]
    by_cases hk : k + 1 ≤ j
    · rw [show 8 + 8 * (j - (k + 1)) = 8 * (j - k) by omega]
      simp [hk, show k ≤ j by omega, show ¬ k = j by omega]
    · by_cases hj : k = j
      · subst hj; simp [hk]
      · simp [hk, hj, show ¬ k ≤ j by omega]

theorem parityIf_testBit (d k : Nat) : (parityIf d).testBit k = byteParity d k := by
  unfold parityIf
  rw [parityLoop_testBit]
  simp [fold_testBit]

theorem byteParity_flip (d j k : Nat) :
    byteParity (d ^^^ 2 ^ j) k = Bool.xor (byteParity d k) (decide (j / 8 = k)) := by
  unfold byteParity
  simp only [Nat.testBit_xor, show List.range 8 = [0,1,2,3,4,5,6,7] from rfl,
    List.foldl_cons, List.foldl_nil, Bool.false_xor, Nat.testBit_two_pow]
  generalize d.testBit (8 * k + 0) = b0
  generalize d.testBit (8 * k + 1) = b1
  generalize d.testBit (8 * k + 2) = b2
  generalize d.testBit (8 * k + 3) = b3
  generalize d.testBit (8 * k + 4) = b4
  generalize d.testBit (8 * k + 5) = b5
  generalize d.testBit (8 * k + 6) = b6
  generalize d.testBit (8 * k + 7) = b7
  by_cases h : j / 8 = k
  · have hr : j = 8 * k + j % 8 := by omega
    have hr8 : j % 8 < 8 := by omega
    rw [decide_eq_true h]
    generalize j % 8 = r at hr hr8
    subst hr
    simp only [Nat.add_right_inj, Nat.add_left_cancel_iff]
    revert b0 b1 b2 b3 b4 b5 b6 b7
    clear h
    revert r
    decide +kernel
  · simp only [show ¬ j = 8 * k + 0 by omega, show ¬ j = 8 * k + 1 by omega,
      show ¬ j = 8 * k + 2 by omega, show ¬ j = 8 * k + 3 by omega, show ¬ j = 8 * k + 4 by omega,
      show ¬ j = 8 * k + 5 by omega, show ¬ j = 8 * k + 6 by omega, show ¬ j = 8 * k + 7 by omega,
      h, decide_false, Bool.xor_false]

theorem dwordParity_flip {x y : Nat} (h : BitFlip 32 x y) : dwordParity y ≠ dwordParity x := by
  obtain ⟨j, hj, rfl⟩ := h
  intro e
  have := congrArg (Nat.testBit · (j / 8)) e
  simp only [dwordParity_testBit, byteParity_flip] at this
  have h4 : j / 8 < 4 := by omega
  simp [h4] at this

theorem parityIf_flip {w x y : Nat} (h : BitFlip w x y) : parityIf y ≠ parityIf x := by
  obtain ⟨j, _, rfl⟩ := h
  intro e
  have := congrArg (Nat.testBit · (j / 8)) e
  simp only [parityIf_testBit, byteParity_flip] at this
  simp at this

theorem bitFlip_ne {w x y : Nat} (h : BitFlip w x y) : y ≠ x := by
  obtain ⟨j, _, rfl⟩ := h
  intro e
  have := congrArg (Nat.testBit · j) e
  simp [Nat.testBit_xor, Nat.testBit_two_pow] at this

theorem xor_inj {a b m : Nat} (h : a ^^^ m = b ^^^ m) : a = b := by
  have := congrArg (· ^^^ m) h
  simpa [Nat.xor_assoc] using this

theorem listFlip_ne {w : Nat} {xs ys : List Nat} (h : ListFlip w xs ys) : ys ≠ xs := by
  obtain ⟨i, hi, y, hf, rfl⟩ := h
  intro e
  have := congrArg (·[i]?) e
  simp [hi] at this
  exact bitFlip_ne hf this

theorem listFlip_map {g : Nat → Nat} {xs ys : List Nat} (h : ListFlip 32 xs ys)
    (hg : ∀ x y, BitFlip 32 x y → g y ≠ g x) : ys.map g ≠ xs.map g := by
  obtain ⟨i, hi, y, hf, rfl⟩ := h
  intro e
  have := congrArg (·[i]?) e
  simp [hi] at this
  exact hg _ _ hf this

end Verif.Proofs
