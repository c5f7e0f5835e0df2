import Verif.Basic.Lanes
/-! Verilog's `$clog2`. -/
namespace Verif

/-- `$clog2 n`: the number of address bits for `n` words. -/
def clog2 (n : Nat) : Nat := if n ≤ 1 then 0 else Nat.log2 (n - 1) + 1

theorem le_two_pow_clog2 (n : Nat) : n ≤ 2 ^ clog2 n := by
  unfold clog2
  split
  · omega
  · have := (Nat.lt_log2_self : n - 1 < 2 ^ ((n - 1).log2 + 1)); omega

theorem clog2_pos {n : Nat} (h : 1 < n) : 0 < clog2 n := by
  unfold clog2; rw [if_neg (by omega)]; omega

theorem clog2_pow (n : Nat) : clog2 (2 ^ n) = n := by
  unfold clog2
  cases n with
  | zero => simp
  | succ n =>
    have hp := Nat.two_pow_pos n
    have e : 2 ^ (n + 1) = 2 ^ n + 2 ^ n := by rw [Nat.pow_succ]; omega
    rw [if_neg (by omega)]
    have h0 : 2 ^ (n + 1) - 1 ≠ 0 := by omega
    have h1 : Nat.log2 (2 ^ (n + 1) - 1) < n + 1 := (Nat.log2_lt h0).mpr (by omega)
    have h2 : n ≤ Nat.log2 (2 ^ (n + 1) - 1) := (Nat.le_log2 h0).mpr (by omega)
    omega

end Verif
