import Verif.Model.Ring
/-! The pointer FIFO is a queue. -/
namespace Verif.Proofs
open Verif Verif.Model

/-- The entries held, oldest first. -/
def ringList {α : Type} (aw : Nat) (r : Ring α) : List α :=
  (List.range (ringCount aw r)).map fun k => r.mem ((r.rd + k) % 2 ^ aw)

/-- The pointers are in range and at most `2^aw` apart. -/
structure RingOk {α : Type} (aw : Nat) (r : Ring α) : Prop where
  wr : r.wr < 2 ^ (aw + 1)
  rd : r.rd < 2 ^ (aw + 1)
  count : ringCount aw r ≤ 2 ^ aw

theorem xor_top (aw a : Nat) (h : a < 2 ^ (aw + 1)) :
    a ^^^ (1 <<< aw) = if a < 2 ^ aw then a + 2 ^ aw else a - 2 ^ aw := by
  have e : (1 <<< aw : Nat) = 2 ^ aw := Nat.one_shiftLeft aw
  rw [e]
  have h1 := @Nat.xor_div_two_pow a (2 ^ aw) aw
  have h2 := @Nat.xor_mod_two_pow a (2 ^ aw) aw
  rw [Nat.div_self (Nat.two_pow_pos aw)] at h1
  rw [Nat.mod_self, Nat.xor_zero] at h2
  have h3 := Nat.div_add_mod (a ^^^ 2 ^ aw) (2 ^ aw)
  rw [h1, h2] at h3
  have hp : 2 ^ (aw + 1) = 2 * 2 ^ aw := by rw [Nat.pow_succ]; omega
  rw [hp] at h
  split
  · rename_i hl
    rw [Nat.div_eq_of_lt hl, Nat.mod_eq_of_lt hl] at h3
    simp at h3; omega
  · rename_i hl
    have hd : a / 2 ^ aw = 1 := by
      apply Nat.div_eq_of_lt_le <;> omega
    have hm : a % 2 ^ aw = a - 2 ^ aw := by
      rw [Nat.mod_eq_sub_mod (by omega), Nat.mod_eq_of_lt (by omega)]
    rw [hd, hm] at h3
    simp at h3; omega

theorem ring_count_eq {α : Type} (aw : Nat) (r : Ring α) (h : RingOk aw r) :
    ringCount aw r = if r.rd ≤ r.wr then r.wr - r.rd else r.wr + 2 ^ (aw + 1) - r.rd := by
  have h1 := h.wr
  have h2 := h.rd
  unfold ringCount
  split
  · rw [show r.wr + 2 ^ (aw + 1) - r.rd = (r.wr - r.rd) + 2 ^ (aw + 1) by omega, Nat.add_mod_right,
      Nat.mod_eq_of_lt (by omega)]
  · rw [Nat.mod_eq_of_lt (by omega)]

theorem ring_full {α : Type} (aw : Nat) (r : Ring α) (h : RingOk aw r) :
    ringFull aw r = decide (ringCount aw r = 2 ^ aw) := by
  have h1 := h.wr
  have h2 := h.rd
  have hp : 2 ^ (aw + 1) = 2 * 2 ^ aw := by rw [Nat.pow_succ]; omega
  unfold ringFull
  rw [xor_top aw _ h2, ring_count_eq aw r h, Bool.eq_iff_iff]
  simp only [beq_iff_eq, decide_eq_true_eq]
  have := Nat.two_pow_pos aw
  generalize 2 ^ aw = P at *
  generalize 2 ^ (aw + 1) = Q at *
  split <;> split <;> omega

theorem ring_empty {α : Type} (aw : Nat) (r : Ring α) (h : RingOk aw r) :
    ringEmpty r = decide (ringCount aw r = 0) := by
  have h1 := h.wr
  have h2 := h.rd
  unfold ringEmpty
  rw [ring_count_eq aw r h, Bool.eq_iff_iff]
  simp only [beq_iff_eq, decide_eq_true_eq]
  split <;> omega

theorem ringList_length {α : Type} (aw : Nat) (r : Ring α) : (ringList aw r).length = ringCount aw r := by
  simp [ringList]

theorem ring_mod_ne (aw a k n : Nat) (hn : n ≤ 2 ^ aw) (hk : k < n) (hlt : n < 2 ^ aw) :
    (a + k) % 2 ^ aw ≠ (a + n) % 2 ^ aw := by
  intro h
  have hP := Nat.two_pow_pos aw
  generalize 2 ^ aw = P at *
  have : ((a + n) - (a + k)) % P = 0 := Nat.sub_mod_eq_zero_of_mod_eq h.symm
  rw [Nat.mod_eq_of_lt (by omega)] at this
  omega

theorem ring_wr_mod {α : Type} (aw : Nat) (r : Ring α) (h : RingOk aw r) :
    r.wr % 2 ^ aw = (r.rd + ringCount aw r) % 2 ^ aw := by
  have h1 := h.wr
  have h2 := h.rd
  have hp : 2 ^ (aw + 1) = 2 * 2 ^ aw := by rw [Nat.pow_succ]; omega
  rw [ring_count_eq aw r h]
  split
  · congr 1; omega
  · rw [show r.rd + (r.wr + 2 ^ (aw + 1) - r.rd) = r.wr + 2 ^ aw + 2 ^ aw by omega]
    rw [Nat.add_mod_right, Nat.add_mod_right]

theorem ring_push {α : Type} (aw : Nat) (r : Ring α) (x : α) (h : RingOk aw r) (hf : ringCount aw r < 2 ^ aw) :
    RingOk aw (ringPush aw r x) ∧ ringCount aw (ringPush aw r x) = ringCount aw r + 1 ∧
    ringList aw (ringPush aw r x) = ringList aw r ++ [x] := by
  have h1 := h.wr
  have h2 := h.rd
  have hp : 2 ^ (aw + 1) = 2 * 2 ^ aw := by rw [Nat.pow_succ]; omega
  have hc : ringCount aw (ringPush aw r x) = ringCount aw r + 1 := by
    rw [ring_count_eq aw r h]
    rw [ring_count_eq aw r h] at hf
    simp only [ringCount, ringPush]
    have := Nat.two_pow_pos aw
    by_cases hw : r.wr + 1 = 2 ^ (aw + 1)
    · rw [hw, Nat.mod_self, Nat.zero_add]
      split at hf
      · split
        · rw [Nat.mod_eq_of_lt (by omega)]; omega
        · omega
      · omega
    · rw [Nat.mod_eq_of_lt (show r.wr + 1 < 2 ^ (aw + 1) by omega)]
      split at hf
      · rw [if_pos (by assumption)]
        rw [show r.wr + 1 + 2 ^ (aw + 1) - r.rd = (r.wr + 1 - r.rd) + 2 ^ (aw + 1) by omega, Nat.add_mod_right,
          Nat.mod_eq_of_lt (by omega)]
        omega
      · rw [if_neg (by assumption)]
        rw [Nat.mod_eq_of_lt (by omega)]; omega
  refine ⟨⟨Nat.mod_lt _ (Nat.two_pow_pos _), h2, by omega⟩, hc, ?_⟩
  unfold ringList
  rw [hc, List.range_succ, List.map_append]
  congr 1
  · apply List.map_congr_left
    intro k hk
    simp only [List.mem_range] at hk
    simp only [ringPush]
    rw [if_neg]
    rw [ring_wr_mod aw r h]
    exact ring_mod_ne aw _ k _ (by omega) hk hf
  · simp only [ringPush, List.map_cons, List.map_nil]
    rw [if_pos (ring_wr_mod aw r h).symm]

theorem ring_pop {α : Type} (aw : Nat) (r : Ring α) (h : RingOk aw r) (he : 0 < ringCount aw r) :
    RingOk aw (ringPop aw r) ∧ ringCount aw (ringPop aw r) + 1 = ringCount aw r ∧
    ringList aw r = ringHead aw r :: ringList aw (ringPop aw r) := by
  have h1 := h.wr
  have h2 := h.rd
  have h3 := h.count
  have hp : 2 ^ (aw + 1) = 2 * 2 ^ aw := by rw [Nat.pow_succ]; omega
  have hc : ringCount aw (ringPop aw r) + 1 = ringCount aw r := by
    rw [ring_count_eq aw r h] at he ⊢
    simp only [ringCount, ringPop]
    have := Nat.two_pow_pos aw
    by_cases hw : r.rd + 1 = 2 ^ (aw + 1)
    · rw [hw, Nat.mod_self, Nat.sub_zero, Nat.add_mod_right, Nat.mod_eq_of_lt h1]
      split at he
      · omega
      · rw [if_neg (by assumption)]; omega
    · rw [Nat.mod_eq_of_lt (show r.rd + 1 < 2 ^ (aw + 1) by omega)]
      split at he
      · rw [if_pos (by assumption)]
        rw [show r.wr + 2 ^ (aw + 1) - (r.rd + 1) = (r.wr - (r.rd + 1)) + 2 ^ (aw + 1) by omega, Nat.add_mod_right,
          Nat.mod_eq_of_lt (by omega)]
        omega
      · rw [if_neg (by assumption)]
        rw [Nat.mod_eq_of_lt (by omega)]; omega
  refine ⟨⟨h1, Nat.mod_lt _ (Nat.two_pow_pos _), by omega⟩, hc, ?_⟩
  unfold ringList
  rw [← hc, List.range_succ_eq_map, List.map_cons, List.map_map]
  congr 1
  apply List.map_congr_left
  intro k _
  simp only [ringPop, Function.comp]
  congr 1
  rw [show r.rd + (k + 1) = (r.rd + 1) + k by omega]
  rw [Nat.add_mod ((r.rd + 1) % 2 ^ (aw + 1)) k, Nat.mod_mod_of_dvd _ ⟨2, by omega⟩, ← Nat.add_mod]

theorem ring_push_pop {α : Type} (aw : Nat) (r : Ring α) (x : α) :
    ringPush aw (ringPop aw r) x = ringPop aw (ringPush aw r x) := rfl

theorem ring_reset {α : Type} (aw : Nat) (r : Ring α) :
    RingOk aw (ringReset r) ∧ ringList aw (ringReset r) = [] ∧ ringCount aw (ringReset r) = 0 := by
  have h : ringCount aw (ringReset r) = 0 := by simp [ringCount, ringReset]
  exact ⟨⟨Nat.two_pow_pos _, Nat.two_pow_pos _, by rw [h]; exact Nat.zero_le _⟩, by simp [ringList, h], h⟩

end Verif.Proofs
