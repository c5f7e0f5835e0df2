import Verif.Model.Tags
/-! Tag allocation. -/
namespace Verif.Proofs
open Verif Verif.Model

/-- The tag `k + 1` steps after `c`. -/
def tagAfter (count c k : Nat) : Nat := (c + k) % count

theorem freeTagLoop_spec (count : Nat) (s : TagState) (n : Nat) :
    (∃ j, j < n ∧ (∀ i < j, s.queues (tagAfter count s.current_tag (i + 1)) ≠ []) ∧
      s.queues (tagAfter count s.current_tag (j + 1)) = [] ∧
      freeTagLoop count n s = ({ s with current_tag := tagAfter count s.current_tag (j + 1) },
        some (tagAfter count s.current_tag (j + 1)))) ∨
    ((∀ i < n, s.queues (tagAfter count s.current_tag (i + 1)) ≠ []) ∧
      (freeTagLoop count n s).2 = none ∧ (freeTagLoop count n s).1.queues = s.queues ∧
      (0 < n → (freeTagLoop count n s).1.current_tag = tagAfter count s.current_tag n)) := by
  induction n generalizing s with
  | zero => right; simp [freeTagLoop]
  | succ n ih =>
    rw [freeTagLoop]
    dsimp only
    have key : ∀ i, tagAfter count ((s.current_tag + 1) % count) i = tagAfter count s.current_tag (i + 1) := by
      intro i
      simp only [tagAfter]
      rw [Nat.mod_add_mod]
      congr 1
      omega
    split
    · rename_i he
      left
      refine ⟨0, by omega, by intros; omega, ?_, rfl⟩
      simpa [tagAfter] using he
    · rename_i he
      have hne : s.queues (tagAfter count s.current_tag (0 + 1)) ≠ [] := by
        intro h; apply he; simpa [tagAfter] using h
      rcases ih { s with current_tag := (s.current_tag + 1) % count } with ⟨j, h1, h2, h3, h4⟩ | ⟨h1, h2, h3, h4⟩
      · left
        simp only [key] at h2 h3 h4
        refine ⟨j + 1, by omega, ?_, h3, h4⟩
        intro i hi
        cases i with
        | zero => exact hne
        | succ i => exact h2 i (by omega)
      · right
        simp only [key] at h1 h4
        refine ⟨?_, h2, h3, ?_⟩
        · intro i hi
          cases i with
          | zero => exact hne
          | succ i => exact h1 i (by omega)
        · intro _
          cases n with
          | zero => rfl
          | succ n => exact h4 (by omega)

theorem tagAfter_surj (count c t : Nat) (ht : t < count) : ∃ i, i < count ∧ tagAfter count c (i + 1) = t := by
  have hc : c % count < count := Nat.mod_lt _ (by omega)
  have e : ∀ i, tagAfter count c (i + 1) = (c % count + (i + 1)) % count := by
    intro i; rw [tagAfter, Nat.mod_add_mod]
  by_cases h : c % count < t
  · refine ⟨t - c % count - 1, by omega, ?_⟩
    rw [e, show c % count + (t - c % count - 1 + 1) = t by omega, Nat.mod_eq_of_lt ht]
  · refine ⟨count + t - c % count - 1, by omega, ?_⟩
    rw [e, show c % count + (count + t - c % count - 1 + 1) = t + count by omega, Nat.add_mod_right,
      Nat.mod_eq_of_lt ht]

theorem tagAfter_inj (count c i j : Nat) (hi : i < count) (hj : j < count)
    (h : tagAfter count c i = tagAfter count c j) : i = j := by
  have aux : ∀ a b, a ≤ b → b < count → (c + a) % count = (c + b) % count → a = b := by
    intro a b hab hb h
    have h1 := Nat.div_add_mod (c + a) count
    have h2 := Nat.div_add_mod (c + b) count
    have h3 : count * ((c + b) / count) = count * ((c + a) / count) + (b - a) := by omega
    have h4 : b - a = count * ((c + b) / count) - count * ((c + a) / count) := by omega
    rw [← Nat.mul_sub] at h4
    rcases Nat.eq_zero_or_pos ((c + b) / count - (c + a) / count) with h0 | h0
    · rw [h0, Nat.mul_zero] at h4; omega
    · have := Nat.le_mul_of_pos_right count h0
      omega
  rcases Nat.le_total i j with hij | hij
  · exact aux i j hij hj h
  · exact (aux j i hij hi h.symm).symm

/-- A duplicate-free list within another is no longer. -/
theorem nodup_length_le {α} [DecidableEq α] (a b : List α) (hn : a.Nodup) (h : ∀ x ∈ a, x ∈ b) : a.length ≤ b.length := by
  induction a generalizing b with
  | nil => simp
  | cons x a ih =>
    rw [List.nodup_cons] at hn
    have hx := h x (by simp)
    have := ih (b.erase x) hn.2 (fun y hy => by
      refine (List.mem_erase_of_ne ?_).2 (h y (by simp [hy]))
      rintro rfl; exact hn.1 hy)
    rw [List.length_erase_of_mem hx] at this
    have := List.length_pos_of_mem hx
    simp; omega

end Verif.Proofs
