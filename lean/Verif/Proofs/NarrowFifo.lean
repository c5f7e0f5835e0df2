import Verif.Proofs.Ring
import Verif.Model.DmaIfPcieRd
/-! The output FIFO with narrow pointers is a queue while it holds fewer words than its memory. -/
namespace Verif.Proofs
open Verif Verif.Model

/-- The pointers are in range. -/
structure NOk {α : Type} (aw : Nat) (r : Ring α) : Prop where
  wr : r.wr < 2 ^ aw
  rd : r.rd < 2 ^ aw

/-- The words in the memory. -/
def nringList {α : Type} (aw : Nat) (r : Ring α) : List α :=
  (List.range (nringCount aw r)).map fun j => r.mem ((r.rd + j) % 2 ^ aw)

/-- The words held. -/
def nOutQ {α : Type} (aw : Nat) (s : OutFifo α) : List α := (if s.valid then [s.out] else []) ++ nringList aw s.ring

theorem nringCount_eq {α : Type} {aw : Nat} {r : Ring α} (h : NOk aw r) :
    nringCount aw r = if r.rd ≤ r.wr then r.wr - r.rd else r.wr + 2 ^ aw - r.rd := by
  have h1 := h.wr
  have h2 := h.rd
  unfold nringCount
  split
  · rw [show r.wr + 2 ^ aw - r.rd = (r.wr - r.rd) + 2 ^ aw by omega, Nat.add_mod_right, Nat.mod_eq_of_lt (by omega)]
  · rw [Nat.mod_eq_of_lt (by omega)]

theorem nring_wr {α : Type} {aw : Nat} {r : Ring α} (h : NOk aw r) : r.wr = (r.rd + nringCount aw r) % 2 ^ aw := by
  have h1 := h.wr
  have h2 := h.rd
  rw [nringCount_eq h]
  split
  · rw [Nat.mod_eq_of_lt (by omega)]; omega
  · rw [show r.rd + (r.wr + 2 ^ aw - r.rd) = r.wr + 2 ^ aw by omega, Nat.add_mod_right, Nat.mod_eq_of_lt (by omega)]

theorem nring_empty {α : Type} {aw : Nat} {r : Ring α} (h : NOk aw r) : (r.wr == r.rd) = decide (nringCount aw r = 0) := by
  have h1 := h.wr
  have h2 := h.rd
  rw [nringCount_eq h, Bool.eq_iff_iff]
  simp only [beq_iff_eq, decide_eq_true_eq]
  split <;> omega

theorem nring_not_full {α : Type} {aw : Nat} {r : Ring α} (h : NOk aw r) : (r.wr == (r.rd ^^^ (1 <<< aw))) = false := by
  rw [Bool.eq_false_iff]
  intro he
  have he := eq_of_beq he
  have h1 : r.wr.testBit aw = false := Nat.testBit_lt_two_pow h.wr
  have h2 : r.rd.testBit aw = false := Nat.testBit_lt_two_pow h.rd
  rw [he, Nat.testBit_xor, h2, Nat.shiftLeft_eq, Nat.one_mul, Nat.testBit_two_pow_self] at h1
  simp at h1

theorem nring_mod_ne {P a k n : Nat} (hk : k < n) (hn : n < P) : (a + k) % P ≠ (a + n) % P := by
  intro h
  have h1 := Nat.div_add_mod (a + k) P
  have h2 := Nat.div_add_mod (a + n) P
  rw [h] at h1
  have h3 : P * ((a + k) / P) + (n - k) = P * ((a + n) / P) := by omega
  have h4 : (n - k) % P = 0 := by
    have : (P * ((a + k) / P) + (n - k)) % P = 0 := by rw [h3]; exact Nat.mul_mod_right _ _
    rwa [Nat.mul_add_mod] at this
  rw [Nat.mod_eq_of_lt (by omega)] at h4
  omega

theorem nring_arith {P w r v p : Nat} (hw : w < P) (hr : r < P) (hv : v ≤ 1) (hp : p ≤ 1) (hlt : (w + P - r) % P + v < P)
    (hpc : p ≤ (w + P - r) % P) : ((w + v) % P + P - (r + p) % P) % P + p = (w + P - r) % P + v := by
  have m1 : ∀ a, a < P → a % P = a := fun a ha => Nat.mod_eq_of_lt ha
  have m2 : ∀ a, P ≤ a → a < 2 * P → a % P = a - P := fun a h1 h2 => by
    rw [Nat.mod_eq_sub_mod h1, Nat.mod_eq_of_lt (by omega)]
  have c4 : ∀ a b, a < P → b < P → (a + P - b) % P = if a < b then a + P - b else a - b := by
    intro a b ha hb
    split
    · exact m1 _ (by omega)
    · rw [m2 _ (by omega) (by omega)]; omega
  have c1 : ∀ a b, a < P → b ≤ 1 → (a + b) % P = if a + b < P then a + b else a + b - P := by
    intro a b ha hb
    split
    · exact m1 _ (by omega)
    · exact m2 _ (by omega) (by omega)
  rw [c4 _ _ hw hr] at hlt hpc ⊢
  rw [c4 _ _ (Nat.mod_lt _ (by omega)) (Nat.mod_lt _ (by omega)), c1 _ _ hw hv, c1 _ _ hr hp]
  clear m1 m2 c4 c1
  repeat' split
  all_goals (split at hlt <;> split at hpc <;> omega)

/-- One clock edge. -/
theorem nfifo_step {α : Type} {aw : Nat} (s : OutFifo α) (vin : Bool) (x : α) (rdy : Bool) (h : NOk aw s.ring)
    (hlt : nringCount aw s.ring + vin.toNat < 2 ^ aw) :
    NOk aw (nfifoStep aw false s vin x rdy).ring ∧
    nringCount aw (nfifoStep aw false s vin x rdy).ring ≤ nringCount aw s.ring + vin.toNat ∧
    (if s.valid && rdy then [s.out] else []) ++ nOutQ aw (nfifoStep aw false s vin x rdy) =
      nOutQ aw s ++ (if vin then [x] else []) := by
  have hP := Nat.two_pow_pos aw
  have h1 := h.wr
  have h2 := h.rd
  have hnf := nring_not_full h
  have hem := nring_empty h
  have hwr := nring_wr h
  have hcl : nringCount aw s.ring < 2 ^ aw := by omega
  -- the ring after the edge
  have hring : (nfifoStep aw false s vin x rdy).ring =
      { wr := if vin then (s.ring.wr + 1) % 2 ^ aw else s.ring.wr
        rd := if !(s.ring.wr == s.ring.rd) && (!s.valid || rdy) then (s.ring.rd + 1) % 2 ^ aw else s.ring.rd
        mem := fun a => if vin && a == s.ring.wr % 2 ^ aw then x else s.ring.mem a } := by
    unfold nfifoStep
    simp only [hnf, Bool.not_false, Bool.true_and, Bool.false_eq_true, if_false]
  have hv : (nfifoStep aw false s vin x rdy).valid =
      if !(s.ring.wr == s.ring.rd) && (!s.valid || rdy) then true else s.valid && !rdy := rfl
  have ho : (nfifoStep aw false s vin x rdy).out =
      if !(s.ring.wr == s.ring.rd) && (!s.valid || rdy) then s.ring.mem (s.ring.rd % 2 ^ aw) else s.out := rfl
  have hok : NOk aw (nfifoStep aw false s vin x rdy).ring := by
    rw [hring]
    constructor
    · show (if vin then _ else _) < _
      split
      · exact Nat.mod_lt _ hP
      · exact h1
    · show (if _ then _ else _) < _
      split
      · exact Nat.mod_lt _ hP
      · exact h2
  generalize hpop : (!(s.ring.wr == s.ring.rd) && (!s.valid || rdy)) = pop at *
  have hpos : pop = true → 0 < nringCount aw s.ring := by
    intro hp
    rw [hp, hem] at hpop
    simp only [Bool.and_eq_true, Bool.not_eq_true', decide_eq_false_iff_not] at hpop
    omega
  have hcount : nringCount aw (nfifoStep aw false s vin x rdy).ring + pop.toNat = nringCount aw s.ring + vin.toNat := by
    rw [hring]
    unfold nringCount at hlt hcl hpos ⊢
    rw [show (s.ring.wr + 2 ^ aw - s.ring.rd) = (s.ring.wr + 2 ^ aw - s.ring.rd) from rfl] at *
    have e1 : ∀ a, (if vin then (a + 1) % 2 ^ aw else a) % 2 ^ aw = (a + vin.toNat) % 2 ^ aw := by
      intro a; cases vin <;> simp
    have e2 : ∀ a, (if pop then (a + 1) % 2 ^ aw else a) % 2 ^ aw = (a + pop.toNat) % 2 ^ aw := by
      intro a; cases pop <;> simp
    have g1 := e1 s.ring.wr
    have g2 := e2 s.ring.rd
    rw [hring] at hok
    have k1 := hok.wr
    have k2 := hok.rd
    simp only at k1 k2
    rw [Nat.mod_eq_of_lt k1] at g1
    rw [Nat.mod_eq_of_lt k2] at g2
    simp only [g1, g2]
    have b1 := Bool.toNat_le vin
    have b2 := Bool.toNat_le pop
    have b3 : pop.toNat ≤ (s.ring.wr + 2 ^ aw - s.ring.rd) % 2 ^ aw := by
      cases hp : pop with
      | false => simp
      | true => exact hpos hp
    exact nring_arith h1 h2 b1 b2 hlt b3
  refine ⟨hok, by omega, ?_⟩
  -- the list
  have hlist : nringList aw s.ring ++ (if vin then [x] else []) =
      (if pop then [s.ring.mem (s.ring.rd % 2 ^ aw)] else []) ++ nringList aw (nfifoStep aw false s vin x rdy).ring := by
    apply List.ext_getElem?
    intro j
    have hL : ∀ (r : Ring α) j, (nringList aw r)[j]? = if j < nringCount aw r then some (r.mem ((r.rd + j) % 2 ^ aw)) else none := by
      intro r j
      unfold nringList
      rw [List.getElem?_map]
      by_cases hj : j < nringCount aw r
      · rw [if_pos hj, List.getElem?_range hj]; rfl
      · rw [if_neg hj, List.getElem?_eq_none (by simpa using hj)]; rfl
    have hlen : ∀ r : Ring α, (nringList aw r).length = nringCount aw r := by intro r; simp [nringList]
    have hmem : ∀ j, j < nringCount aw s.ring → (nfifoStep aw false s vin x rdy).ring.mem ((s.ring.rd + j) % 2 ^ aw) =
        s.ring.mem ((s.ring.rd + j) % 2 ^ aw) := by
      intro j hj
      rw [hring]
      simp only
      rw [if_neg]
      rw [hwr, Nat.mod_mod]
      simp only [Bool.and_eq_true, beq_iff_eq, not_and]
      intro _
      exact nring_mod_ne hj hcl
    have hnew : vin = true → (nfifoStep aw false s vin x rdy).ring.mem ((s.ring.rd + nringCount aw s.ring) % 2 ^ aw) = x := by
      intro hv
      rw [hring]
      simp only
      rw [if_pos]
      rw [← hwr, Nat.mod_eq_of_lt h1, hv]; simp
    have hrd : (nfifoStep aw false s vin x rdy).ring.rd = (s.ring.rd + pop.toNat) % 2 ^ aw := by
      rw [hring]
      simp only
      cases pop
      · simp [Nat.mod_eq_of_lt h2]
      · simp
    have hall : ∀ j, j < nringCount aw s.ring + vin.toNat →
        (nringList aw s.ring ++ (if vin then [x] else []))[j]? =
          some ((nfifoStep aw false s vin x rdy).ring.mem ((s.ring.rd + j) % 2 ^ aw)) := by
      intro j hj
      rw [List.getElem?_append, hlen]
      by_cases hjc : j < nringCount aw s.ring
      · rw [if_pos hjc, hL, if_pos hjc, hmem j hjc]
      · have hv : vin = true := by
          cases hv : vin with
          | true => rfl
          | false => rw [hv] at hj; simp only [Bool.toNat_false, Nat.add_zero] at hj; exact absurd hj hjc
        have hj' : j = nringCount aw s.ring := by rw [hv] at hj; simp at hj; omega
        rw [if_neg hjc, hj', hnew hv, hv]
        simp
    by_cases hj : j < nringCount aw s.ring + vin.toNat
    · rw [hall j hj]
      cases hp : pop with
      | false =>
        rw [hp] at hcount hrd
        simp only [Bool.toNat_false, Nat.add_zero] at hcount hrd
        simp only [Bool.false_eq_true, if_false, List.nil_append]
        rw [hL, if_pos (by omega), hrd, Nat.mod_eq_of_lt h2]
      | true =>
        rw [hp] at hcount hrd
        simp only [Bool.toNat_true] at hcount hrd
        simp only [if_true]
        rw [List.singleton_append]
        cases j with
        | zero =>
          rw [List.getElem?_cons_zero, Nat.add_zero]
          have := hmem 0 (hpos hp)
          rw [Nat.add_zero] at this
          rw [this]
        | succ j =>
          rw [List.getElem?_cons_succ, hL, if_pos (by omega), hrd, Nat.mod_add_mod]
          congr 3; omega
    · rw [List.getElem?_eq_none, List.getElem?_eq_none]
      · rw [List.length_append, hlen]
        have : (if pop then [s.ring.mem (s.ring.rd % 2 ^ aw)] else []).length = pop.toNat := by cases pop <;> rfl
        rw [this]; omega
      · rw [List.length_append, hlen]
        have : (if vin then [x] else []).length = vin.toNat := by cases vin <;> rfl
        rw [this]; omega
  unfold nOutQ
  rw [List.append_assoc (if s.valid then [s.out] else []), hlist, hv, ho]
  cases hp : pop with
  | false =>
    simp only [Bool.false_eq_true, if_false, List.nil_append]
    cases s.valid <;> cases rdy <;> simp
  | true =>
    rw [hp] at hpop
    simp only [if_true]
    simp only [Bool.and_eq_true, Bool.or_eq_true, Bool.not_eq_true'] at hpop
    rcases hpop.2 with hv | hv
    · simp [hv]
    · cases s.valid <;> simp [hv]

/-- Reset. -/
theorem nfifo_rst {α : Type} {aw : Nat} (s : OutFifo α) (vin : Bool) (x : α) (rdy : Bool) :
    NOk aw (nfifoStep aw true s vin x rdy).ring ∧ nringCount aw (nfifoStep aw true s vin x rdy).ring = 0 ∧
    nOutQ aw (nfifoStep aw true s vin x rdy) = [] := by
  have e : nringCount aw (nfifoStep aw true s vin x rdy).ring = 0 := by
    show (0 + 2 ^ aw - 0) % 2 ^ aw = 0
    simp
  refine ⟨⟨Nat.two_pow_pos _, Nat.two_pow_pos _⟩, e, ?_⟩
  unfold nOutQ nringList
  rw [e]
  rfl

end Verif.Proofs
