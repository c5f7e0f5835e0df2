import Verif.Proofs.Ring
import Verif.Model.RamDemux
/-! The output FIFO is a queue that never overflows when its half-full flag is respected. -/
namespace Verif.Proofs
open Verif Verif.Model

/-- The words held. -/
def outQ {α : Type} (aw : Nat) (s : OutFifo α) : List α := (if s.valid then [s.out] else []) ++ ringList aw s.ring

/-- Invariant of the output FIFO. -/
structure OutOk {α : Type} (aw : Nat) (s : OutFifo α) : Prop where
  ring : RingOk aw s.ring
  count : ringCount aw s.ring ≤ 2 ^ (aw - 1) + 1
  half : s.half = false → ringCount aw s.ring ≤ 2 ^ (aw - 1)

/-- What becomes of the FIFO of the output stage, when it is not full. -/
theorem outFifo_ring_lt {α : Type} (aw : Nat) (s : OutFifo α) (vin : Bool) (x : α) (rdy : Bool)
    (h : RingOk aw s.ring) (hlt : ringCount aw s.ring < 2 ^ aw) :
    ∃ r, r = (if !ringEmpty s.ring && (!s.valid || rdy) then ringPop aw else id)
        (if vin then ringPush aw s.ring x else s.ring) ∧
      (outFifoStep aw false s vin x rdy).ring = r ∧ RingOk aw r ∧
      ringCount aw r + (!ringEmpty s.ring && (!s.valid || rdy)).toNat = ringCount aw s.ring + vin.toNat ∧
      ringList aw s.ring ++ (if vin then [x] else []) =
        (if !ringEmpty s.ring && (!s.valid || rdy) then [ringHead aw s.ring] else []) ++ ringList aw r := by
  have hnf : ringFull aw s.ring = false := by
    rw [ring_full aw _ h]; simp; omega
  have he := ring_empty aw _ h
  refine ⟨_, rfl, ?_, ?_⟩
  · simp only [outFifoStep, hnf, Bool.not_false, Bool.true_and, Bool.false_eq_true, if_false]
    cases (!ringEmpty s.ring && (!s.valid || rdy)) <;> simp
  · have hpush := ring_push aw s.ring x h hlt
    cases hpop : (!ringEmpty s.ring && (!s.valid || rdy)) with
    | false =>
      cases vin with
      | false => simpa using h
      | true => simp only [Bool.false_eq_true, if_false, if_true, id]; refine ⟨hpush.1, ?_, ?_⟩
                · simp [hpush.2.1]
                · simp [hpush.2.2]
    | true =>
      have hpos : 0 < ringCount aw s.ring := by
        simp only [he, Bool.and_eq_true, Bool.not_eq_true', decide_eq_false_iff_not] at hpop
        omega
      cases vin with
      | false =>
        have hp := ring_pop aw s.ring h hpos
        simp only [Bool.false_eq_true, if_false, if_true]
        exact ⟨hp.1, by simpa using hp.2.1, by simpa using hp.2.2⟩
      | true =>
        have hp := ring_pop aw (ringPush aw s.ring x) hpush.1 (by omega)
        simp only [if_true]
        refine ⟨hp.1, ?_, ?_⟩
        · simp only [Bool.toNat_true]; rw [← hpush.2.1]; exact hp.2.1
        · have e : ringHead aw (ringPush aw s.ring x) = ringHead aw s.ring := by
            have h1 := (ring_pop aw s.ring h hpos).2.2
            have h2 := hp.2.2
            rw [hpush.2.2, h1, List.cons_append] at h2
            exact (List.cons.inj h2).1.symm
          rw [← hpush.2.2, hp.2.2, e]; rfl

/-- What becomes of the FIFO of the output stage. -/
theorem outFifo_ring {α : Type} (aw : Nat) (ha : 2 ≤ aw) (s : OutFifo α) (vin : Bool) (x : α) (rdy : Bool)
    (h : OutOk aw s) :
    ∃ r, r = (if !ringEmpty s.ring && (!s.valid || rdy) then ringPop aw else id)
        (if vin then ringPush aw s.ring x else s.ring) ∧
      (outFifoStep aw false s vin x rdy).ring = r ∧ RingOk aw r ∧
      ringCount aw r + (!ringEmpty s.ring && (!s.valid || rdy)).toNat = ringCount aw s.ring + vin.toNat ∧
      ringList aw s.ring ++ (if vin then [x] else []) =
        (if !ringEmpty s.ring && (!s.valid || rdy) then [ringHead aw s.ring] else []) ++ ringList aw r := by
  have hpow : 2 ^ aw = 2 * 2 ^ (aw - 1) := by
    rw [show aw = (aw - 1) + 1 by omega, Nat.pow_succ]; simp; omega
  have hp2 : 2 ≤ 2 ^ (aw - 1) := by
    have : 2 ^ 1 ≤ 2 ^ (aw - 1) := Nat.pow_le_pow_right (by omega) (by omega)
    simpa using this
  exact outFifo_ring_lt aw s vin x rdy h.ring (by have := h.count; omega)

/-- The words held, when the FIFO is not full. -/
theorem outFifo_queue {α : Type} (aw : Nat) (s : OutFifo α) (vin : Bool) (x : α) (rdy : Bool)
    (h : RingOk aw s.ring) (hlt : ringCount aw s.ring < 2 ^ aw) :
    (if s.valid && rdy then [s.out] else []) ++ outQ aw (outFifoStep aw false s vin x rdy) =
      outQ aw s ++ (if vin then [x] else []) := by
  obtain ⟨r, -, hr, -, -, hlist⟩ := outFifo_ring_lt aw s vin x rdy h hlt
  unfold outQ
  rw [hr]
  rw [List.append_assoc (if s.valid then [s.out] else []), hlist]
  simp only [outFifoStep, Bool.false_eq_true, if_false]
  cases hpop : (!ringEmpty s.ring && (!s.valid || rdy)) with
  | false =>
    simp only [Bool.false_eq_true, if_false, List.nil_append]
    cases s.valid <;> cases rdy <;> simp
  | true =>
    simp only [if_true]
    simp only [Bool.and_eq_true, Bool.or_eq_true, Bool.not_eq_true'] at hpop
    rcases hpop.2 with hv | hv
    · simp [hv]
    · cases s.valid <;> simp [hv]

theorem outFifo_step {α : Type} (aw : Nat) (ha : 2 ≤ aw) (s : OutFifo α) (vin : Bool) (x : α) (rdy : Bool)
    (h : OutOk aw s) (hv : vin = true → s.half = false) :
    OutOk aw (outFifoStep aw false s vin x rdy) ∧
    (if s.valid && rdy then [s.out] else []) ++ outQ aw (outFifoStep aw false s vin x rdy) =
      outQ aw s ++ (if vin then [x] else []) := by
  obtain ⟨r, -, hr, hok, hcount, hlist⟩ := outFifo_ring aw ha s vin x rdy h
  have hhalf : (outFifoStep aw false s vin x rdy).half = decide (ringCount aw s.ring ≥ 2 ^ (aw - 1)) := rfl
  have hc := h.count
  have hb := Bool.toNat_le (!ringEmpty s.ring && (!s.valid || rdy))
  have hbv := Bool.toNat_le vin
  constructor
  · refine ⟨by rw [hr]; exact hok, ?_, fun hf => ?_⟩
    · rw [hr]
      cases hvin : vin with
      | false => rw [hvin] at hcount; simp at hcount; omega
      | true =>
        have := h.half (hv hvin)
        omega
    · rw [hhalf] at hf
      rw [hr]
      simp only [ge_iff_le, decide_eq_false_iff_not, Nat.not_le] at hf
      omega
  · unfold outQ
    rw [hr]
    rw [List.append_assoc (if s.valid then [s.out] else []), hlist]
    simp only [outFifoStep, Bool.false_eq_true, if_false]
    cases hpop : (!ringEmpty s.ring && (!s.valid || rdy)) with
    | false =>
      simp only [Bool.false_eq_true, if_false, List.nil_append]
      cases s.valid <;> cases rdy <;> simp
    | true =>
      simp only [if_true]
      simp only [Bool.and_eq_true, Bool.or_eq_true, Bool.not_eq_true'] at hpop
      rcases hpop.2 with hv | hv
      · simp [hv]
      · cases s.valid <;> simp [hv]

theorem outFifo_rst {α : Type} (aw : Nat) (s : OutFifo α) (vin : Bool) (x : α) (rdy : Bool) :
    OutOk aw (outFifoStep aw true s vin x rdy) ∧ outQ aw (outFifoStep aw true s vin x rdy) = [] := by
  unfold outFifoStep outQ
  simp only [if_true]
  have h := fun r : Ring α => ring_reset aw r
  refine ⟨⟨(h _).1, ?_, fun _ => ?_⟩, ?_⟩
  · simp only [(h _).2.2]; exact Nat.zero_le _
  · simp only [(h _).2.2]; exact Nat.zero_le _
  · simp [(h _).2.1]

theorem outQ_length {α : Type} (aw : Nat) (s : OutFifo α) (h : OutOk aw s) : (outQ aw s).length ≤ 2 ^ (aw - 1) + 2 := by
  unfold outQ
  have := h.count
  rw [List.length_append, ringList_length]
  split <;> simp <;> omega

end Verif.Proofs
