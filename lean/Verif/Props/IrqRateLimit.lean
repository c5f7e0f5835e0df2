import Verif.Proofs.IrqSafe
import Verif.Proofs.IrqCount
/-! C42: interrupt rate limiting. -/
namespace Verif.Props
open Verif Verif.Model Verif.Spec Verif.Proofs

/-- **C42** (part). After a reset, for every history, configuration and readiness: when an interrupt has
been presented whose deadline does not wrap around in the 17-bit time counter, no later interrupt of the same
source is presented before more than the minimum interval (configured when it was presented) of ticks has
passed. Missing: interrupts whose deadline wraps, for which this is false, see `C42_interval_fails`. -/
theorem C42_interval_partial (W : Nat) (s : IrqLim) (r : IrqIn) (hr : r.rst = true) (is : List IrqIn)
    (hi : ∀ i ∈ is, i.rst = false) :
    (irqPresented W 0 (irqStep W s r) is).Pairwise fun e f => NoWrap e → Spaced e f := by
  have h : IrqSafe W (irqStep W s r) 0 [] :=
    ⟨irq_ok_reset W s r hr, by simp [irqStep, hr], by simp, by simp, by simp, by simp, .nil⟩
  simpa using irq_safe_run W is _ hi 0 [] h

theorem irq_shown_mem (W x : Nat) (is : List IrqIn) (s : IrqLim) (T : Nat) (h : IrqShown W x s is) :
    ∃ e ∈ irqPresented W T s is, e.source = x := by
  induction is generalizing s T with
  | nil => exact h.elim
  | cons i is ih =>
    rw [irqPresented]
    rcases h with h | h
    · refine ⟨⟨(irqStep W s i).outIndex, T, i.minInterval % 2 ^ 16⟩, List.mem_append_left _ ?_, h.2⟩
      rw [if_pos h.1]; exact List.mem_singleton_self _
    · obtain ⟨e, he, hx⟩ := ih _ (T + irqTicks s) h
      exact ⟨e, List.mem_append_right _ he, hx⟩

/-- The invariants hold throughout, and a request stays owed until it is presented. -/
theorem irq_run_ok (W : Nat) (is : List IrqIn) (s : IrqLim) (hi : ∀ i ∈ is, i.rst = false) (hk : IrqOk W s)
    (hm : IrqMemOk W s) : IrqOk W (irqRun W s is) ∧ IrqMemOk W (irqRun W s is) := by
  induction is generalizing s with
  | nil => exact ⟨hk, hm⟩
  | cons i is ih =>
    have h := hi i List.mem_cons_self
    exact ih _ (fun j hj => hi j (List.mem_cons_of_mem _ hj)) (irq_ok W s i h hk) (irq_mem_ok W s i h hk hm)

theorem irq_owed_run (W x p : Nat) (hx : x < 2 ^ W) (hW : W ≤ 14) (is quiet : List IrqIn) (s : IrqLim)
    (hi : ∀ i ∈ is, i.rst = false) (hk : IrqOk W s) (hm : IrqMemOk W s) (h : IrqOwed x s)
    (hq : ∀ i ∈ quiet, IrqQuiet p i) (hl : 2 ^ 16 + 2 ^ 17 * (p + 1) + (3 * 2 ^ W + 3) ≤ quiet.length) :
    IrqShown W x s (is ++ quiet) := by
  induction is generalizing s with
  | nil => exact irq_live W x p hx hW quiet s hq hk hm h hl
  | cons i is ih =>
    have h0 := hi i List.mem_cons_self
    rcases irq_owed_step W x s i h0 hk h with h1 | h1
    · exact .inl h1
    · exact .inr (ih _ (fun j hj => hi j (List.mem_cons_of_mem _ hj)) (irq_ok W s i h0 hk) (irq_mem_ok W s i h0 hk hm) h1)

/-- **C42.** No request is lost: after a reset and any history `pre`, when a request for source `x` is
accepted, then, whatever happens next (`mid`), an interrupt for `x` is presented later, at the latest when no
requests have come, the output has been ready and the prescaler setting has been constant for
`2^16 + 2^17 * (prescale + 1) + 3 * 2^W + 3` cycles. (`W`, the width of the source number, is at most 14; MSI-X
has 11 bits.) -/
theorem C42_not_lost (W p : Nat) (hW : W ≤ 14) (s : IrqLim) (r : IrqIn) (hr : r.rst = true)
    (pre mid quiet : List IrqIn) (i : IrqIn) (hi : ∀ j ∈ pre ++ i :: mid, j.rst = false)
    (ha : i.inValid = true ∧ (irqRun W (irqStep W s r) pre).inReady = true)
    (hq : ∀ j ∈ quiet, j.rst = false ∧ j.inValid = false ∧ j.outReady = true ∧ j.prescale % 2 ^ 16 = p)
    (hl : 2 ^ 16 + 2 ^ 17 * (p + 1) + (3 * 2 ^ W + 3) ≤ quiet.length) (T : Nat) :
    ∃ e ∈ irqPresented W T (irqStep W (irqRun W (irqStep W s r) pre) i) (mid ++ quiet),
      e.source = i.inIndex % 2 ^ W := by
  have hp := Nat.two_pow_pos W
  have hpre := irq_run_ok W pre _ (fun j hj => hi j (List.mem_append_left _ hj)) (irq_ok_reset W s r hr)
    (irq_mem_reset W s r hr)
  have hi0 := hi i (List.mem_append_right _ List.mem_cons_self)
  generalize irqRun W (irqStep W s r) pre = t at ha hpre
  apply irq_shown_mem
  refine irq_owed_run W _ p (Nat.mod_lt _ hp) hW mid quiet _ (fun j hj => hi j (List.mem_append_right _
    (List.mem_cons_of_mem _ hj))) (irq_ok W t i hi0 hpre.1) (irq_mem_ok W t i hi0 hpre.1 hpre.2) ?_ hq hl
  have hm := irq_move W t i hi0
  have hidle := hpre.1.rdy ha.2
  generalize irqStep W t i = n at hm
  cases hm with
  | take h0 hi hs hm hx hd hc hr ho => exact ⟨by simp [hs], .inl ⟨hs, hx⟩⟩
  | init h0 hm hs hc hr hv ho => rw [h0] at hidle; simp at hidle
  | expire h0 hi hv hx hs hm hd hc hr ho => rw [ha.1, ha.2] at hi; simp at hi
  | scan h0 hi hx hs hm hd hv hc hr ho => rw [ha.1, ha.2] at hi; simp at hi
  | mark h0 hx hs hm hv hc hr ho => rw [h0] at hidle; simp at hidle
  | emit h0 hf hs hm hv hc hr ho => rcases h0 with h0 | h0 <;> rw [h0.1] at hidle <;> simp at hidle
  | stall h0 hf hs hm hd hc hr ho => rcases h0 with h0 | h0 <;> rw [h0.1] at hidle <;> simp at hidle
  | clear h0 hxx hs hm hv hc hr ho => rw [h0] at hidle; simp at hidle

/-- **C42.** No interrupt is made up: after a reset, for every history, at most as many interrupts of a
source are presented as requests for it have been accepted. -/
theorem C42_no_spurious (W : Nat) (s : IrqLim) (r : IrqIn) (hr : r.rst = true) (is : List IrqIn)
    (hi : ∀ i ∈ is, i.rst = false) (x : Nat) (hx : x < 2 ^ W) :
    ((irqPresented W 0 (irqStep W s r) is).filter fun e => e.source == x).length ≤
      (irqAccepted W (irqStep W s r) is).count x := by
  have h := irq_count_run W x hx is _ hi 0 (irq_ok_reset W s r hr) (irq_mem_reset W s r hr)
  have : irqInside x (irqStep W s r) = 0 := by simp [irqInside, irqStep, hr]
  omega

/-- **C42.** The interrupts presented are those handed over, in order, each once, except for at most one
still on the output. -/
theorem C42_handover (W : Nat) (s : IrqLim) (r : IrqIn) (hr : r.rst = true) (is : List IrqIn)
    (hi : ∀ i ∈ is, i.rst = false) :
    ∃ inside, inside.length ≤ 1 ∧
      (irqPresented W 0 (irqStep W s r) is).map (·.source) = irqHanded W (irqStep W s r) is ++ inside := by
  have h := irq_handed W is (irqStep W s r) hi 0
  have h0 : (irqStep W s r).outValid = false := by simp [irqStep, hr]
  rw [h0] at h
  simp only [Bool.false_eq_true, if_false, List.nil_append] at h
  refine ⟨_, ?_, h⟩
  split <;> simp

/-- Number of ticks in a history. -/
def irqTickCount (W : Nat) : IrqLim → List IrqIn → Nat
  | _, [] => 0
  | s, i :: is => irqTicks s + irqTickCount W (irqStep W s i) is

/-- **C42.** With a constant prescaler setting `p`, one tick is `p + 1` cycles. -/
theorem C42_ticks (W p : Nat) (s : IrqLim) (r : IrqIn) (hr : r.rst = true) (is : List IrqIn)
    (hi : ∀ i ∈ is, i.rst = false ∧ i.prescale % 2 ^ 16 = p) :
    irqTickCount W (irqStep W s r) is = (is.length + p) / (p + 1) := by
  have gen : ∀ (is : List IrqIn) (s : IrqLim), (∀ i ∈ is, i.rst = false ∧ i.prescale % 2 ^ 16 = p) → s.preCount ≤ p →
      irqTickCount W s is = (is.length + p - s.preCount) / (p + 1) := by
    intro is
    induction is with
    | nil =>
      intro s _ hs
      rw [irqTickCount, List.length_nil, Nat.zero_add, Nat.div_eq_of_lt (by omega)]
    | cons i is ih =>
      intro s hi hs
      have h0 := hi i List.mem_cons_self
      have ht := (irq_time W s i h0.1).2
      rw [irqTickCount, ih _ (fun j hj => hi j (List.mem_cons_of_mem _ hj)) (by rw [ht]; split <;> omega), ht, irqTicks,
        h0.2, List.length_cons]
      by_cases hz : s.preCount = 0
      · rw [if_pos hz, if_pos hz, hz, show is.length + p - p = is.length by omega,
          show is.length + 1 + p - 0 = is.length + (p + 1) by omega, Nat.add_div_right _ (by omega)]
        omega
      · rw [if_neg hz, if_neg hz, Nat.zero_add]
        congr 1
        omega
  have := gen is (irqStep W s r) hi (by simp [irqStep, hr])
  rw [this]
  simp [irqStep, hr]

/-! ### The deadline wraps -/

/-- A quiet cycle with prescaler 0 and minimum interval 10. -/
def irqExIn : IrqIn := { inIndex := 0, inValid := false, outReady := true, prescale := 0, minInterval := 10 }
/-- A request for source 1. -/
def irqExReq : IrqIn := { irqExIn with inIndex := 1, inValid := true }
/-- The state after the memory has been cleared and `n` timers have been read, with two sources. -/
def irqExS (n : Nat) : IrqLim :=
  { state := .idle, curIndex := n % 2, irqIndex := (n + 1) % 2, rdData := ⟨false, false, 0⟩, rdValid := true
    mem := fun _ => ⟨false, false, 0⟩, inReady := true, outIndex := 0, outValid := false, preCount := 0
    time := (n + 2) % 2 ^ 17 }
/-- Power-up state. -/
def irqEx0 : IrqLim :=
  { state := .init, curIndex := 0, irqIndex := 0, rdData := ⟨false, false, 0⟩, rdValid := false
    mem := fun _ => ⟨false, false, 0⟩, inReady := false, outIndex := 0, outValid := false, preCount := 0, time := 0 }

theorem irqExS_step (n : Nat) : irqStep 1 (irqExS n) irqExIn = irqExS (n + 1) := by
  simp [irqStep, irqNext, irqExS, irqExIn, irqTick]
  omega

theorem irqExS_start :
    irqStep 1 (irqStep 1 (irqStep 1 (irqStep 1 irqEx0 { irqExIn with rst := true }) irqExIn) irqExIn) irqExIn =
      irqExS 1 := by
  simp [irqStep, irqNext, irqExS, irqExIn, irqTick, irqEx0]
  exact ⟨rfl, by funext x; simp [irqSet]⟩

theorem irqExS_run (n : Nat) (t k : Nat) (l : List IrqIn) :
    irqPresented 1 t (irqExS k) (List.replicate n irqExIn ++ l) = irqPresented 1 (t + n) (irqExS (k + n)) l := by
  induction n generalizing t k with
  | zero => simp
  | succ n ih =>
    rw [List.replicate_succ, List.cons_append, irqPresented, irqExS_step, ih]
    have : irqPresents 1 (irqExS k) irqExIn = false := by
      unfold irqPresents; rw [irqExS_step]; rfl
    rw [this]
    have : irqTicks (irqExS k) = 1 := rfl
    rw [this]
    simp only [Bool.false_eq_true, if_false, List.nil_append]
    rw [Nat.add_assoc t, Nat.add_comm 1, Nat.add_assoc k, Nat.add_comm 1]

/-- The history: reset, 131063 quiet cycles, two requests for source 1, and some quiet cycles. -/
def irqExHist : List IrqIn :=
  irqExIn :: irqExIn :: irqExIn :: (List.replicate 131060 irqExIn ++
    [irqExReq, irqExIn, irqExReq, irqExIn, irqExIn, irqExIn, irqExIn, irqExIn, irqExIn, irqExIn])

/-- **C42, negation.** The time difference is computed with 32 bits, so that a deadline that wraps around in
the 17-bit counter counts as past at once: with a minimum interval of 10 ticks, two interrupts of one source are
presented 5 ticks apart. -/
theorem C42_interval_fails :
    ∃ (s : IrqLim) (r : IrqIn) (is : List IrqIn), r.rst = true ∧ (∀ i ∈ is, i.rst = false) ∧
      irqPresented 1 0 (irqStep 1 s r) is = [⟨1, 131064, 10⟩, ⟨1, 131069, 10⟩] ∧
      ¬ (irqPresented 1 0 (irqStep 1 s r) is).Pairwise Spaced := by
  have e : irqPresented 1 0 (irqStep 1 irqEx0 { irqExIn with rst := true }) irqExHist =
      [⟨1, 131064, 10⟩, ⟨1, 131069, 10⟩] := by
    unfold irqExHist
    rw [irqPresented, irqPresented, irqPresented, irqExS_start, irqExS_run]
    decide +kernel
  refine ⟨irqEx0, { irqExIn with rst := true }, irqExHist, rfl, ?_, e, ?_⟩
  · intro i hi
    unfold irqExHist at hi
    simp only [List.mem_cons, List.mem_append, List.mem_replicate] at hi
    have h0 : irqExIn.rst = false := rfl
    have h1 : irqExReq.rst = false := rfl
    rcases hi with h | h | h | h | h
    · rw [h]; exact h0
    · rw [h]; exact h0
    · rw [h]; exact h0
    · rw [h.2]; exact h0
    · simp only [List.not_mem_nil, or_false] at h
      rcases h with h | h | h | h | h | h | h | h | h | h <;> rw [h] <;> first | exact h0 | exact h1
  · rw [e]
    simp [Spaced]

/-- Near the start, the same requests are presented more than 10 ticks apart. -/
example : (irqPresented 1 0 (irqStep 1 irqEx0 { irqExIn with rst := true })
    (List.replicate 5 irqExIn ++ [irqExReq, irqExIn, irqExReq, irqExIn] ++ List.replicate 30 irqExIn)) =
    [⟨1, 6, 10⟩, ⟨1, 19, 10⟩] := by decide +kernel
example : (irqAccepted 1 (irqStep 1 irqEx0 { irqExIn with rst := true })
    (List.replicate 5 irqExIn ++ [irqExReq, irqExIn, irqExReq, irqExIn] ++ List.replicate 30 irqExIn)) = [1, 1] := by
  decide +kernel

end Verif.Props
