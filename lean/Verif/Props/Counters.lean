import Verif.Proofs.Counters
/-!
C33, C34, C44: pulse merging and flow control credit counters.
-/
namespace Verif.Props
open Verif Verif.Model Verif.Spec Verif.Proofs

/-! ### C33 -/

/-- C33: after any history `is`, a reset and any inputs `xs` that never leave `2^COUNT_WIDTH` pulses
waiting, the number of cycles with `pulse_out` high plus `count_out` is the number of input pulses. -/
theorem C33_conservation (iw cw : Nat) (is : List (Bool × Nat)) (xs : List Nat) (r : Nat)
    (h : PulsesFit iw cw 0 xs) :
    ∃ t s, pmTrace iw cw {} (is ++ (true, r) :: xs.map fun x => (false, x)) =
        pmTrace iw cw {} (is ++ [(true, r)]) ++ t ∧
      ((pmTrace iw cw {} (is ++ [(true, r)]) ++ t).getLast? = some s) ∧
      t.countP PulseMerge.pulse + s.count = (xs.map (ones iw)).sum := by
  have e : ∀ s : PulseMerge, pmStep iw cw s (true, r) = {} := fun s => rfl
  refine ⟨pmTrace iw cw {} (xs.map fun x => (false, x)), pmLast iw cw {} (xs.map fun x => (false, x)), ?_, ?_, ?_⟩
  · rw [pmTrace_append, pmTrace_append, List.append_assoc]
    simp only [pmTrace, e, List.cons_append, List.nil_append]
  · have h1 : pmTrace iw cw {} (is ++ [(true, r)]) = pmTrace iw cw {} is ++ [⟨0, false⟩] := by
      rw [pmTrace_append]; simp only [pmTrace, e]
    rw [h1, List.getLast?_append, List.getLast?_append]
    unfold pmLast
    cases (pmTrace iw cw {} (xs.map fun x => (false, x))).getLast? <;> rfl
  · have := pm_conserve iw cw xs {} (Nat.two_pow_pos _) h
    simpa using this

/-- C33: `pulse_out` is high in the cycle after each cycle with nonzero `count_out` (and only then). -/
theorem C33_pulse (iw cw : Nat) (s : PulseMerge) (x : Nat) :
    (pmStep iw cw s (false, x)).pulse = true ↔ s.count ≠ 0 := by
  simp [pmStep, Nat.pos_iff_ne_zero]

/-- C33: with no further input, all waiting pulses are emitted. -/
theorem C33_drain (iw cw : Nat) (xs : List Nat) (h : PulsesFit iw cw 0 xs) (n : Nat) (hn : 2 ^ cw ≤ n) :
    (pmTrace iw cw {} (xs.map (fun x => (false, x)) ++ List.replicate n (false, 0))).countP
      PulseMerge.pulse = (xs.map (ones iw)).sum := by
  have hz : ∀ n q, q < 2 ^ cw → PulsesFit iw cw q (List.replicate n 0) := by
    intro n
    induction n with
    | zero => intro q _; trivial
    | succ n ih =>
      intro q hq
      rw [List.replicate_succ]
      refine ⟨by rw [ones_zero]; omega, ih _ (by rw [ones_zero]; omega)⟩
  have key : ∀ (xs : List Nat) (s : PulseMerge), s.count < 2 ^ cw → PulsesFit iw cw s.count xs →
      PulsesFit iw cw s.count (xs ++ List.replicate n 0) ∧
      (pmLast iw cw s (xs.map fun x => (false, x))).count < 2 ^ cw := by
    intro xs
    induction xs with
    | nil => intro s hs _; exact ⟨hz n _ hs, hs⟩
    | cons x xs ih =>
      intro s hs hf
      obtain ⟨f1, f2⟩ := hf
      have e : pmStep iw cw s (false, x) = ⟨s.count - 1 + ones iw x, decide (s.count > 0)⟩ := by
        rw [pmStep_eq iw cw s x hs, Nat.mod_eq_of_lt f1]
      have := ih (pmStep iw cw s (false, x)) (by rw [e]; exact f1) (by rw [e]; exact f2)
      rw [List.map_cons, pmLast_cons]
      refine ⟨⟨f1, ?_⟩, this.2⟩
      have h2 := this.1
      rw [e] at h2
      exact h2
  obtain ⟨k1, k2⟩ := key xs {} (Nat.two_pow_pos _) h
  have c := pm_conserve iw cw (xs ++ List.replicate n 0) {} (Nat.two_pow_pos _) k1
  have el : pmLast iw cw {} ((xs ++ List.replicate n 0).map fun x => (false, x)) =
      pmLast iw cw (pmLast iw cw {} (xs.map fun x => (false, x))) (List.replicate n (false, 0)) := by
    have : ∀ (is js : List (Bool × Nat)) (s : PulseMerge), pmLast iw cw s (is ++ js) =
        pmLast iw cw (pmLast iw cw s is) js := by
      intro is
      induction is with
      | nil => intro js s; rfl
      | cons i is ih => intro js s; rw [List.cons_append, pmLast_cons, pmLast_cons, ih]
    rw [List.map_append, this, List.map_replicate]
  rw [el, pm_drain iw cw n _ k2, List.map_append, List.map_append, List.map_replicate, List.map_replicate, ones_zero,
    List.sum_append, List.sum_replicate_nat] at c
  have z : ({} : PulseMerge).count = 0 := rfl
  rw [z] at c
  omega

example : PulsesFit 3 2 0 [0b111, 0b000, 0b010] := by simp [PulsesFit]; decide
example : pmTrace 3 2 {} ([0b111, 0b000, 0b010, 0, 0].map fun x => (false, x)) =
    [⟨3, false⟩, ⟨2, true⟩, ⟨2, true⟩, ⟨1, true⟩, ⟨0, true⟩] := by decide
/-- Pulses are lost when the counter wraps. -/
example : pmTrace 2 1 {} [(false, 0b11)] = [⟨0, false⟩] := by decide

/-! ### C34 -/

/-- C34, for TLPs of at most 512 DWORDs: after a clock edge the header and data outputs of each class
are the totals over the TLPs that started in that cycle (modulo the widths of the outputs). -/
theorem C34_totals_partial (n : Nat) (i : FcIn) (hr : i.rst = false)
    (h : ∀ seg < n, tlpStarts i seg = true →
      DefinedTlp (segHdr i seg / 2 ^ 120) ∧ announced (segHdr i seg) ≤ 512) :
    fcStep n i = ⟨headerTotal n i .p % 16, dataTotal n i .p % 512, headerTotal n i .np % 16,
      dataTotal n i .np % 512, headerTotal n i .cpl % 16, dataTotal n i .cpl % 512⟩ := by
  have hp := fcStep_eq n i .p hr h
  have hn := fcStep_eq n i .np hr h
  have hc := fcStep_eq n i .cpl hr h
  generalize fcStep n i = s at *
  obtain ⟨a, b, c, d, e, f⟩ := s
  simp only [fcH, fcD] at hp hn hc
  rw [hp.1, hp.2, hn.1, hn.2, hc.1, hc.2]

/-- C34, for TLPs of at most 512 DWORDs: with up to three segments the outputs cannot wrap. -/
theorem C34_exact_partial (n : Nat) (hn : n ≤ 3) (i : FcIn) (hr : i.rst = false)
    (h : ∀ seg < n, tlpStarts i seg = true →
      DefinedTlp (segHdr i seg / 2 ^ 120) ∧ announced (segHdr i seg) ≤ 512) :
    fcStep n i = ⟨headerTotal n i .p, dataTotal n i .p, headerTotal n i .np, dataTotal n i .np,
      headerTotal n i .cpl, dataTotal n i .cpl⟩ := by
  rw [C34_totals_partial n i hr h]
  have hd := fun c => dataTotal_le n i c (fun seg hs ht => (h seg hs ht).2)
  have hh := fun c => headerTotal_le n i c
  have h1 := hd .p; have h2 := hd .np; have h3 := hd .cpl
  have g1 := hh .p; have g2 := hh .np; have g3 := hh .cpl
  simp only [FcCount.mk.injEq]
  refine ⟨?_, ?_, ?_, ?_, ?_, ?_⟩ <;> exact Nat.mod_eq_of_lt (by omega)

/-- C34: the header class is right for every defined TLP type, and no other type is counted. -/
theorem C34_class (x : Nat) (hx : x < 256) :
    tlpFcType x = if DefinedTlp x then some (fcClass x) else none := by
  split
  · rename_i h; exact tlpFcType_spec x h
  · rename_i h; exact tlpFcType_undefined x hx h

/-- A memory write of 1024 DWORDs (length field 0), alone on a single-segment interface. -/
def exampleFcMax : FcIn := ⟨false, 0x60000000 <<< 96, 1, 1, true⟩

/-- A memory write of 600 DWORDs. -/
def exampleFc600 : FcIn := ⟨false, (0x60000000 + 600) <<< 96, 1, 1, true⟩

/-- C34 fails for longer TLPs: 128 data credits are counted for 1024 DWORDs (256 credits), and 22 for
600 DWORDs (150 credits), since only nine of the ten length bits are used. -/
theorem C34_length_fails :
    (fcStep 1 exampleFcMax).pd = 128 ∧ dataTotal 1 exampleFcMax .p = 256 ∧
    (fcStep 1 exampleFc600).pd = 22 ∧ dataTotal 1 exampleFc600 .p = 150 := by decide +kernel

/-- Two segments: a 10 DWORD memory write and a memory read. -/
def exampleFcIn : FcIn := ⟨false, 0x6000000a <<< 96 + 0x00000010 <<< 224, 3, 3, true⟩

example : (∀ seg < 2, tlpStarts exampleFcIn seg = true →
    DefinedTlp (segHdr exampleFcIn seg / 2 ^ 120) ∧ announced (segHdr exampleFcIn seg) ≤ 512) ∧
    (fcStep 2 exampleFcIn).pd = 3 := by decide +kernel

/-! ### C44 -/

/-- C44: the available-credit output never exceeds the capacity (and, being unsigned, is never
negative), whatever the inputs. -/
theorem C44_bounded (w : Nat) (is : List PtileIn) : (ptileRun w {} is).av ≤ (ptileRun w {} is).cap :=
  ptile_bound w is {} (Nat.le_refl _)

/-- C44, when the limit of this counter is presented in every cycle: after the first limit `cap` and
any history of limits and consumption that respects flow control, the available-credit output is the
limit registered before the last edge minus all credits consumed. The full property would allow limits
of other counters in between (`tx_cdts_limit_tdm_idx` not equal to `INDEX`). -/
theorem C44_accounting_partial (w cap : Nat) (hc : 0 < cap) (hw : cap < 2 ^ w) (is : List (Nat × Nat))
    (l d : Nat) (h : FlowOk cap 0 cap 0 (is ++ [(l, d)])) :
    let s := ptileRun w {} (⟨false, cap, true, 0⟩ ::
      (is ++ [(l, d)]).map fun p => ⟨false, p.1, true, p.2⟩)
    s.av + consumed (is ++ [(l, d)]) = lastLimit cap is ∧ s.cap = cap := by
  have e : ptileStep w {} ⟨false, cap, true, 0⟩ = ⟨cap, cap, cap, 0⟩ := by
    simp only [ptileStep, Bool.false_eq_true, if_false, if_true, Nat.mod_eq_of_lt hw, Nat.sub_zero,
      Nat.add_mod_right, Nat.zero_mod]
    rfl
  have := ptile_account w cap hc hw is 0 cap 0 ⟨cap, cap, cap, 0⟩ rfl (Nat.mod_eq_of_lt hw).symm
    rfl rfl (by omega) (by omega) l d h
  simp only [ptileRun, e]
  simpa using this

example : FlowOk 10 0 10 0 ([(10, 0), (10, 4), (12, 3)] ++ [(14, 2)]) := by
  simp [FlowOk]

/-- C44 fails when the limits are time multiplexed: the last increment is applied again in every cycle.
After a limit of 4, four credits are consumed, and still four are reported available. -/
theorem C44_accounting_fails :
    ∃ is : List PtileIn, (is.map PtileIn.limit).all (· == 4) ∧ (is.map PtileIn.dec).sum = 4 ∧
      (∀ n, (is[n]?.map PtileIn.dec).getD 0 ≤ (ptileRun 16 {} (is.take n)).av) ∧
      (ptileRun 16 {} is).av = 4 := by
  refine ⟨[⟨false, 4, true, 0⟩, ⟨false, 4, false, 0⟩, ⟨false, 4, false, 4⟩], by decide, by decide, ?_, by decide⟩
  intro n
  match n with
  | 0 => decide
  | 1 => decide
  | 2 => decide
  | n + 3 => simp

end Verif.Props
