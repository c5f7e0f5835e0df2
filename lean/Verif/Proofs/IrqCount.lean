import Verif.Proofs.IrqLive
/-! Helper lemmas for the interrupt rate limiter: nothing is presented without a request. -/
namespace Verif.Proofs
open Verif Verif.Model

/-- Requests for `x` inside. -/
def irqInside (x : Nat) (s : IrqLim) : Nat :=
  (if s.state = .irqIn ∧ s.irqIndex = x then 1 else 0) +
    (if s.state ≠ .init ∧ (s.mem x).pending = true then 1 else 0)

theorem irq_count_step (W x : Nat) (hx : x < 2 ^ W) (s : IrqLim) (i : IrqIn) (hr : i.rst = false) (hk : IrqOk W s)
    (hmk : IrqMemOk W s) :
    (if irqPresents W s i = true ∧ (irqStep W s i).outIndex = x then 1 else 0) + irqInside x (irqStep W s i) ≤
      irqInside x s + (if (i.inValid && s.inReady) = true ∧ i.inIndex % 2 ^ W = x then 1 else 0) := by
  have hpr := irq_presents W s i hr
  have hm := irq_move W s i hr
  generalize irqStep W s i = n at hm
  have np : ¬ ((s.state = .irqIn ∧ s.rdData.running = false ∨ s.state = .irqOut ∧ s.rdData.pending = true) ∧
      irqFree s i = true) → (if irqPresents W s i = true ∧ n.outIndex = x then 1 else 0) = 0 := by
    intro hh
    rw [if_neg]
    intro h; exact hh (hpr.mp h.1)
  unfold irqInside
  cases hm with
  | init h0 hm hs hc hr hv ho =>
    rw [np (by simp [h0])]
    have e : (n.state ≠ .init ∧ (n.mem x).pending = true) → False := by
      intro ⟨a1, a2⟩
      rcases hs with hs | hs
      · exact a1 hs.1
      · have e : s.curIndex + 1 = 2 ^ W := by
          have := hk.cur
          by_cases hh : s.curIndex + 1 = 2 ^ W
          · exact hh
          · rw [Nat.mod_eq_of_lt (by omega)] at hs; omega
        rw [hm, irqSet] at a2
        split at a2
        · simp at a2
        · rw [hmk.2.1 h0 x (by omega)] at a2; simp at a2
    rw [if_neg e, if_neg (by rcases hs with hs | hs <;> simp [hs.1])]
    omega
  | take h0 hi hs hm hxx hd hc hr ho =>
    rw [np (by simp [h0])]
    simp only [h0, hs, hm, hxx, hi.1, hi.2]
    simp
    omega
  | expire h0 hi hv hxx hs hm hd hc hr ho =>
    rw [np (by simp [h0])]; simp [h0, hs, hm]
  | scan h0 hi hxx hs hm hd hv hc hr ho =>
    rw [np (by simp [h0])]; simp [h0, hs, hm]
  | mark h0 hxx hs hm hv hc hr ho =>
    rw [np (by simp [h0, hxx])]
    by_cases e : s.irqIndex = x
    · simp [h0, hs, hm, irqSet, e]; omega
    · simp [h0, hs, hm, irqSet, e, Ne.symm e]
  | emit h0 hf hs hm hv hc hr ho =>
    by_cases e : s.irqIndex = x
    · rw [if_pos ⟨hpr.mpr ⟨h0, hf⟩, by rw [ho.2, e]⟩]
      rw [if_neg (by simp [hs]), if_neg (by simp [hm, irqSet, e, irqStart])]
      rcases h0 with h0 | h0
      · simp [h0.1, e]; omega
      · have h9 := hk.rd (fun hh => by simp [h0.1] at hh) (by simp [h0.1])
        rw [e] at h9
        rw [← h9]
        simp [h0]
    · rw [if_neg (by rw [ho.2]; simp [e])]
      rw [if_neg (by simp [hs])]
      have : (n.mem x) = s.mem x := by rw [hm, irqSet, if_neg (fun hh => e hh.symm)]
      rw [this]
      have hn : s.state ≠ .init := by rcases h0 with h0 | h0 <;> simp [h0.1]
      simp [hs, hn]; omega
  | stall h0 hf hs hm hd hc hr ho =>
    rw [np (by simp [hf])]; rw [hs, hm, hd.2]; omega
  | clear h0 hxx hs hm hv hc hr ho =>
    rw [np (by simp [h0, hxx])]
    by_cases e : s.irqIndex = x
    · simp [h0, hs, hm, irqSet, e]
    · simp [h0, hs, hm, irqSet, Ne.symm e]

theorem irq_count_run (W x : Nat) (hx : x < 2 ^ W) (is : List IrqIn) (s : IrqLim) (hr : ∀ i ∈ is, i.rst = false)
    (T : Nat) (hk : IrqOk W s) (hmk : IrqMemOk W s) :
    ((irqPresented W T s is).filter fun e => e.source == x).length ≤ irqInside x s + (irqAccepted W s is).count x := by
  induction is generalizing s T with
  | nil => simp [irqPresented]
  | cons i is ih =>
    have hri := hr i List.mem_cons_self
    have h1 := ih _ (fun j hj => hr j (List.mem_cons_of_mem _ hj)) (T + irqTicks s) (irq_ok W s i hri hk)
      (irq_mem_ok W s i hri hk hmk)
    have h2 := irq_count_step W x hx s i hri hk hmk
    rw [irqPresented, irqAccepted, List.filter_append, List.length_append, List.count_append]
    have e1 : ((if irqPresents W s i = true then
        [(⟨(irqStep W s i).outIndex, T, i.minInterval % 2 ^ 16⟩ : IrqEvent)] else []).filter
        fun e => e.source == x).length = if irqPresents W s i = true ∧ (irqStep W s i).outIndex = x then 1 else 0 := by
      by_cases a : irqPresents W s i = true
      · by_cases b : (irqStep W s i).outIndex = x
        · simp [a, b]
        · simp [a, b]
      · simp [a]
    have e2 : (if (i.inValid && s.inReady) = true then [i.inIndex % 2 ^ W] else []).count x =
        if (i.inValid && s.inReady) = true ∧ i.inIndex % 2 ^ W = x then 1 else 0 := by
      by_cases a : (i.inValid && s.inReady) = true
      · by_cases b : i.inIndex % 2 ^ W = x
        · simp [a, b]
        · simp [a, b]
      · simp [a]
    rw [e1, e2]
    omega

/-- Presented interrupts are handed over in order, each once. -/
theorem irq_handed (W : Nat) (is : List IrqIn) (s : IrqLim) (hr : ∀ i ∈ is, i.rst = false) (T : Nat) :
    (if s.outValid then [s.outIndex] else []) ++ (irqPresented W T s is).map (·.source) =
      irqHanded W s is ++ (if (irqRun W s is).outValid then [(irqRun W s is).outIndex] else []) := by
  induction is generalizing s T with
  | nil => simp [irqPresented, irqHanded]; rfl
  | cons i is ih =>
    have hri := hr i List.mem_cons_self
    have h1 := ih (irqStep W s i) (fun j hj => hr j (List.mem_cons_of_mem _ hj)) (T + irqTicks s)
    rw [irqPresented, irqHanded, irqRun, List.append_assoc, ← h1, List.map_append, ← List.append_assoc,
      ← List.append_assoc]
    congr 1
    have hpr := irq_presents W s i hri
    have hm := irq_move W s i hri
    have hp' : irqPresents W s i = ((irqStep W s i).outValid && (!s.outValid || i.outReady)) := rfl
    clear h1 ih
    generalize irqStep W s i = n at hm hp'
    have keep : n.outValid = (s.outValid && !i.outReady) ∧ n.outIndex = s.outIndex →
        (if s.outValid then [s.outIndex] else []) ++
          List.map (·.source) (if irqPresents W s i = true then
            [(⟨n.outIndex, T, i.minInterval % 2 ^ 16⟩ : IrqEvent)] else []) =
        (if (s.outValid && i.outReady) = true then [s.outIndex] else []) ++
          (if n.outValid = true then [n.outIndex] else []) := by
      intro ⟨a1, a2⟩
      rw [hp', a1, a2]
      cases s.outValid <;> cases i.outReady <;> simp
    cases hm with
    | init h0 hm hs hc hr hv ho => exact keep ho
    | take h0 hi hs hm hxx hd hc hr ho => exact keep ho
    | expire h0 hi hv hxx hs hm hd hc hr ho => exact keep ho
    | scan h0 hi hxx hs hm hd hv hc hr ho => exact keep ho
    | mark h0 hxx hs hm hv hc hr ho => exact keep ho
    | stall h0 hf hs hm hd hc hr ho => exact keep ho
    | clear h0 hxx hs hm hv hc hr ho => exact keep ho
    | emit h0 hf hs hm hv hc hr ho =>
      rw [hp', ho.1]
      unfold irqFree at hf
      revert hf
      cases s.outValid <;> cases i.outReady <;> simp

theorem irq_mem_reset (W : Nat) (s : IrqLim) (r : IrqIn) (hr : r.rst = true) :
    IrqMemOk W (irqStep W s r) := by
  refine ⟨?_, ?_, by simp [irqStep, hr], ?_, ?_⟩
  · intro y _ hh
    have : (irqStep W s r).state = .init := by simp [irqStep, hr]
    have h0 := hh this
    simp [irqStep, hr] at h0
  · intro _ y hy
    simp [irqStep, hr] at hy
  · simp [irqStep, hr]
  · simp [irqStep, hr]

end Verif.Proofs
