import Verif.Model.IrqRateLimit
/-! Helper lemmas for the interrupt rate limiter. -/
namespace Verif.Proofs
open Verif Verif.Model

/-- What an edge does, apart from prescaler and time. -/
inductive IrqMove (W : Nat) (s : IrqLim) (i : IrqIn) (n : IrqLim) : Prop
  | init (h : s.state = .init) (hm : n.mem = irqSet s.mem s.curIndex ⟨false, false, 0⟩)
      (hs : n.state = .init ∧ (s.curIndex + 1) % 2 ^ W ≠ 0 ∨ n.state = .idle ∧ (s.curIndex + 1) % 2 ^ W = 0)
      (hc : n.curIndex = (s.curIndex + 1) % 2 ^ W) (hr : n.inReady = false) (hv : n.rdValid = s.rdValid)
      (ho : n.outValid = (s.outValid && !i.outReady) ∧ n.outIndex = s.outIndex)
  | take (h : s.state = .idle) (hi : i.inValid = true ∧ s.inReady = true) (hs : n.state = .irqIn) (hm : n.mem = s.mem)
      (hx : n.irqIndex = i.inIndex % 2 ^ W) (hd : n.rdData = s.mem (i.inIndex % 2 ^ W)) (hc : n.curIndex = s.curIndex)
      (hr : n.inReady = false) (ho : n.outValid = (s.outValid && !i.outReady) ∧ n.outIndex = s.outIndex)
  | expire (h : s.state = .idle) (hi : (i.inValid && s.inReady) = false) (hv : s.rdValid = true)
      (hx : s.rdData.running = true ∧ irqExpired s.rdData.exp s.time = true) (hs : n.state = .irqOut)
      (hm : n.mem = s.mem) (hd : n.rdData = s.rdData ∧ n.irqIndex = s.irqIndex) (hc : n.curIndex = s.curIndex)
      (hr : n.inReady = false) (ho : n.outValid = (s.outValid && !i.outReady) ∧ n.outIndex = s.outIndex)
  | scan (h : s.state = .idle) (hi : (i.inValid && s.inReady) = false)
      (hx : (s.rdValid && s.rdData.running && irqExpired s.rdData.exp s.time) = false) (hs : n.state = .idle)
      (hm : n.mem = s.mem) (hd : n.rdData = s.mem s.curIndex ∧ n.irqIndex = s.curIndex) (hv : n.rdValid = true)
      (hc : n.curIndex = (s.curIndex + 1) % 2 ^ W) (hr : n.inReady = true)
      (ho : n.outValid = (s.outValid && !i.outReady) ∧ n.outIndex = s.outIndex)
  | mark (h : s.state = .irqIn) (hx : s.rdData.running = true) (hs : n.state = .idle)
      (hm : n.mem = irqSet s.mem s.irqIndex { s.rdData with pending := true, running := true }) (hv : n.rdValid = false)
      (hc : n.curIndex = s.curIndex) (hr : n.inReady = true)
      (ho : n.outValid = (s.outValid && !i.outReady) ∧ n.outIndex = s.outIndex)
  | emit (h : s.state = .irqIn ∧ s.rdData.running = false ∨ s.state = .irqOut ∧ s.rdData.pending = true)
      (hf : irqFree s i = true) (hs : n.state = .idle) (hm : n.mem = irqSet s.mem s.irqIndex (irqStart s i))
      (hv : n.rdValid = false) (hc : n.curIndex = s.curIndex) (hr : n.inReady = true)
      (ho : n.outValid = true ∧ n.outIndex = s.irqIndex)
  | stall (h : s.state = .irqIn ∧ s.rdData.running = false ∨ s.state = .irqOut ∧ s.rdData.pending = true)
      (hf : irqFree s i = false) (hs : n.state = s.state) (hm : n.mem = s.mem)
      (hd : n.rdData = s.rdData ∧ n.irqIndex = s.irqIndex) (hc : n.curIndex = s.curIndex) (hr : n.inReady = false)
      (ho : n.outValid = (s.outValid && !i.outReady) ∧ n.outIndex = s.outIndex)
  | clear (h : s.state = .irqOut) (hx : s.rdData.pending = false) (hs : n.state = .idle)
      (hm : n.mem = irqSet s.mem s.irqIndex ⟨false, false, 0⟩) (hv : n.rdValid = false)
      (hc : n.curIndex = s.curIndex) (hr : n.inReady = true)
      (ho : n.outValid = (s.outValid && !i.outReady) ∧ n.outIndex = s.outIndex)

theorem irq_tick_fields (s : IrqLim) (i : IrqIn) :
    (irqTick s i).state = s.state ∧ (irqTick s i).curIndex = s.curIndex ∧ (irqTick s i).irqIndex = s.irqIndex ∧
    (irqTick s i).rdData = s.rdData ∧ (irqTick s i).rdValid = s.rdValid ∧ (irqTick s i).mem = s.mem ∧
    (irqTick s i).outIndex = s.outIndex := by
  unfold irqTick; split <;> simp

theorem irq_move (W : Nat) (s : IrqLim) (i : IrqIn) (hr : i.rst = false) : IrqMove W s i (irqStep W s i) := by
  obtain ⟨t1, t2, t3, t4, t5, t6, t7⟩ := irq_tick_fields s i
  unfold irqStep irqNext
  simp only [hr, Bool.false_eq_true, if_false]
  cases hs : s.state with
  | init =>
    refine .init hs rfl ?_ rfl rfl t5 ⟨rfl, t7⟩
    by_cases h : (s.curIndex + 1) % 2 ^ W = 0
    · right; simp [h]
    · left; simp [h]
  | idle =>
    simp only
    cases h1 : (i.inValid && s.inReady) with
    | true =>
      simp only [Bool.and_eq_true] at h1
      simp only [if_true]
      exact .take hs h1 rfl t6 rfl rfl t2 rfl ⟨rfl, t7⟩
    | false =>
      simp only [Bool.false_eq_true, if_false]
      cases h2 : (s.rdValid && s.rdData.running && irqExpired s.rdData.exp s.time) with
      | true =>
        simp only [Bool.and_eq_true] at h2
        simp only [if_true]
        exact .expire hs h1 h2.1.1 ⟨h2.1.2, h2.2⟩ rfl t6 ⟨t4, t3⟩ t2 rfl ⟨rfl, t7⟩
      | false =>
        simp only [Bool.false_eq_true, if_false]
        exact .scan hs h1 h2 rfl t6 ⟨rfl, rfl⟩ rfl rfl rfl ⟨rfl, t7⟩
  | irqIn =>
    simp only
    cases h1 : s.rdData.running with
    | true =>
      simp only [if_true]
      exact .mark hs h1 rfl rfl rfl t2 rfl ⟨rfl, t7⟩
    | false =>
      simp only [Bool.false_eq_true, if_false]
      cases hf : irqFree s i with
      | true =>
        simp only [if_true]
        exact .emit (.inl ⟨hs, h1⟩) hf rfl rfl rfl t2 rfl ⟨rfl, rfl⟩
      | false =>
        simp only [Bool.false_eq_true, if_false]
        exact .stall (.inl ⟨hs, h1⟩) hf hs.symm t6 ⟨t4, t3⟩ t2 rfl ⟨rfl, t7⟩
  | irqOut =>
    simp only
    cases h1 : s.rdData.pending with
    | false =>
      simp only [Bool.false_eq_true, if_false]
      exact .clear hs h1 rfl rfl rfl t2 rfl ⟨rfl, t7⟩
    | true =>
      simp only [if_true]
      cases hf : irqFree s i with
      | true =>
        simp only [if_true]
        exact .emit (.inr ⟨hs, h1⟩) hf rfl rfl rfl t2 rfl ⟨rfl, rfl⟩
      | false =>
        simp only [Bool.false_eq_true, if_false]
        exact .stall (.inr ⟨hs, h1⟩) hf hs.symm t6 ⟨t4, t3⟩ t2 rfl ⟨rfl, t7⟩

theorem irq_next_time (W : Nat) (o s : IrqLim) (i : IrqIn) :
    (irqNext W o s i).time = s.time ∧ (irqNext W o s i).preCount = s.preCount := by
  unfold irqNext irqEmit; repeat' split
  all_goals simp

/-- Prescaler and time. -/
theorem irq_time (W : Nat) (s : IrqLim) (i : IrqIn) (hr : i.rst = false) :
    (irqStep W s i).time = (if s.preCount = 0 then (s.time + 1) % 2 ^ 17 else s.time) ∧
    (irqStep W s i).preCount = (if s.preCount = 0 then i.prescale % 2 ^ 16 else s.preCount - 1) := by
  unfold irqStep
  simp only [hr, Bool.false_eq_true, if_false]
  rw [(irq_next_time ..).1, (irq_next_time ..).2]
  unfold irqTick
  by_cases h : s.preCount = 0 <;> simp [h]

/-- The registers agree: the word last read is that in the memory. -/
structure IrqOk (W : Nat) (s : IrqLim) : Prop where
  rdy : s.inReady = true → s.state = .idle
  rd : (s.state = .idle → s.rdValid = true) → s.state ≠ .init → s.rdData = s.mem s.irqIndex
  cur : s.curIndex < 2 ^ W
  rv : s.state = .init → s.rdValid = false

theorem irq_ok (W : Nat) (s : IrqLim) (i : IrqIn) (hr : i.rst = false) (h : IrqOk W s) : IrqOk W (irqStep W s i) := by
  have hp := Nat.two_pow_pos W
  have hm := irq_move W s i hr
  generalize irqStep W s i = n at hm
  cases hm with
  | init h0 hm hs hc hr hv ho =>
    refine ⟨by simp [hr], ?_, by rw [hc]; exact Nat.mod_lt _ hp, by rw [hv]; exact fun _ => h.rv h0⟩
    intro h1 h2
    rcases hs with hs | hs
    · exact absurd hs.1 h2
    · have := h1 hs.1
      rw [hv, h.rv h0] at this; simp at this
  | take h0 hi hs hm hx hd hc hr ho =>
    exact ⟨by simp [hr], fun _ _ => by rw [hd, hm, hx], by rw [hc]; exact h.cur, by simp [hs]⟩
  | expire h0 hi hv hx hs hm hd hc hr ho =>
    exact ⟨by simp [hr], fun _ _ => by rw [hd.1, hm, hd.2]; exact h.rd (fun _ => hv) (by simp [h0]),
      by rw [hc]; exact h.cur, by simp [hs]⟩
  | scan h0 hi hx hs hm hd hv hc hr ho =>
    exact ⟨fun _ => hs, fun _ _ => by rw [hd.1, hm, hd.2], by rw [hc]; exact Nat.mod_lt _ hp, by simp [hs]⟩
  | mark h0 hx hs hm hv hc hr ho =>
    exact ⟨fun _ => hs, fun h1 _ => by have := h1 hs; rw [hv] at this; simp at this, by rw [hc]; exact h.cur, by simp [hs]⟩
  | emit h0 hf hs hm hv hc hr ho =>
    exact ⟨fun _ => hs, fun h1 _ => by have := h1 hs; rw [hv] at this; simp at this, by rw [hc]; exact h.cur, by simp [hs]⟩
  | stall h0 hf hs hm hd hc hr ho =>
    have hn : s.state ≠ .init ∧ s.state ≠ .idle := by rcases h0 with h0 | h0 <;> simp [h0.1]
    exact ⟨by simp [hr], fun _ _ => by rw [hd.1, hm, hd.2]; exact h.rd (fun hh => absurd hh hn.2) hn.1,
      by rw [hc]; exact h.cur, by rw [hs]; exact fun hh => absurd hh hn.1⟩
  | clear h0 hx hs hm hv hc hr ho =>
    exact ⟨fun _ => hs, fun h1 _ => by have := h1 hs; rw [hv] at this; simp at this, by rw [hc]; exact h.cur, by simp [hs]⟩

theorem irq_ok_reset (W : Nat) (s : IrqLim) (r : IrqIn) (hr : r.rst = true) : IrqOk W (irqStep W s r) := by
  unfold irqStep
  simp only [hr, if_true]
  exact ⟨by simp, by simp, Nat.two_pow_pos W, by simp⟩

/-- When an edge presents an interrupt. -/
theorem irq_presents (W : Nat) (s : IrqLim) (i : IrqIn) (hr : i.rst = false) :
    irqPresents W s i = true ↔
      (s.state = .irqIn ∧ s.rdData.running = false ∨ s.state = .irqOut ∧ s.rdData.pending = true) ∧
        irqFree s i = true := by
  unfold irqPresents
  have hm := irq_move W s i hr
  generalize irqStep W s i = n at hm
  have k : ∀ (o r : Bool), ((o && !r) && (!o || r)) = false := by decide
  cases hm with
  | init h0 hm hs hc hr hv ho => rw [ho.1, k]; simp [h0]
  | take h0 hi hs hm hx hd hc hr ho => rw [ho.1, k]; simp [h0]
  | expire h0 hi hv hx hs hm hd hc hr ho => rw [ho.1, k]; simp [h0]
  | scan h0 hi hx hs hm hd hv hc hr ho => rw [ho.1, k]; simp [h0]
  | mark h0 hx hs hm hv hc hr ho => rw [ho.1, k]; simp [h0, hx]
  | emit h0 hf hs hm hv hc hr ho =>
    rw [ho.1]; simp only [h0, hf, true_and, and_self, iff_true, Bool.true_and]; exact hf
  | stall h0 hf hs hm hd hc hr ho => rw [ho.1, k]; simp [hf]
  | clear h0 hx hs hm hv hc hr ho => rw [ho.1, k]; simp [h0, hx]

/-- What is presented is the interrupt being handled. -/
theorem irq_presents_index (W : Nat) (s : IrqLim) (i : IrqIn) (hr : i.rst = false) (hp : irqPresents W s i = true) :
    (irqStep W s i).outIndex = s.irqIndex ∧ (irqStep W s i).mem = irqSet s.mem s.irqIndex (irqStart s i) ∧
      (irqStep W s i).state = .idle := by
  have h := (irq_presents W s i hr).mp hp
  have hm := irq_move W s i hr
  generalize irqStep W s i = n at hm
  cases hm with
  | init h0 hm hs hc hr hv ho => simp [h0] at h
  | take h0 hi hs hm hx hd hc hr ho => simp [h0] at h
  | expire h0 hi hv hx hs hm hd hc hr ho => simp [h0] at h
  | scan h0 hi hx hs hm hd hv hc hr ho => simp [h0] at h
  | mark h0 hx hs hm hv hc hr ho => simp [h0, hx] at h
  | emit h0 hf hs hm hv hc hr ho => exact ⟨ho.2, hm, hs⟩
  | stall h0 hf hs hm hd hc hr ho => simp [hf] at h
  | clear h0 hx hs hm hv hc hr ho => simp [h0, hx] at h

end Verif.Proofs
