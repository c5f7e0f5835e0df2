import Verif.Proofs.IrqRateLimit
import Verif.Spec.IrqRateLimit
/-! Helper lemmas for the interrupt rate limiter: the minimum interval is kept. -/
namespace Verif.Proofs
open Verif Verif.Model Verif.Spec

/-- The event, if any, of an edge. -/
def irqEvents (W : Nat) (t : Nat) (s : IrqLim) (i : IrqIn) : List IrqEvent :=
  if irqPresents W s i then [⟨(irqStep W s i).outIndex, t, i.minInterval % 2 ^ 16⟩] else []

structure IrqSafe (W : Nat) (s : IrqLim) (T : Nat) (evs : List IrqEvent) : Prop where
  ok : IrqOk W s
  time : s.time = T % 2 ^ 17
  some : evs ≠ [] → s.state ≠ .init
  small : ∀ e ∈ evs, e.interval < 2 ^ 16 ∧ e.tick ≤ T
  run : ∀ e ∈ evs, e.interval ≠ 0 → NoWrap e → T ≤ e.tick + e.interval →
    (s.mem e.source).running = true ∧ (s.mem e.source).exp = e.tick % 2 ^ 17 + e.interval
  out : s.state = .irqOut → ∀ e ∈ evs, e.source = s.irqIndex → e.interval ≠ 0 → NoWrap e → e.tick + e.interval < T
  spaced : evs.Pairwise fun e f => NoWrap e → Spaced e f

theorem not_expired (T t m : Nat) (hm : m < 2 ^ 16) (h1 : t ≤ T) (h2 : T ≤ t + m) (h3 : t % 2 ^ 17 + m < 2 ^ 17) :
    irqExpired (t % 2 ^ 17 + m) (T % 2 ^ 17) = false := by
  unfold irqExpired
  have e : T % 2 ^ 17 = t % 2 ^ 17 + (T - t) := by omega
  rw [e]
  have : (t % 2 ^ 17 + m + 2 ^ 32 - (t % 2 ^ 17 + (T - t))) % 2 ^ 32 / 2 ^ 16 = 0 := by omega
  rw [this]; rfl

theorem irq_safe_step (W : Nat) (s : IrqLim) (i : IrqIn) (hr : i.rst = false) (T : Nat) (evs : List IrqEvent)
    (h : IrqSafe W s T evs) : IrqSafe W (irqStep W s i) (T + irqTicks s) (evs ++ irqEvents W T s i) := by
  have hok := irq_ok W s i hr h.ok
  have htime := (irq_time W s i hr).1
  have hT : (irqStep W s i).time = (T + irqTicks s) % 2 ^ 17 := by
    rw [htime, h.time, irqTicks]; split <;> omega
  have hpi := irq_presents_index W s i hr
  have hpr := irq_presents W s i hr
  have hm := irq_move W s i hr
  unfold irqEvents
  generalize irqStep W s i = n at hm hok hT hpi
  have hle : ∀ e ∈ evs, e.interval < 2 ^ 16 ∧ e.tick ≤ T + irqTicks s := fun e he =>
    ⟨(h.small e he).1, Nat.le_trans (h.small e he).2 (Nat.le_add_right ..)⟩
  -- an edge that presents nothing
  have quiet : irqPresents W s i = false → (evs ≠ [] → n.state ≠ .init) →
      (∀ e ∈ evs, e.interval ≠ 0 → NoWrap e → T ≤ e.tick + e.interval →
        (n.mem e.source).running = true ∧ (n.mem e.source).exp = e.tick % 2 ^ 17 + e.interval) →
      (n.state = .irqOut → ∀ e ∈ evs, e.source = n.irqIndex → e.interval ≠ 0 → NoWrap e → e.tick + e.interval < T) →
      IrqSafe W n (T + irqTicks s)
        (evs ++ if irqPresents W s i = true then [⟨n.outIndex, T, i.minInterval % 2 ^ 16⟩] else []) := by
    intro hq h1 h2 h3
    rw [hq]
    simp only [Bool.false_eq_true, if_false, List.append_nil]
    refine ⟨hok, hT, h1, hle, ?_, ?_, h.spaced⟩
    · intro e he h4 h5 h6
      exact h2 e he h4 h5 (by omega)
    · intro h4 e he h5 h6 h7
      have := h3 h4 e he h5 h6 h7
      omega
  have np : ¬ ((s.state = .irqIn ∧ s.rdData.running = false ∨ s.state = .irqOut ∧ s.rdData.pending = true) ∧
      irqFree s i = true) → irqPresents W s i = false := by
    intro hh
    cases hx : irqPresents W s i with
    | false => rfl
    | true => exact absurd (hpr.mp hx) hh
  cases hm with
  | init h0 hm hs hc hr hv ho =>
    have hev : evs = [] := by
      cases evs with
      | nil => rfl
      | cons e es => exact absurd h0 (h.some (by simp))
    subst hev
    exact quiet (np (by simp [h0])) (by simp) (by simp) (by simp)
  | take h0 hi hs hm hx hd hc hr ho =>
    exact quiet (np (by simp [h0])) (by simp [hs]) (by rw [hm]; exact h.run) (by simp [hs])
  | expire h0 hi hv hx hs hm hd hc hr ho =>
    refine quiet (np (by simp [h0])) (by simp [hs]) (by rw [hm]; exact h.run) ?_
    intro _ e he h4 h5 h6
    rcases Nat.lt_or_ge (e.tick + e.interval) T with h7 | h7
    · exact h7
    · exfalso
      have h8 := h.run e he h5 h6 h7
      have h9 := h.ok.rd (fun _ => hv) (by simp [h0])
      rw [h4, hd.2, ← h9] at h8
      have h10 := not_expired T e.tick e.interval (h.small e he).1 (h.small e he).2 h7 h6
      rw [← h8.2, ← h.time, hx.2] at h10
      simp at h10
  | scan h0 hi hx hs hm hd hv hc hr ho =>
    exact quiet (np (by simp [h0])) (by simp [hs]) (by rw [hm]; exact h.run) (by simp [hs])
  | mark h0 hx hs hm hv hc hr ho =>
    refine quiet (np (by simp [h0, hx])) (by simp [hs]) ?_ (by simp [hs])
    intro e he h4 h5 h6
    have h7 := h.run e he h4 h5 h6
    rw [hm, irqSet]
    split
    · rename_i hh
      have h9 := h.ok.rd (fun hh => by simp [h0] at hh) (by simp [h0])
      rw [hh, ← h9] at h7
      exact ⟨rfl, h7.2⟩
    · exact h7
  | stall h0 hf hs hm hd hc hr ho =>
    have hn : s.state ≠ .init := by rcases h0 with h0 | h0 <;> simp [h0.1]
    refine quiet (np (by simp [hf])) (by rw [hs]; exact fun _ => hn) (by rw [hm]; exact h.run) ?_
    rw [hs, hd.2]; exact h.out
  | clear h0 hx hs hm hv hc hr ho =>
    refine quiet (np (by simp [h0, hx])) (by simp [hs]) ?_ (by simp [hs])
    intro e he h4 h5 h6
    have h7 := h.run e he h4 h5 h6
    rw [hm, irqSet]
    split
    · rename_i hh
      have := h.out h0 e he hh h4 h5
      omega
    · exact h7
  | emit h0 hf hs hm hv hc hr ho =>
    have hp : irqPresents W s i = true := hpr.mpr ⟨h0, hf⟩
    rw [hp]
    simp only [if_true]
    -- earlier interrupts of this source are past their deadline
    have hpast : ∀ e ∈ evs, e.source = s.irqIndex → e.interval ≠ 0 → NoWrap e → e.tick + e.interval < T := by
      intro e he h4 h5 h6
      rcases h0 with h0 | h0
      · rcases Nat.lt_or_ge (e.tick + e.interval) T with h7 | h7
        · exact h7
        · exfalso
          have h8 := h.run e he h5 h6 h7
          have h9 := h.ok.rd (fun hh => by simp [h0] at hh) (by simp [h0])
          rw [h4, ← h9, h0.2] at h8
          simp at h8
      · exact h.out h0.1 e he h4 h5 h6
    refine ⟨hok, hT, by simp [hs], ?_, ?_, by simp [hs], ?_⟩
    · intro e he
      rcases List.mem_append.mp he with he | he
      · exact hle e he
      · rw [List.mem_singleton] at he
        subst he
        exact ⟨Nat.mod_lt _ (by decide), Nat.le_add_right ..⟩
    · intro e he h4 h5 h6
      rcases List.mem_append.mp he with he | he
      · rw [hm, irqSet]
        split
        · rename_i hh
          have := hpast e he hh h4 h5
          omega
        · exact h.run e he h4 h5 (by omega)
      · rw [List.mem_singleton] at he
        subst he
        rw [hm, irqSet, if_pos (by simp [ho.2])]
        simp only [NoWrap] at h4 h5
        simp only [irqStart, h.time]
        refine ⟨by simp [h4], Nat.mod_eq_of_lt h5⟩
    · rw [List.pairwise_append]
      refine ⟨h.spaced, List.pairwise_singleton .., ?_⟩
      intro e he f hf' h5 h6 h7
      rw [List.mem_singleton] at hf'
      subst hf'
      exact hpast e he (by rw [h6, ho.2]) h7 h5

theorem irq_safe_run (W : Nat) (is : List IrqIn) (s : IrqLim) (hr : ∀ i ∈ is, i.rst = false) (T : Nat)
    (evs : List IrqEvent) (h : IrqSafe W s T evs) :
    ((evs ++ irqPresented W T s is).Pairwise fun e f => NoWrap e → Spaced e f) := by
  induction is generalizing s T evs with
  | nil => simpa [irqPresented] using h.spaced
  | cons i is ih =>
    have := ih _ (fun j hj => hr j (List.mem_cons_of_mem _ hj)) _ _ (irq_safe_step W s i (hr i List.mem_cons_self) T evs h)
    rw [List.append_assoc] at this
    exact this

end Verif.Proofs
