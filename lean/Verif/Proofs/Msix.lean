import Verif.Spec.Msix
/-! Helper lemmas for the MSI-X module: the interrupt state machine. -/
namespace Verif.Proofs
open Verif Verif.Model Verif.Spec

/-- What an edge without reset does to the interrupt part. -/
inductive MsixMove (c : MsixCfg) (t : Nat → RamWord) (s : MsixIrq) (i : MsixIn) (n : MsixIrq) : Prop
  | take (h : s.state = .idle) (hi : i.irqValid = true ∧ s.irqReady = true) (hs : n.state = .readTbl1)
      (hx : n.irqIndex = i.irqIndex % 2 ^ c.idxW) (ht : n.tblRd = t (i.irqIndex % 2 ^ c.idxW * 2))
      (hb : n.pbaRd = s.pba (i.irqIndex % 2 ^ c.idxW / 64)) (hp : n.pba = s.pba) (hr : n.irqReady = false)
      (ho : n.tlpValid = (s.tlpValid && !i.tlpReady))
  | found (h : s.state = .idle) (hi : i.irqValid = false) (he : s.enable = true ∧ s.mask = false)
      (hf : s.pbaRd.testBit (s.irqIndex % 64) = true) (hs : n.state = .readTbl1)
      (hx : n.irqIndex = s.irqIndex) (ht : n.tblRd = t (s.irqIndex * 2)) (hb : n.pbaRd = s.pba (s.irqIndex / 64))
      (hp : n.pba = s.pba) (hr : n.irqReady = false) (ho : n.tlpValid = (s.tlpValid && !i.tlpReady))
  | scan (h : s.state = .idle) (hi : i.irqValid = false) (he : s.enable = true ∧ s.mask = false)
      (hf : s.pbaRd.testBit (s.irqIndex % 64) = false) (hs : n.state = .idle)
      (hx : n.irqIndex = if s.pbaRd ≠ 0 then (s.irqIndex + 1) % 2 ^ c.idxW else msixNextGroup c s.irqIndex)
      (hb : n.pbaRd = s.pba (n.irqIndex / 64)) (hp : n.pba = s.pba) (ho : n.tlpValid = (s.tlpValid && !i.tlpReady))
  | keep (h : s.state = .idle) (hi : i.irqValid = true ∧ s.irqReady = false ∨ (s.enable && !s.mask) = false)
      (hs : n.state = .idle) (hx : n.irqIndex = s.irqIndex)
      (hb : n.pbaRd = s.pbaRd) (hp : n.pba = s.pba) (ho : n.tlpValid = (s.tlpValid && !i.tlpReady))
      (ha : (i.irqValid && s.irqReady) = false)
  | read1 (h : s.state = .readTbl1) (hs : n.state = .readTbl2) (hx : n.irqIndex = s.irqIndex)
      (ht : n.tblRd = t (s.irqIndex * 2 + 1)) (hv : n.vecAddr = wordNat s.tblRd 8 / 4 * 4)
      (hb : n.pbaRd = s.pbaRd) (hp : n.pba = s.pba) (hr : n.irqReady = false)
      (ho : n.tlpValid = (s.tlpValid && !i.tlpReady))
  | pass (h : s.state = .readTbl2)
      (hm : s.enable = true ∧ s.mask = false ∧ (wordNat s.tblRd 8).testBit 32 = false) (hs : n.state = .sendTlp)
      (hx : n.irqIndex = s.irqIndex) (hv : n.vecAddr = s.vecAddr ∧ n.vecData = wordNat s.tblRd 4)
      (hb : n.pbaRd = s.pbaRd) (hp : n.pba = s.pba) (hr : n.irqReady = false)
      (ho : n.tlpValid = (s.tlpValid && !i.tlpReady))
  | masked (h : s.state = .readTbl2)
      (hm : (s.enable && !s.mask && !(wordNat s.tblRd 8).testBit 32) = false) (hs : n.state = .idle)
      (hx : n.irqIndex = s.irqIndex) (hb : n.pbaRd = s.pbaRd)
      (hp : n.pba = msixPbaWrite c s.pba s.irqIndex (setBit s.pbaRd (s.irqIndex % 64)))
      (ho : n.tlpValid = (s.tlpValid && !i.tlpReady))
  | send (h : s.state = .sendTlp) (hf : (!s.tlpValid || i.tlpReady) = true) (hs : n.state = .idle)
      (hx : n.irqIndex = (s.irqIndex + 1) % 2 ^ c.idxW) (hb : n.pbaRd = s.pbaRd)
      (hp : n.pba = msixPbaWrite c s.pba s.irqIndex (clearBit s.pbaRd (s.irqIndex % 64)))
      (ho : n.tlpValid = true) (ht : n.tlp = msixHdr c s.vecAddr i.requesterId s.vecData)
  | wait (h : s.state = .sendTlp) (hf : (!s.tlpValid || i.tlpReady) = false) (hs : n.state = .sendTlp)
      (hx : n.irqIndex = s.irqIndex) (hv : n.vecAddr = s.vecAddr ∧ n.vecData = s.vecData) (hb : n.pbaRd = s.pbaRd)
      (hp : n.pba = s.pba) (hr : n.irqReady = false) (ho : n.tlpValid = (s.tlpValid && !i.tlpReady))

theorem msix_move (c : MsixCfg) (t : Nat → RamWord) (s : MsixIrq) (i : MsixIn) (hr : i.rst = false) :
    MsixMove c t s i (msixIrqStep c t s i) ∧ (msixIrqStep c t s i).enable = i.enable ∧
      (msixIrqStep c t s i).mask = i.mask := by
  unfold msixIrqStep msixIrqNext
  simp only [hr, Bool.false_eq_true, if_false]
  cases hs : s.state with
  | idle =>
    simp only
    cases h1 : (i.irqValid && s.irqReady) with
    | true =>
      simp only [Bool.and_eq_true] at h1
      simp only [if_true]
      exact ⟨.take hs h1 rfl rfl rfl rfl rfl rfl rfl, by simp, by simp⟩
    | false =>
      simp only [Bool.false_eq_true, if_false]
      cases h2 : (!i.irqValid && s.enable && !s.mask) with
      | true =>
        simp only [Bool.and_eq_true, Bool.not_eq_true'] at h2
        simp only [if_true]
        cases h3 : s.pbaRd.testBit (s.irqIndex % 64) with
        | true =>
          simp only [if_true]
          exact ⟨.found hs h2.1.1 ⟨h2.1.2, h2.2⟩ h3 rfl rfl rfl rfl rfl rfl rfl, by simp, by simp⟩
        | false =>
          simp only [Bool.false_eq_true, if_false]
          refine ⟨.scan hs h2.1.1 ⟨h2.1.2, h2.2⟩ h3 rfl ?_ rfl rfl rfl, by simp, by simp⟩
          by_cases h4 : s.pbaRd = 0 <;> simp [h4]
      | false =>
        simp only [Bool.false_eq_true, if_false]
        refine ⟨.keep hs ?_ rfl rfl rfl rfl rfl h1, by simp, by simp⟩
        cases hv : i.irqValid with
        | true => rw [hv] at h1; left; simpa using h1
        | false => rw [hv] at h2; right; simpa using h2
  | readTbl1 => exact ⟨.read1 hs rfl rfl rfl rfl rfl rfl rfl rfl, by simp, by simp⟩
  | readTbl2 =>
    simp only
    cases h1 : (s.enable && !s.mask && !(wordNat s.tblRd 8).testBit 32) with
    | true =>
      have h1' := h1
      simp only [Bool.and_eq_true, Bool.not_eq_true'] at h1'
      simp only [if_true]
      exact ⟨.pass hs ⟨h1'.1.1, h1'.1.2, h1'.2⟩ rfl rfl ⟨rfl, rfl⟩ rfl rfl rfl rfl, by simp, by simp⟩
    | false =>
      simp only [Bool.false_eq_true, if_false]
      exact ⟨.masked hs h1 rfl rfl rfl rfl rfl, by simp, by simp⟩
  | sendTlp =>
    simp only
    cases h1 : (!s.tlpValid || i.tlpReady) with
    | true =>
      simp only [if_true]
      exact ⟨.send hs h1 rfl rfl rfl rfl rfl rfl, by simp, by simp⟩
    | false =>
      simp only [Bool.false_eq_true, if_false]
      exact ⟨.wait hs h1 rfl rfl ⟨rfl, rfl⟩ rfl rfl rfl rfl, by simp, by simp⟩

/-- A TLP is newly presented exactly when the state machine sends. -/
theorem msix_presents (c : MsixCfg) (s : Msix) (i : MsixIn) (hr : i.rst = false) :
    msixPresents c s i = true ↔ s.irq.state = .sendTlp ∧ (!s.irq.tlpValid || i.tlpReady) = true := by
  unfold msixPresents msixStep
  have hm := (msix_move c s.axil.tbl s.irq i hr).1
  generalize msixIrqStep c s.axil.tbl s.irq i = n at hm
  simp only
  have k : ∀ (o r : Bool), ((o && !r) && (!o || r)) = false := by decide
  cases hm with
  | take h hi hs hx ht hb hp hr ho => rw [ho, k]; simp [h]
  | found h hi he hf hs hx ht hb hp hr ho => rw [ho, k]; simp [h]
  | scan h hi he hf hs hx hb hp ho => rw [ho, k]; simp [h]
  | keep h hi hs hx hb hp ho ha => rw [ho, k]; simp [h]
  | read1 h hs hx ht hv hb hp hr ho => rw [ho, k]; simp [h]
  | pass h hm hs hx hv hb hp hr ho => rw [ho, k]; simp [h]
  | masked h hm hs hx hb hp ho => rw [ho, k]; simp [h]
  | send h hf hs hx hb hp ho ht => rw [ho, hf]; simp [h]
  | wait h hf hs hx hv hb hp hr ho => rw [ho, k]; simp [hf]

theorem pbaWrite_low (c : MsixCfg) (p : Nat → Nat) (idx v : Nat) (h : idx < 32) :
    msixPbaWrite c p idx v = fun b => if b = 0 then v else p b := by
  unfold msixPbaWrite msixPbaWrAddr
  rw [Nat.div_eq_of_lt h, Nat.zero_mod, Nat.zero_mod]
  split <;> simp_all

/-- Requests below 32 only: the pending bit array is one word, and agrees with the unanswered requests. -/
structure MsixInv (c : MsixCfg) (s : Msix) (u : Nat → Bool) : Prop where
  idx : s.irq.irqIndex < 2 ^ c.idxW
  rdy : s.irq.irqReady = true → s.irq.state = .idle
  busy : s.irq.state ≠ .idle → s.irq.irqIndex < 32 ∧ s.irq.pbaRd = s.irq.pba 0 ∧ u s.irq.irqIndex = true
  hi : ∀ b, b ≠ 0 → s.irq.pba b = 0
  lo : ∀ b, 32 ≤ b → (s.irq.pba 0).testBit b = false
  stale : s.irq.state = .idle → s.irq.irqIndex < 64 → s.irq.pbaRd.testBit s.irq.irqIndex = true →
    (s.irq.pba 0).testBit s.irq.irqIndex = true
  far : s.irq.state = .idle → 64 ≤ s.irq.irqIndex → s.irq.pbaRd = 0
  set : ∀ x, (s.irq.pba 0).testBit x = true → u x = true
  owed : ∀ x, u x = true → (s.irq.pba 0).testBit x = true ∨ (s.irq.state ≠ .idle ∧ s.irq.irqIndex = x)

theorem msix_inv_step (c : MsixCfg) (hW : 1 ≤ c.idxW) (s : Msix) (i : MsixIn) (hr : i.rst = false)
    (hx : i.irqValid = true → i.irqIndex % 2 ^ c.idxW < 32) (u : Nat → Bool) (h : MsixInv c s u) :
    MsixInv c (msixStep c s i) (unansweredNext c s i u) := by
  have hP := Nat.two_pow_pos c.idxW
  have h2 : 2 ≤ 2 ^ c.idxW := by
    calc 2 = 2 ^ 1 := rfl
      _ ≤ 2 ^ c.idxW := Nat.pow_le_pow_right (by decide) hW
  have hpr := msix_presents c s i hr
  have hm := (msix_move c s.axil.tbl s.irq i hr).1
  unfold unansweredNext
  have e : (msixStep c s i).irq = msixIrqStep c s.axil.tbl s.irq i := rfl
  generalize msixStep c s i = n at e
  rw [← e] at hm
  clear e
  have np : ¬ (s.irq.state = .sendTlp ∧ (!s.irq.tlpValid || i.tlpReady) = true) → msixPresents c s i = false := by
    intro hh
    cases hx : msixPresents c s i with
    | false => rfl
    | true => exact absurd (hpr.mp hx) hh
  have na : s.irq.state ≠ .idle → msixAccepts s i = false := by
    intro hh
    unfold msixAccepts
    cases hq : s.irq.irqReady with
    | false => simp
    | true => exact absurd (h.rdy hq) hh
  cases hm with
  | take h0 hi hs hxi ht hb hp hr ho =>
    rw [np (by simp [h0])]
    have hxx := hx hi.1
    have ha : msixAccepts s i = true := by simp [msixAccepts, hi.1, hi.2]
    rw [ha]
    simp only [Bool.false_eq_true, false_and, if_false, true_and]
    refine ⟨by rw [hxi]; exact Nat.mod_lt _ hP, by simp [hr], ?_, by rw [hp]; exact h.hi, by rw [hp]; exact h.lo,
      by simp [hs], by simp [hs], ?_, ?_⟩
    · intro _
      rw [hxi, hb, hp, Nat.div_eq_of_lt (by omega : i.irqIndex % 2 ^ c.idxW < 64)]
      exact ⟨hxx, rfl, by simp⟩
    · intro x hxp
      rw [hp] at hxp
      split
      · rfl
      · exact h.set x hxp
    · intro x hxu
      rw [hp, hxi, hs]
      split at hxu
      · rename_i hh; exact .inr ⟨by simp, hh⟩
      · rcases h.owed x hxu with h1 | h1
        · exact .inl h1
        · exact absurd h0 h1.1
  | found h0 hi he hf hs hxi ht hb hp hr ho =>
    rw [np (by simp [h0])]
    have ha : msixAccepts s i = false := by simp [msixAccepts, hi]
    rw [ha]
    simp only [Bool.false_eq_true, false_and, if_false]
    have hlt : s.irq.irqIndex < 64 := by
      rcases Nat.lt_or_ge s.irq.irqIndex 64 with h1 | h1
      · exact h1
      · rw [h.far h0 h1] at hf; simp at hf
    rw [Nat.mod_eq_of_lt hlt] at hf
    have hset := h.stale h0 hlt hf
    have h32 : s.irq.irqIndex < 32 := by
      rcases Nat.lt_or_ge s.irq.irqIndex 32 with h1 | h1
      · exact h1
      · rw [h.lo _ h1] at hset; simp at hset
    refine ⟨by rw [hxi]; exact h.idx, by simp [hr], ?_, by rw [hp]; exact h.hi, by rw [hp]; exact h.lo,
      by simp [hs], by simp [hs], by rw [hp]; exact h.set, ?_⟩
    · intro _
      rw [hxi, hb, hp, Nat.div_eq_of_lt hlt]
      exact ⟨h32, rfl, h.set _ hset⟩
    · intro x hxu
      rw [hp]
      rcases h.owed x hxu with h1 | h1
      · exact .inl h1
      · exact absurd h0 h1.1
  | scan h0 hi he hf hs hxi hb hp ho =>
    rw [np (by simp [h0])]
    have ha : msixAccepts s i = false := by simp [msixAccepts, hi]
    rw [ha]
    simp only [Bool.false_eq_true, false_and, if_false]
    refine ⟨?_, fun _ => hs, by simp [hs], by rw [hp]; exact h.hi, by rw [hp]; exact h.lo, ?_, ?_,
      by rw [hp]; exact h.set, ?_⟩
    · rw [hxi]; split
      · exact Nat.mod_lt _ hP
      · exact Nat.mod_lt _ hP
    · intro _ h1 h3
      rw [hb, Nat.div_eq_of_lt h1] at h3
      rw [hp]; exact h3
    · intro _ h1
      rw [hb, h.hi]
      have : 1 ≤ n.irq.irqIndex / 64 := by omega
      omega
    · intro x hxu
      rw [hp]
      rcases h.owed x hxu with h1 | h1
      · exact .inl h1
      · exact absurd h0 h1.1
  | keep h0 hi hs hxi hb hp ho ha =>
    rw [np (by simp [h0])]
    have ha : msixAccepts s i = false := ha
    rw [ha]
    simp only [Bool.false_eq_true, false_and, if_false]
    refine ⟨by rw [hxi]; exact h.idx, fun _ => hs, by simp [hs], by rw [hp]; exact h.hi, by rw [hp]; exact h.lo, ?_, ?_,
      by rw [hp]; exact h.set, ?_⟩
    · rw [hxi, hb, hp]; exact fun _ => h.stale h0
    · rw [hxi, hb]; exact fun _ => h.far h0
    · intro x hxu
      rw [hp]
      rcases h.owed x hxu with h1 | h1
      · exact .inl h1
      · exact absurd h0 h1.1
  | read1 h0 hs hxi ht hv hb hp hr ho =>
    rw [np (by simp [h0]), na (by simp [h0])]
    simp only [Bool.false_eq_true, false_and, if_false]
    refine ⟨by rw [hxi]; exact h.idx, by simp [hr], ?_, by rw [hp]; exact h.hi, by rw [hp]; exact h.lo, by simp [hs],
      by simp [hs], by rw [hp]; exact h.set, ?_⟩
    · rw [hxi, hb, hp]; exact fun _ => h.busy (by simp [h0])
    · rw [hp, hxi]; intro x hxu
      rcases h.owed x hxu with h1 | h1
      · exact .inl h1
      · exact .inr ⟨by simp [hs], h1.2⟩
  | pass h0 hm hs hxi hv hb hp hr ho =>
    rw [np (by simp [h0]), na (by simp [h0])]
    simp only [Bool.false_eq_true, false_and, if_false]
    refine ⟨by rw [hxi]; exact h.idx, by simp [hr], ?_, by rw [hp]; exact h.hi, by rw [hp]; exact h.lo, by simp [hs],
      by simp [hs], by rw [hp]; exact h.set, ?_⟩
    · rw [hxi, hb, hp]; exact fun _ => h.busy (by simp [h0])
    · rw [hp, hxi]; intro x hxu
      rcases h.owed x hxu with h1 | h1
      · exact .inl h1
      · exact .inr ⟨by simp [hs], h1.2⟩
  | masked h0 hm hs hxi hb hp ho =>
    rw [np (by simp [h0]), na (by simp [h0])]
    simp only [Bool.false_eq_true, false_and, if_false]
    obtain ⟨hb1, hb2, hb3⟩ := h.busy (by simp [h0])
    rw [pbaWrite_low c _ _ _ hb1, Nat.mod_eq_of_lt (by omega : s.irq.irqIndex < 64), hb2] at hp
    have hp0 : n.irq.pba 0 = setBit (s.irq.pba 0) s.irq.irqIndex := by rw [hp]; rfl
    refine ⟨by rw [hxi]; exact h.idx, fun _ => hs, by simp [hs], ?_, ?_, ?_, ?_, ?_, ?_⟩
    · intro b hb; rw [hp]; simp only [if_neg hb]; exact h.hi b hb
    · intro b hb
      rw [hp0, testBit_setBit, h.lo b hb]
      simp; omega
    · intro _ _ _
      rw [hp0, hxi, testBit_setBit]; simp
    · intro _ h1; rw [hxi] at h1; omega
    · intro x hxp
      rw [hp0, testBit_setBit] at hxp
      simp only [Bool.or_eq_true, decide_eq_true_eq] at hxp
      rcases hxp with h1 | h1
      · exact h.set x h1
      · rw [← h1]; exact hb3
    · intro x hxu
      left
      rw [hp0, testBit_setBit]
      rcases h.owed x hxu with h1 | h1
      · simp [h1]
      · simp [h1.2]
  | send h0 hf hs hxi hb hp ho ht =>
    rw [hpr.mpr ⟨h0, hf⟩, na (by simp [h0])]
    simp only [Bool.false_eq_true, true_and, false_and, if_false]
    obtain ⟨hb1, hb2, hb3⟩ := h.busy (by simp [h0])
    rw [pbaWrite_low c _ _ _ hb1, Nat.mod_eq_of_lt (by omega : s.irq.irqIndex < 64), hb2] at hp
    have hp0 : n.irq.pba 0 = clearBit (s.irq.pba 0) s.irq.irqIndex := by rw [hp]; rfl
    have hne : n.irq.irqIndex ≠ s.irq.irqIndex ∧ n.irq.irqIndex ≤ 32 := by
      rw [hxi]
      have := h.idx
      by_cases e : s.irq.irqIndex + 1 = 2 ^ c.idxW
      · rw [e, Nat.mod_self]; omega
      · rw [Nat.mod_eq_of_lt (by omega)]; omega
    refine ⟨by rw [hxi]; exact Nat.mod_lt _ hP, fun _ => hs, by simp [hs], ?_, ?_, ?_, ?_, ?_, ?_⟩
    · intro b hb; rw [hp]; simp only [if_neg hb]; exact h.hi b hb
    · intro b hb
      rw [hp0, testBit_clearBit, h.lo b hb]
      simp
    · intro _ _ h3
      rw [hb, hb2] at h3
      rw [hp0, testBit_clearBit, h3]
      have := hne.1
      simp; omega
    · intro _ h1; omega
    · intro x hxp
      rw [hp0, testBit_clearBit] at hxp
      simp only [Bool.and_eq_true, Bool.not_eq_true', decide_eq_false_iff_not] at hxp
      rw [if_neg hxp.2]
      exact h.set x hxp.1
    · intro x hxu
      split at hxu
      · simp at hxu
      · rename_i hh
        left
        rw [hp0, testBit_clearBit]
        rcases h.owed x hxu with h1 | h1
        · simp [h1, hh]
        · exact absurd h1.2 hh
  | wait h0 hf hs hxi hv hb hp hr ho =>
    rw [np (by simp [hf]), na (by simp [h0])]
    simp only [Bool.false_eq_true, false_and, if_false]
    refine ⟨by rw [hxi]; exact h.idx, by simp [hr], ?_, by rw [hp]; exact h.hi, by rw [hp]; exact h.lo, by simp [hs],
      by simp [hs], by rw [hp]; exact h.set, ?_⟩
    · rw [hxi, hb, hp]; exact fun _ => h.busy (by simp [h0])
    · rw [hp, hxi]; intro x hxu
      rcases h.owed x hxu with h1 | h1
      · exact .inl h1
      · exact .inr ⟨by simp [hs], h1.2⟩

theorem msix_inv_run (c : MsixCfg) (hW : 1 ≤ c.idxW) (is : List MsixIn) (s : Msix) (u : Nat → Bool)
    (hr : ∀ i ∈ is, i.rst = false) (hx : ∀ i ∈ is, i.irqValid = true → i.irqIndex % 2 ^ c.idxW < 32)
    (h : MsixInv c s u) : MsixInv c (msixRun c s is) (unanswered c u s is) := by
  induction is generalizing s u with
  | nil => exact h
  | cons i is ih =>
    exact ih _ _ (fun j hj => hr j (List.mem_cons_of_mem _ hj)) (fun j hj => hx j (List.mem_cons_of_mem _ hj))
      (msix_inv_step c hW s i (hr i List.mem_cons_self) (hx i List.mem_cons_self) u h)

end Verif.Proofs
