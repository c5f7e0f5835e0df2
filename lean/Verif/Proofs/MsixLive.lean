import Verif.Proofs.MsixHist
/-! Helper lemmas for the MSI-X module: pending vectors are sent. -/
namespace Verif.Proofs
open Verif Verif.Model Verif.Spec

/-- Cyclic distance of the scan to `x`. -/
def msixDist (W x p : Nat) : Nat := if p ≤ x then x - p else x + 2 ^ W - p

def msixRank (c : MsixCfg) (x : Nat) (s : Msix) : Nat :=
  let D := msixDist c.idxW x s.irq.irqIndex
  match s.irq.state with
  | .idle => 5 * D + 4
  | .readTbl1 => 5 * D + 3
  | .readTbl2 => 5 * D + 2
  | .sendTlp => 5 * D + 1

/-- The state machine is enabled, and what it has read is up to date. -/
structure MsixReady (s : Msix) : Prop where
  en : s.irq.enable = true
  mask : s.irq.mask = false
  fresh : s.irq.state = .idle → s.irq.irqIndex < 64 →
    ∀ b, (s.irq.pba 0).testBit b = true → s.irq.pbaRd.testBit b = true
  vec : s.irq.state = .readTbl2 → (wordNat s.irq.tblRd 8).testBit 32 = false

theorem msix_quiet_tbl (c : MsixCfg) (s : Msix) (i : MsixIn) (h : MsixQuiet i) :
    (msixStep c s i).axil.tbl = s.axil.tbl := by
  simp [msixStep, msixAxilStep, msixDoWrite, msixWriteEligible, h.aw]

theorem msix_quiet_unans (c : MsixCfg) (s : Msix) (i : MsixIn) (h : MsixQuiet i) (u : Nat → Bool) (x : Nat)
    (hx : unansweredNext c s i u x = true) : u x = true := by
  unfold unansweredNext at hx
  split at hx
  · simp at hx
  · rw [if_neg (by simp [msixAccepts, h.irq])] at hx
    exact hx

/-- With everything pending unmasked, a quiet cycle keeps the state ready, and brings `x` nearer. -/
theorem msix_ready_step (c : MsixCfg) (x : Nat) (s : Msix) (i : MsixIn) (q : MsixQuiet i)
    (u : Nat → Bool) (h : MsixInv c s u) (hu : ∀ y, u y = true → vecMasked s.axil.tbl y = false)
    (hr : MsixReady s) (hx : u x = true) (hxl : x < 2 ^ c.idxW) :
    MsixReady (msixStep c s i) ∧
      ((msixPresents c s i = true ∧ s.irq.irqIndex = x) ∨ msixRank c x (msixStep c s i) < msixRank c x s) := by
  have hpr := msix_presents c s i q.rst
  obtain ⟨hm, hen, hmk⟩ := msix_move c s.axil.tbl s.irq i q.rst
  have e : (msixStep c s i).irq = msixIrqStep c s.axil.tbl s.irq i := rfl
  generalize msixStep c s i = n at e
  rw [← e] at hm hen hmk
  clear e
  rw [q.en] at hen
  rw [q.mask] at hmk
  have hP := Nat.two_pow_pos c.idxW
  have hidx := h.idx
  have hbit : s.irq.state = .idle → (s.irq.pba 0).testBit x = true := by
    intro h0
    rcases h.owed x hx with h1 | h1
    · exact h1
    · exact absurd h0 h1.1
  have x32 : s.irq.state = .idle → x < 32 := by
    intro h0
    rcases Nat.lt_or_ge x 32 with h1 | h1
    · exact h1
    · have := h.lo x h1; rw [hbit h0] at this; simp at this
  unfold msixRank
  cases hm with
  | take h0 hi hs hxi ht hb hp hr' ho => rw [q.irq] at hi; simp at hi
  | found h0 hi he hf hs hxi ht hb hp hr' ho =>
    refine ⟨⟨hen, hmk, by simp [hs], by simp [hs]⟩, .inr ?_⟩
    rw [h0, hs, hxi]; simp only; omega
  | scan h0 hi he hf hs hxi hb hp ho =>
    refine ⟨⟨hen, hmk, ?_, by simp [hs]⟩, .inr ?_⟩
    · intro _ h1 b hb'
      rw [hb, Nat.div_eq_of_lt h1, ← hp]; exact hb'
    · rw [h0, hs]
      simp only
      have hx32 := x32 h0
      have hbx := hbit h0
      suffices msixDist c.idxW x n.irq.irqIndex < msixDist c.idxW x s.irq.irqIndex by omega
      rw [hxi]
      unfold msixDist msixNextGroup
      rcases Nat.lt_or_ge s.irq.irqIndex 64 with h1 | h1
      · have hf1 := hr.fresh h0 h1 x hbx
        have hne : s.irq.pbaRd ≠ 0 := by intro e0; rw [e0] at hf1; simp at hf1
        rw [if_pos hne]
        have hxne : s.irq.irqIndex ≠ x := by
          intro e0; rw [Nat.mod_eq_of_lt h1, e0, hf1] at hf; simp at hf
        by_cases e1 : s.irq.irqIndex + 1 = 2 ^ c.idxW
        · rw [e1, Nat.mod_self]; split <;> split <;> omega
        · rw [Nat.mod_eq_of_lt (by omega)]; split <;> split <;> omega
      · rw [h.far h0 h1]
        simp only [ne_eq, not_true_eq_false, if_false]
        have hW : 6 ≤ c.idxW := by
          rcases Nat.lt_or_ge c.idxW 6 with h2 | h2
          · have : 2 ^ c.idxW ≤ 2 ^ 5 := Nat.pow_le_pow_right (by decide) (by omega)
            omega
          · exact h2
        have e2 : 2 ^ c.idxW = 64 * 2 ^ (c.idxW - 6) := by
          rw [show 64 = 2 ^ 6 from rfl, ← Nat.pow_add]; congr 1; omega
        generalize 2 ^ (c.idxW - 6) = G at e2
        by_cases e1 : s.irq.irqIndex / 64 * 64 + 64 = 2 ^ c.idxW
        · rw [e1, Nat.mod_self]; split <;> split <;> omega
        · rw [Nat.mod_eq_of_lt (by omega)]; split <;> split <;> omega
  | keep h0 hi hs hxi hb hp ho ha =>
    rcases hi with h1 | h1
    · rw [q.irq] at h1; simp at h1
    · rw [hr.en, hr.mask] at h1; simp at h1
  | read1 h0 hs hxi ht hv hb hp hr' ho =>
    refine ⟨⟨hen, hmk, by simp [hs], ?_⟩, .inr ?_⟩
    · intro _
      rw [ht, wordNat_mask, Nat.mul_comm]
      exact hu _ (h.busy (by simp [h0])).2.2
    · rw [h0, hs, hxi]; simp only; omega
  | pass h0 hm hs hxi hv hb hp hr' ho =>
    refine ⟨⟨hen, hmk, by simp [hs], by simp [hs]⟩, .inr ?_⟩
    rw [h0, hs, hxi]; simp only; omega
  | masked h0 hm hs hxi hb hp ho =>
    rw [hr.en, hr.mask, hr.vec h0] at hm; simp at hm
  | send h0 hf hs hxi hb hp ho ht =>
    obtain ⟨hb1, hb2, hb3⟩ := h.busy (by simp [h0])
    refine ⟨⟨hen, hmk, ?_, by simp [hs]⟩, ?_⟩
    · intro _ _ b hb'
      rw [hp, pbaWrite_low c _ _ _ hb1] at hb'
      simp only [if_pos, testBit_clearBit, Bool.and_eq_true] at hb'
      rw [hb]; exact hb'.1
    · by_cases e1 : s.irq.irqIndex = x
      · exact .inl ⟨hpr.mpr ⟨h0, hf⟩, e1⟩
      · right
        rw [h0, hs]
        simp only
        have : msixDist c.idxW x n.irq.irqIndex < msixDist c.idxW x s.irq.irqIndex := by
          rw [hxi]
          unfold msixDist
          by_cases e1 : s.irq.irqIndex + 1 = 2 ^ c.idxW
          · rw [e1, Nat.mod_self]; split <;> split <;> omega
          · rw [Nat.mod_eq_of_lt (by omega)]; split <;> split <;> omega
        omega
  | wait h0 hf hs hxi hv hb hp hr' ho =>
    rw [q.tlp] at hf; simp at hf

theorem msix_unans_keep (c : MsixCfg) (s : Msix) (i : MsixIn) (u : Nat → Bool) (x : Nat) (hx : u x = true)
    (h : ¬ (msixPresents c s i = true ∧ s.irq.irqIndex = x)) : unansweredNext c s i u x = true := by
  unfold unansweredNext
  rw [if_neg h]
  split
  · rfl
  · exact hx

theorem msix_live_ready (c : MsixCfg) (hW : 1 ≤ c.idxW) (x : Nat) (hxl : x < 2 ^ c.idxW) (is : List MsixIn) (s : Msix)
    (u : Nat → Bool) (q : ∀ i ∈ is, MsixQuiet i) (h : MsixInv c s u)
    (hu : ∀ y, u y = true → vecMasked s.axil.tbl y = false) (hr : MsixReady s) (hx : u x = true)
    (hl : msixRank c x s < is.length) : SentIn c x s is := by
  induction is generalizing s u with
  | nil => simp at hl
  | cons i is ih =>
    have qi := q i List.mem_cons_self
    obtain ⟨h1, h2⟩ := msix_ready_step c x s i qi u h hu hr hx hxl
    by_cases hp : msixPresents c s i = true ∧ s.irq.irqIndex = x
    · exact .inl hp
    · rcases h2 with h2 | h2
      · exact absurd h2 hp
      · right
        refine ih _ _ (fun j hj => q j (List.mem_cons_of_mem _ hj))
          (msix_inv_step c hW s i qi.rst (by simp [qi.irq]) u h) ?_ h1 (msix_unans_keep c s i u x hx hp) ?_
        · intro y hy
          rw [msix_quiet_tbl c s i qi]
          exact hu y (msix_quiet_unans c s i qi u y hy)
        · simp only [List.length_cons] at hl; omega

theorem msix_rank_le (c : MsixCfg) (x : Nat) (s : Msix) (hxl : x < 2 ^ c.idxW) (h : s.irq.irqIndex < 2 ^ c.idxW) :
    msixRank c x s < 5 * 2 ^ c.idxW := by
  have : msixDist c.idxW x s.irq.irqIndex < 2 ^ c.idxW := by unfold msixDist; split <;> omega
  unfold msixRank
  split <;> (simp only; omega)

/-- From any state with the function enabled, three quiet cycles make it ready or present `x`. -/
theorem msix_live_enabled (c : MsixCfg) (hW : 1 ≤ c.idxW) (x : Nat) (hxl : x < 2 ^ c.idxW) (m : Nat) (is : List MsixIn)
    (s : Msix) (u : Nat → Bool) (q : ∀ i ∈ is, MsixQuiet i) (h : MsixInv c s u)
    (hu : ∀ y, u y = true → vecMasked s.axil.tbl y = false) (hx : u x = true)
    (he : s.irq.enable = true) (hk : s.irq.mask = false)
    (hst : (s.irq.state = .idle ∧ 1 ≤ m) ∨ 2 ≤ m ∨ s.irq.state = .readTbl1 ∨ s.irq.state = .sendTlp)
    (hl : m + 5 * 2 ^ c.idxW ≤ is.length) : SentIn c x s is := by
  induction m generalizing s u is with
  | zero =>
    have hr := msix_rank_le c x s hxl h.idx
    refine msix_live_ready c hW x hxl is s u q h hu ⟨he, hk, ?_, ?_⟩ hx (by omega)
    · intro h0; rcases hst with h1 | h1 | h1 | h1
      · omega
      · omega
      · rw [h0] at h1; simp at h1
      · rw [h0] at h1; simp at h1
    · intro h0; rcases hst with h1 | h1 | h1 | h1
      · rw [h0] at h1; simp at h1
      · omega
      · rw [h0] at h1; simp at h1
      · rw [h0] at h1; simp at h1
  | succ m ih =>
    by_cases hready : MsixReady s
    · have hr := msix_rank_le c x s hxl h.idx
      exact msix_live_ready c hW x hxl is s u q h hu hready hx (by omega)
    · cases is with
      | nil => simp at hl
      | cons i is =>
        have qi := q i List.mem_cons_self
        by_cases hp : msixPresents c s i = true ∧ s.irq.irqIndex = x
        · exact .inl hp
        · right
          obtain ⟨hm, hen, hmk⟩ := msix_move c s.axil.tbl s.irq i qi.rst
          have hinv := msix_inv_step c hW s i qi.rst (by simp [qi.irq]) u h
          have hu' : ∀ y, unansweredNext c s i u y = true → vecMasked (msixStep c s i).axil.tbl y = false := by
            intro y hy
            rw [msix_quiet_tbl c s i qi]
            exact hu y (msix_quiet_unans c s i qi u y hy)
          have hx' := msix_unans_keep c s i u x hx hp
          have e : (msixStep c s i).irq = msixIrqStep c s.axil.tbl s.irq i := rfl
          simp only [List.length_cons] at hl
          have hrank := msix_rank_le c x (msixStep c s i) hxl hinv.idx
          have qs : ∀ j ∈ is, MsixQuiet j := fun j hj => q j (List.mem_cons_of_mem _ hj)
          generalize msixStep c s i = n at *
          rw [← e] at hm hen hmk
          rw [qi.en] at hen
          rw [qi.mask] at hmk
          cases hm with
          | take h0 hi hs hxi ht hb hp hr' ho => rw [qi.irq] at hi; simp at hi
          | found h0 hi he hf hs hxi ht hb hp hr' ho =>
            exact ih is n _ qs hinv hu' hx' hen hmk (.inr (.inr (.inl hs))) (by omega)
          | scan h0 hi he hf hs hxi hb hp ho =>
            refine msix_live_ready c hW x hxl is n _ qs hinv hu' ⟨hen, hmk, ?_, by simp [hs]⟩ hx' (by omega)
            intro _ h1 b hb'
            rw [hb, Nat.div_eq_of_lt h1, ← hp]; exact hb'
          | keep h0 hi hs hxi hb hp ho ha =>
            rcases hi with h1 | h1
            · rw [qi.irq] at h1; simp at h1
            · rw [he, hk] at h1; simp at h1
          | read1 h0 hs hxi ht hv hb hp hr' ho =>
            exact absurd ⟨he, hk, by simp [h0], by simp [h0]⟩ hready
          | pass h0 hm hs hxi hv hb hp hr' ho =>
            exact ih is n _ qs hinv hu' hx' hen hmk (.inr (.inr (.inr hs))) (by omega)
          | masked h0 hm hs hxi hb hp ho =>
            rcases hst with h1 | h1 | h1 | h1
            · rw [h0] at h1; simp at h1
            · exact ih is n _ qs hinv hu' hx' hen hmk (.inl ⟨hs, by omega⟩) (by omega)
            · rw [h0] at h1; simp at h1
            · rw [h0] at h1; simp at h1
          | send h0 hf hs hxi hb hp ho ht =>
            exact absurd ⟨he, hk, by simp [h0], by simp [h0]⟩ hready
          | wait h0 hf hs hxi hv hb hp hr' ho => rw [qi.tlp] at hf; simp at hf

theorem msix_live (c : MsixCfg) (hW : 1 ≤ c.idxW) (x : Nat) (hxl : x < 2 ^ c.idxW) (is : List MsixIn)
    (s : Msix) (u : Nat → Bool) (q : ∀ i ∈ is, MsixQuiet i) (h : MsixInv c s u)
    (hu : ∀ y, u y = true → vecMasked s.axil.tbl y = false) (hx : u x = true)
    (hl : 3 + 5 * 2 ^ c.idxW ≤ is.length) : SentIn c x s is := by
  cases is with
  | nil => simp at hl
  | cons i is =>
    have qi := q i List.mem_cons_self
    by_cases hp : msixPresents c s i = true ∧ s.irq.irqIndex = x
    · exact .inl hp
    · right
      obtain ⟨hm, hen, hmk⟩ := msix_move c s.axil.tbl s.irq i qi.rst
      refine msix_live_enabled c hW x hxl 2 is _ _ (fun j hj => q j (List.mem_cons_of_mem _ hj))
        (msix_inv_step c hW s i qi.rst (by simp [qi.irq]) u h) ?_ (msix_unans_keep c s i u x hx hp)
        (by rw [← qi.en, ← hen]; rfl) (by rw [← qi.mask, ← hmk]; rfl) (.inr (.inl (Nat.le_refl _))) ?_
      · intro y hy
        rw [msix_quiet_tbl c s i qi]
        exact hu y (msix_quiet_unans c s i qi u y hy)
      · simp only [List.length_cons] at hl; omega

/-- The scan has stopped at a pending vector that is masked in the table. -/
structure MsixStuck (y : Nat) (s : Msix) : Prop where
  en : s.irq.enable = true
  mask : s.irq.mask = false
  idx : s.irq.irqIndex = y
  tbl : vecMasked s.axil.tbl y = true
  pba : (s.irq.pba 0).testBit y = true
  rd : s.irq.pbaRd.testBit y = true
  st : s.irq.state ≠ .sendTlp
  vec : s.irq.state = .readTbl2 → (wordNat s.irq.tblRd 8).testBit 32 = true

theorem msix_stuck_step (c : MsixCfg) (y : Nat) (hy : y < 32) (s : Msix) (i : MsixIn) (q : MsixQuiet i)
    (h : MsixStuck y s) : MsixStuck y (msixStep c s i) ∧ msixPresents c s i = false := by
  have hpr := msix_presents c s i q.rst
  obtain ⟨hm, hen, hmk⟩ := msix_move c s.axil.tbl s.irq i q.rst
  have ht' := msix_quiet_tbl c s i q
  have hnp : msixPresents c s i = false := by
    cases hx : msixPresents c s i with
    | false => rfl
    | true => exact absurd (hpr.mp hx).1 h.st
  refine ⟨?_, hnp⟩
  have htb := h.tbl
  have e : (msixStep c s i).irq = msixIrqStep c s.axil.tbl s.irq i := rfl
  generalize msixStep c s i = n at *
  rw [← e] at hm hen hmk
  rw [q.en] at hen
  rw [q.mask] at hmk
  have hpd := h.pba
  have hrd := h.rd
  cases hm with
  | take h0 hi hs hxi ht hb hp hr' ho => rw [q.irq] at hi; simp at hi
  | found h0 hi he hf hs hxi ht hb hp hr' ho =>
    refine ⟨hen, hmk, by rw [hxi, h.idx], by rw [ht']; exact htb, by rw [hp]; exact hpd, ?_, by simp [hs], by simp [hs]⟩
    rw [hb, h.idx, Nat.div_eq_of_lt (by omega)]; exact hpd
  | scan h0 hi he hf hs hxi hb hp ho =>
    rw [h.idx, Nat.mod_eq_of_lt (by omega), hrd] at hf; simp at hf
  | keep h0 hi hs hxi hb hp ho ha =>
    rcases hi with h1 | h1
    · rw [q.irq] at h1; simp at h1
    · rw [h.en, h.mask] at h1; simp at h1
  | read1 h0 hs hxi ht hv hb hp hr' ho =>
    refine ⟨hen, hmk, by rw [hxi, h.idx], by rw [ht']; exact htb, by rw [hp]; exact hpd, by rw [hb]; exact hrd,
      by simp [hs], ?_⟩
    intro _
    rw [ht, wordNat_mask, h.idx, Nat.mul_comm]
    exact htb
  | pass h0 hm hs hxi hv hb hp hr' ho =>
    have := hm.2.2; rw [h.vec h0] at this; simp at this
  | masked h0 hm hs hxi hb hp ho =>
    refine ⟨hen, hmk, by rw [hxi, h.idx], by rw [ht']; exact htb, ?_, by rw [hb]; exact hrd,
      by simp [hs], by simp [hs]⟩
    rw [hp, h.idx, pbaWrite_low c _ _ _ hy]
    simp [testBit_setBit, Nat.mod_eq_of_lt (by omega : y < 64)]
  | send h0 hf hs hxi hb hp ho ht => exact absurd h0 h.st
  | wait h0 hf hs hxi hv hb hp hr' ho => exact absurd h0 h.st

theorem msix_stuck_run (c : MsixCfg) (x y : Nat) (hy : y < 32) (is : List MsixIn) (s : Msix)
    (q : ∀ i ∈ is, MsixQuiet i) (h : MsixStuck y s) : ¬ SentIn c x s is := by
  induction is generalizing s with
  | nil => exact fun h => h
  | cons i is ih =>
    obtain ⟨h1, h2⟩ := msix_stuck_step c y hy s i (q i List.mem_cons_self) h
    rintro (h3 | h3)
    · rw [h2] at h3; simp at h3
    · exact ih _ (fun j hj => q j (List.mem_cons_of_mem _ hj)) h1 h3

end Verif.Proofs
