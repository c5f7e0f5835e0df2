import Verif.Proofs.MsixLive
/-! C43: the pending bits of the MSI-X module track the requests. -/
namespace Verif.Props
open Verif Verif.Model Verif.Spec Verif.Proofs

theorem msix_start (c : MsixCfg) (s : Msix) (h : MsixPowerUp c s) : MsixInv c s (fun _ => false) := by
  refine ⟨h.idx, by simp [h.rdy], by simp [h.idle], fun b _ => h.pba b, ?_, ?_, fun _ _ => h.pbaRd, ?_, by simp⟩
  · intro b _; rw [h.pba]; simp
  · intro _ _; rw [h.pbaRd]; simp
  · intro x; rw [h.pba]; simp

/-- Resetting the module before its first use does not disturb the power-up condition. -/
theorem C43_reset (c : MsixCfg) (s : Msix) (h : MsixPowerUp c s) (r : MsixIn) (hr : r.rst = true) :
    MsixPowerUp c (msixStep c s r) := by
  have hP := Nat.two_pow_pos c.idxW
  have h1 := h.idx
  simp only [msixStep, msixIrqStep, msixIrqNext, hr, if_true, h.idle, h.rdy, h.pbaRd, Bool.and_false,
    Bool.false_eq_true, if_false, Nat.zero_testBit, bne_self_eq_false]
  split
  · exact ⟨rfl, rfl, Nat.mod_lt _ hP, h.pba, h.pba _⟩
  · exact ⟨rfl, rfl, h1, h.pba, rfl⟩

/-- C43: as long as requests are made for vectors below 32 only (always the case when the module has at most
32 vectors), whenever the module is ready for a request, the pending bit of a vector is set exactly when a
request for it was accepted and no message has been presented for it since; and no other bit is set.
Missing from the full property: vectors 32 and up, for which it fails (`C43_exact_fails`). -/
theorem C43_exact_partial (c : MsixCfg) (hW : 1 ≤ c.idxW) (s : Msix) (h : MsixPowerUp c s) (is : List MsixIn)
    (hr : ∀ i ∈ is, i.rst = false) (hx : ∀ i ∈ is, i.irqValid = true → i.irqIndex % 2 ^ c.idxW < 32)
    (hready : (msixRun c s is).irq.irqReady = true) :
    (∀ x, ((msixRun c s is).irq.pba 0).testBit x = unanswered c (fun _ => false) s is x) ∧
    (∀ b, b ≠ 0 → (msixRun c s is).irq.pba b = 0) := by
  have hi := msix_inv_run c hW is s _ hr hx (msix_start c s h)
  refine ⟨?_, hi.hi⟩
  intro x
  apply Bool.eq_iff_iff.mpr
  constructor
  · exact hi.set x
  · intro hu
    rcases hi.owed x hu with h1 | h1
    · exact h1
    · exact absurd (hi.rdy hready) h1.1

/-- C43: under the same condition, a message is presented only for a vector with an unanswered request. -/
theorem C43_no_spurious_partial (c : MsixCfg) (hW : 1 ≤ c.idxW) (s : Msix) (h : MsixPowerUp c s) (is : List MsixIn)
    (i : MsixIn) (hr : ∀ j ∈ is ++ [i], j.rst = false)
    (hx : ∀ j ∈ is, j.irqValid = true → j.irqIndex % 2 ^ c.idxW < 32)
    (hp : msixPresents c (msixRun c s is) i = true) :
    unanswered c (fun _ => false) s is (msixRun c s is).irq.irqIndex = true := by
  have hi := msix_inv_run c hW is s _ (fun j hj => hr j (List.mem_append_left _ hj)) hx (msix_start c s h)
  have h1 := ((msix_presents c _ i (hr i (by simp))).mp hp).1
  exact (hi.busy (by simp [h1])).2.2

/-- C43: every presented message, for any number of vectors, is a memory write of one DWORD with the address
and the data that the table holds for the vector `x` at two consecutive times in the history, after which the
function was seen enabled and not masked; and the vector was not masked in the table. -/
theorem C43_message (c : MsixCfg) (s : Msix) (hs : s.irq.state = .idle) (is : List MsixIn) (i : MsixIn)
    (hr : ∀ j ∈ is ++ [i], j.rst = false) (rid : PcieId) (hw : WfId rid) (hrid : i.requesterId = idBits rid)
    (hp : msixPresents c (msixRun c s is) i = true) (x : Nat) (hx : (msixRun c s is).irq.irqIndex = x) :
    ∃ p i0 i1 i2 q, is = p ++ [i0, i1, i2] ++ q ∧
      EncodesWrite (msixMessage c.force64 rid (vecAddr (msixRun c s p).axil.tbl x / 4 * 4)
        (vecData (msixRun c s (p ++ [i0])).axil.tbl x)) (msixRun c s (is ++ [i])).irq.tlp ∧
      vecMasked (msixRun c s (p ++ [i0])).axil.tbl x = false ∧ i1.enable = true ∧ i1.mask = false := by
  have hi : i.rst = false := hr i (by simp)
  have h1 := (msix_presents c _ i hi).mp hp
  have ht := msix_trace c s hs is (fun j hj => hr j (List.mem_append_left _ hj))
  unfold MsixTrace at ht
  simp only [h1.1, hx] at ht
  obtain ⟨p, i0, i1, i2, q, e, k1, k2, k3, k4, k5⟩ := ht
  refine ⟨p, i0, i1, i2, q, e, ?_, ?_, k4, k5⟩
  · have e2 : (msixRun c s (is ++ [i])).irq = msixIrqStep c (msixRun c s is).axil.tbl (msixRun c s is).irq i := by
      rw [msixRun_append]; rfl
    have hm := (msix_move c (msixRun c s is).axil.tbl (msixRun c s is).irq i hi).1
    rw [← e2] at hm
    have htlp : (msixRun c s (is ++ [i])).irq.tlp =
        msixHdr c (msixRun c s is).irq.vecAddr i.requesterId (msixRun c s is).irq.vecData := by
      cases hm with
      | send h0 hf hs hx hb hp ho ht => exact ht
      | wait h0 hf => rw [h1.2] at hf; simp at hf
      | take h0 => rw [h1.1] at h0; simp at h0
      | found h0 => rw [h1.1] at h0; simp at h0
      | scan h0 => rw [h1.1] at h0; simp at h0
      | keep h0 => rw [h1.1] at h0; simp at h0
      | read1 h0 => rw [h1.1] at h0; simp at h0
      | pass h0 => rw [h1.1] at h0; simp at h0
      | masked h0 => rw [h1.1] at h0; simp at h0
    have ea : ∀ T : Nat → RamWord, vecAddr T x = wordNat (T (x * 2)) 8 := by
      intro T; unfold vecAddr; rw [Nat.mul_comm, wordNat_sum]
    have ed : ∀ T : Nat → RamWord, vecData T x = wordNat (T (x * 2 + 1)) 4 := by
      intro T; unfold vecData; rw [Nat.mul_comm, wordNat_sum]
    rw [htlp, hrid, k1, k2, ea, ed]
    exact msix_hdr_encodes c _ _ (wordNat_lt _ 8) rid hw
  · rw [← k3, wordNat_mask, Nat.mul_comm]; rfl

/-- C43: while the function is enabled and not masked, no further requests come, messages are taken and every
vector with an unanswered request is not masked in the table, a message is presented for each of them within
`5 * 2^IRQ_INDEX_WIDTH + 3` cycles. Missing from the full property: vectors 32 and up, and other pending
vectors that stay masked, with which it fails (`C43_sent_fails`). -/
theorem C43_sent_partial (c : MsixCfg) (hW : 1 ≤ c.idxW) (s : Msix) (h : MsixPowerUp c s) (is : List MsixIn)
    (hr : ∀ i ∈ is, i.rst = false) (hx : ∀ i ∈ is, i.irqValid = true → i.irqIndex % 2 ^ c.idxW < 32)
    (hm : ∀ y, unanswered c (fun _ => false) s is y = true → vecMasked (msixRun c s is).axil.tbl y = false)
    (quiet : List MsixIn) (hq : ∀ i ∈ quiet, MsixQuiet i) (hl : 3 + 5 * 2 ^ c.idxW ≤ quiet.length) (x : Nat)
    (hu : unanswered c (fun _ => false) s is x = true) : SentIn c x (msixRun c s is) quiet := by
  have hi := msix_inv_run c hW is s _ hr hx (msix_start c s h)
  have hxl : x < 2 ^ c.idxW := by
    have : ∀ (is : List MsixIn) (s : Msix) (u : Nat → Bool), (∀ y, u y = true → y < 2 ^ c.idxW) →
        ∀ y, unanswered c u s is y = true → y < 2 ^ c.idxW := by
      intro is
      induction is with
      | nil => exact fun _ u h => h
      | cons i is ih =>
        intro s u h
        apply ih
        intro y hy
        unfold unansweredNext at hy
        split at hy
        · simp at hy
        · split at hy
          · rename_i hh; rw [← hh.2]; exact Nat.mod_lt _ (Nat.two_pow_pos _)
          · exact h y hy
    exact this is s _ (by simp) x hu
  exact msix_live c hW x hxl quiet _ _ hq hi hm hu hl

/-- A module as powered up, with an all-zero table. -/
def msixEx0 : Msix :=
  { irq := { state := .idle, irqIndex := 0, vecAddr := 0, vecData := 0, irqReady := false, tlp := ⟨0, 0, 0, 0, 0⟩,
             tlpValid := false, enable := false, mask := false, pba := fun _ => 0, tblRd := fun _ => 0, pbaRd := 0 }
    axil := { tbl := fun _ _ => 0, lastRead := false, wready := false, bvalid := false, arready := false,
              rdata := fun _ => 0, rvalid := false, tblValid := false, pbaValid := false, shift := 0,
              tblRd := fun _ => 0, pbaRd := fun _ => 0 } }

/-- 8 vectors, 32-bit AXI lite. -/
def msixExC : MsixCfg := { idxW := 3, addrW := 16, strbLog := 2, force64 := false }

theorem msixEx0_up (c : MsixCfg) : MsixPowerUp c msixEx0 :=
  ⟨rfl, rfl, Nat.two_pow_pos _, fun _ => rfl, rfl⟩

/-- Requests for vectors 3 and 5 while the function is masked. -/
def msixExReq : List MsixIn :=
  [{ mask := true }, { mask := true, irqValid := true, irqIndex := 3 }, { mask := true }, { mask := true },
   { mask := true, irqValid := true, irqIndex := 5 }, { mask := true }, { mask := true }]

/-- The hypotheses of `C43_exact_partial` and `C43_sent_partial` are met with requests pending. -/
example : (∀ i ∈ msixExReq, i.rst = false) ∧
    (∀ i ∈ msixExReq, i.irqValid = true → i.irqIndex % 2 ^ msixExC.idxW < 32) ∧
    (msixRun msixExC msixEx0 msixExReq).irq.irqReady = true ∧
    unanswered msixExC (fun _ => false) msixEx0 msixExReq 3 = true ∧
    unanswered msixExC (fun _ => false) msixEx0 msixExReq 5 = true ∧
    unanswered msixExC (fun _ => false) msixEx0 msixExReq 4 = false ∧
    (msixRun msixExC msixEx0 msixExReq).irq.pba 0 = 40 ∧
    vecMasked (msixRun msixExC msixEx0 msixExReq).axil.tbl 3 = false ∧
    vecMasked (msixRun msixExC msixEx0 msixExReq).axil.tbl 5 = false :=
  ⟨by decide, by decide, by decide +kernel, by decide +kernel, by decide +kernel, by decide +kernel,
    by decide +kernel, by decide +kernel, by decide +kernel⟩

/-- A message is presented, as `C43_message` and `C43_no_spurious_partial` assume. -/
example : msixPresents msixExC (msixRun msixExC msixEx0 [{}, { irqValid := true, irqIndex := 3 }, {}, {}]) {} = true ∧
    (msixRun msixExC msixEx0 [{}, { irqValid := true, irqIndex := 3 }, {}, {}]).irq.irqIndex = 3 := by
  decide +kernel

/-- The property fails for vectors 32 and up: with 128 vectors, a request for vector 32 made while the
function is masked leaves the pending bit of vector 32 (bit 32 of word 0) clear, and sets that of vector 96
(bit 32 of word 1). -/
theorem C43_exact_fails : ∃ (c : MsixCfg) (s : Msix) (is : List MsixIn), MsixPowerUp c s ∧ c.idxW = 7 ∧
    (∀ i ∈ is, i.rst = false) ∧ (msixRun c s is).irq.irqReady = true ∧
    unanswered c (fun _ => false) s is 32 = true ∧ unanswered c (fun _ => false) s is 96 = false ∧
    (msixRun c s is).irq.pba 0 = 0 ∧ (msixRun c s is).irq.pba 1 = 2 ^ 32 :=
  ⟨{ idxW := 7, addrW := 16, strbLog := 2, force64 := false }, msixEx0,
   [{ mask := true }, { mask := true, irqValid := true, irqIndex := 32 }, { mask := true }, { mask := true }],
   msixEx0_up _, rfl, by decide, by decide +kernel, by decide +kernel, by decide +kernel, by decide +kernel,
   by decide +kernel⟩

/-- With 64 vectors, the request is forgotten: no pending bit is set. -/
theorem C43_lost_fails : ∃ (c : MsixCfg) (s : Msix) (is : List MsixIn), MsixPowerUp c s ∧ c.idxW = 6 ∧
    (∀ i ∈ is, i.rst = false) ∧ (msixRun c s is).irq.irqReady = true ∧
    unanswered c (fun _ => false) s is 32 = true ∧ (msixRun c s is).irq.pba 0 = 0 :=
  ⟨{ idxW := 6, addrW := 16, strbLog := 2, force64 := false }, msixEx0,
   [{ mask := true }, { mask := true, irqValid := true, irqIndex := 32 }, { mask := true }, { mask := true }],
   msixEx0_up _, rfl, by decide, by decide +kernel, by decide +kernel, by decide +kernel⟩

/-- The host masks vector 3 in the table, requests for 3 and 5 come while the function is masked, and the
function is unmasked. -/
def msixExStuck : List MsixIn :=
  [{ mask := true, awvalid := true, wvalid := true, awaddr := 60, wdata := fun _ => 1, wstrb := fun _ => true },
   { mask := true, awvalid := true, wvalid := true, awaddr := 60, wdata := fun _ => 1, wstrb := fun _ => true }] ++
  msixExReq ++ List.replicate 8 { mask := false }

/-- The property fails also when another pending vector stays masked in the table: the scan stops there, and
vector 5, requested and not masked, is never sent, however long the module waits. -/
theorem C43_sent_fails : ∃ (c : MsixCfg) (s : Msix) (is : List MsixIn), MsixPowerUp c s ∧ c.idxW = 3 ∧
    (∀ i ∈ is, i.rst = false) ∧ unanswered c (fun _ => false) s is 5 = true ∧
    vecMasked (msixRun c s is).axil.tbl 5 = false ∧
    ∀ quiet : List MsixIn, (∀ i ∈ quiet, MsixQuiet i) → ¬ SentIn c 5 (msixRun c s is) quiet :=
  ⟨msixExC, msixEx0, msixExStuck, msixEx0_up _, rfl, by decide, by decide +kernel, by decide +kernel,
   fun quiet hq => msix_stuck_run msixExC 5 3 (by decide) quiet _ hq
     ⟨by decide +kernel, by decide +kernel, by decide +kernel, by decide +kernel, by decide +kernel, by decide +kernel,
      by decide +kernel, by decide +kernel⟩⟩

end Verif.Props
