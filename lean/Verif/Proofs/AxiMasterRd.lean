import Verif.Spec.AxiMasterRd
import Verif.Proofs.AxilMin
import Verif.Proofs.AxiMasterWr
import Verif.Proofs.Skid
/-! The AXI master for reads: requests, parts of reads, headers of completions. -/
namespace Verif.Proofs
open Verif Verif.Model Verif.Spec

/-! ### Requests -/

theorem axrLen_eq (h : TlpHdr) : axrLen h = hdrLen h := by simp [axrLen, hdrLen, bits]

theorem axrIs_eq (h : TlpHdr) (hk : AxReqOk h) :
    axrIsRead h = tlpIsRead h ∧ axrIsPosted h = tlpIsWrite h ∧ axrIsCpl h = tlpIsCpl h ∧ axrIsUr h = tlpIsUr h := by
  obtain ⟨hm, hp⟩ := hk
  have e1 : h.dw0 / 2 ^ 30 % 2 = bits h.dw0 31 29 / 2 % 2 := by simp only [bits]; omega
  have e2 : h.dw0 / 2 ^ 29 % 2 = bits h.dw0 31 29 % 2 := by simp only [bits]; omega
  have e3 : h.dw0 / 2 ^ 24 % 32 = bits h.dw0 28 24 := by simp only [bits]
  have e4 : bits h.dw0 28 27 = bits h.dw0 28 24 / 8 := by simp only [bits]; omega
  simp only [tlpIsPrefix, decide_eq_false_iff_not] at hp
  simp only [tlpIsMsg, e4] at hm
  simp only [axrIsUr, axrIsRead, axrIsPosted, axrIsCpl, tlpIsUr, tlpIsRead, tlpIsWrite, tlpIsCpl, tlpIsMsg, e1, e2, e3, e4]
  generalize bits h.dw0 31 29 = f at *
  generalize bits h.dw0 28 24 = t at *
  have hf4 : f = 0 ∨ f = 1 ∨ f = 2 ∨ f = 3 := by omega
  rcases hf4 with rfl | rfl | rfl | rfl <;> by_cases h0 : t = 0 <;> simp_all

theorem axrAddr_eq (c : AxrCfg) (h : TlpHdr) : axrAddr c h = tlpAddr c.force64 h := by
  unfold axrAddr tlpAddr
  have e : h.dw0 / 2 ^ 29 % 2 = bits h.dw0 29 29 := by simp only [bits]
  rw [e]
  have e2 : bits h.dw2 31 0 = h.dw2 % 2 ^ 32 := by simp [bits]
  have e3 : bits h.dw3 31 2 = h.dw3 % 2 ^ 32 / 4 := by simp only [bits]; omega
  have e4 : bits h.dw2 31 2 = h.dw2 % 2 ^ 32 / 4 := by simp only [bits]; omega
  rw [e2, e3, e4]

theorem axrBe_eq : ∀ b < 16, axrCount b = beSpan b ∧ axrFirst b = beFirst b ∧ beFirst b < 4 ∧ beFirst b + beSpan b ≤ 4 ∧ 1 ≤ beSpan b ∧
    (beLanes b).getLast?.getD 3 + axrLast b = 3 ∧ axrLast b < 4 := by decide

theorem axr_bytes (c : AxrCfg) (hc : AxrCfgOk c) : 2 ^ c.tb = 4 * c.dws ∧ 2 ≤ c.dws ∧ c.dws ≤ 1024 := by
  have h := hc.tb
  obtain ⟨t, ht⟩ : ∃ t, c.tb = t + 2 := ⟨c.tb - 2, by omega⟩
  unfold AxrCfg.dws
  rw [ht, show t + 2 - 2 = t by omega]
  refine ⟨by rw [Nat.pow_add]; omega, ?_, ?_⟩
  · calc 2 = 2 ^ 1 := rfl
      _ ≤ 2 ^ t := Nat.pow_le_pow_right (by decide) (by omega)
  · calc 2 ^ t ≤ 2 ^ 10 := Nat.pow_le_pow_right (by decide) (by omega)
      _ = 1024 := rfl

theorem axr_addrW (c : AxrCfg) (hc : AxrCfgOk c) : ∃ k, 2 ^ c.addrW = 8192 * k ∧ 1 ≤ k := by
  have h := hc.addr
  obtain ⟨t, ht⟩ : ∃ t, c.addrW = 13 + t := ⟨c.addrW - 13, by omega⟩
  exact ⟨2 ^ t, by rw [ht, Nat.pow_add], Nat.two_pow_pos t⟩

theorem axrTlpAddr_mod4 (c : AxrCfg) (hc : AxrCfgOk c) (h : TlpHdr) : axrTlpAddr c h % 4 = 0 ∧ axrTlpAddr c h < 2 ^ c.addrW := by
  unfold axrTlpAddr
  obtain ⟨k, hk, hk1⟩ := axr_addrW c hc
  refine ⟨?_, Nat.mod_lt _ (Nat.two_pow_pos _)⟩
  have : tlpAddr c.force64 h % 4 = 0 := by unfold tlpAddr; split <;> omega
  rw [hk]
  generalize tlpAddr c.force64 h = a at *
  rw [show 8192 * k = 4 * (2048 * k) by omega]
  rw [Nat.mod_mul_right_mod]
  exact this

/-! ### Limits -/

theorem axrMax_eq (c : AxrCfg) (hc : AxrCfgOk c) (m : Nat) : ∃ e, e ≤ 5 ∧ axrMax c m = 128 * 2 ^ e ∧ (c.tb = 3 → e ≤ 4) := by
  refine ⟨min m c.payloadMax, ?_, rfl, ?_⟩
  · unfold AxrCfg.payloadMax
    split
    · rename_i h
      have : c.burst * 2 ^ c.tb / 128 ≤ 32 := by omega
      have h2 : clog2 (c.burst * 2 ^ c.tb / 128) ≤ 5 := by
        unfold clog2
        split
        · omega
        · rename_i h1
          have := (Nat.log2_lt (n := c.burst * 2 ^ c.tb / 128 - 1) (k := 5) (by omega)).mpr (by omega)
          omega
      omega
    · omega
  · intro h3
    have hb := hc.burst
    unfold AxrCfg.payloadMax
    rw [h3]
    rw [if_pos (by omega)]
    have h2 : clog2 (c.burst * 2 ^ 3 / 128) ≤ 4 := by
      unfold clog2
      split
      · omega
      · rename_i h1
        have := (Nat.log2_lt (n := c.burst * 2 ^ 3 / 128 - 1) (k := 4) (by omega)).mpr (by omega)
        omega
    omega

theorem axrMax_rng (c : AxrCfg) (hc : AxrCfgOk c) (m : Nat) :
    128 ≤ axrMax c m ∧ axrMax c m ≤ 4096 ∧ axrMax c m % 128 = 0 ∧ (c.dws = 2 → axrMax c m ≤ 2048) := by
  obtain ⟨e, he, hm, h3⟩ := axrMax_eq c hc m
  have h1 : 1 ≤ 2 ^ e := Nat.two_pow_pos e
  have h2 : 2 ^ e ≤ 2 ^ 5 := Nat.pow_le_pow_right (by decide) he
  rw [hm]
  refine ⟨by omega, by omega, by omega, ?_⟩
  intro hd
  have : c.tb = 3 := by
    have hb := (axr_bytes c hc).1
    rw [hd] at hb
    have : 2 ^ c.tb = 2 ^ 3 := by omega
    exact (Nat.pow_right_inj (by decide)).1 this
  have : 2 ^ e ≤ 2 ^ 4 := Nat.pow_le_pow_right (by decide) (h3 this)
  omega

/-! ### Headers of completions -/

/-- The header fields for the registers. -/
def recOf (cid status rid tag tc attr dws len lower : Nat) : CplRec :=
  { fmt := if status = 0 then 2 else 0, type := 10, tag := tag, tc := tc, attr := attr, len := dws % 1024, completer := cid, status := status
    count := len % 4096, requester := rid, lower := lower, zero := [0, 0, 0, 0, 0] }

theorem cpl_pack2 (f t9 tc t8 a2 a l cid st n rid t lo : Nat) (hf : f < 8) (h9 : t9 < 2) (htc : tc < 8) (h8 : t8 < 2) (ha2 : a2 < 2)
    (ha : a < 4) (hl : l < 1024) (hcid : cid < 2 ^ 16) (hst : st < 8) (hn : n < 4096) (hrid : rid < 2 ^ 16) (ht : t < 2 ^ 8) (hlo : lo < 128) :
    cplRec ⟨f * 2 ^ 29 + 10 * 2 ^ 24 + t9 * 2 ^ 23 + tc * 2 ^ 20 + t8 * 2 ^ 19 + a2 * 2 ^ 18 + a * 2 ^ 12 + l,
        cid * 2 ^ 16 + st * 2 ^ 13 + n, rid * 2 ^ 16 + t * 2 ^ 8 + lo, 0⟩ =
      { fmt := f, type := 10, tag := t9 * 512 + t8 * 256 + t, tc := tc, attr := a2 * 4 + a, len := l, completer := cid, status := st
        count := n, requester := rid, lower := lo, zero := [0, 0, 0, 0, 0] } := by
  unfold cplRec
  simp only [bits, Nat.reduceAdd, Nat.reduceSub, Nat.reducePow, CplRec.mk.injEq, List.cons.injEq, and_true] at *
  refine ⟨?_, ?_, ?_, ?_, ?_, ?_, ?_, ?_, ?_, ?_, ?_, ?_, ?_, ?_, ?_⟩ <;> omega

/-- The ranges of header fields. -/
structure AxrRng (status rid tag tc attr : Nat) : Prop where
  status : status < 8
  rid : rid < 2 ^ 16
  tag : tag < 1024
  tc : tc < 8
  attr : attr < 8

theorem axrHdr_dec (s : Axr) (cid : Nat) (hcid : cid < 2 ^ 16) (h : AxrRng s.status s.rid s.tag s.tc s.attr) :
    cplRec (axrHdr s cid) = recOf cid s.status s.rid s.tag s.tc s.attr s.dws s.len (s.lower % 128) := by
  obtain ⟨h1, h2, h3, h4, h5⟩ := h
  unfold axrHdr recOf
  generalize s.status = a at *
  generalize s.rid = b at *
  generalize s.tag = d at *
  generalize s.tc = e at *
  generalize s.attr = f at *
  generalize s.lower = g at *
  generalize s.dws = x at *
  generalize s.len = y at *
  rw [Nat.mod_eq_of_lt hcid, cpl_pack2 _ _ _ _ _ _ _ _ _ _ _ _ _ (by split <;> decide) (Nat.mod_lt _ (by decide)) h4 (Nat.mod_lt _ (by decide))
    (Nat.mod_lt _ (by decide)) (Nat.mod_lt _ (by decide)) (Nat.mod_lt _ (by decide)) hcid h1 (Nat.mod_lt _ (by decide)) h2
    (Nat.mod_lt _ (by decide)) (Nat.mod_lt _ (by decide))]
  rw [CplRec.mk.injEq]
  refine ⟨rfl, rfl, ?_, rfl, ?_, rfl, rfl, rfl, rfl, rfl, rfl, rfl⟩ <;> omega

/-- The fields for a request are those of the header. -/
theorem axr_cplFor (force64 : Bool) (cid : Nat) (h : TlpHdr) (status : Nat) (data : Bool) (hs : status = 0 ↔ data = true) (dws len lower : Nat) :
    recOf cid status (h.dw1 / 2 ^ 16 % 2 ^ 16) (h.dw0 / 2 ^ 23 % 2 * 512 + h.dw0 / 2 ^ 19 % 2 * 256 + h.dw1 / 2 ^ 8 % 2 ^ 8) (h.dw0 / 2 ^ 20 % 8)
      (h.dw0 / 2 ^ 18 % 2 * 4 + h.dw0 / 2 ^ 12 % 4) dws len lower =
    { cplFor force64 cid h status data with len := dws % 1024, count := len % 4096, lower := lower } := by
  unfold recOf cplFor
  simp only [bits, Nat.reduceAdd, Nat.reduceSub, CplRec.mk.injEq, and_true, true_and]
  cases data <;> simp_all

end Verif.Proofs
