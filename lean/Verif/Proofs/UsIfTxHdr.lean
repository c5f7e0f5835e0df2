import Verif.Spec.UsIfTx
/-! Proofs about the UltraScale CC and RQ interfaces: descriptors. -/
namespace Verif.Proofs
open Verif.Model Verif.Spec

theorem utxBits_lt (x lo n : Nat) : utxBits x lo n < 2 ^ n := Nat.mod_lt _ (Nat.two_pow_pos n)

theorem utxBits_dw (hdr k lo n : Nat) (h : lo + n ≤ 32) (hn : 0 < n) :
    utxBits hdr (32 * (3 - k) + lo) n = bits (hdrDw hdr k) (lo + n - 1) lo := by
  unfold utxBits bits hdrDw
  have e : lo + n - 1 + 1 - lo = n := by omega
  rw [e]
  apply Nat.eq_of_testBit_eq
  intro j
  simp only [Nat.testBit_mod_two_pow, Nat.testBit_div_two_pow]
  by_cases hj : j < n
  · have : j + lo < 32 := by omega
    simp only [hj, this, decide_true, Bool.true_and]
    congr 1; omega
  · simp [hj]

theorem cc_desc (t : TlpUs) (hdr : Nat) (h0 : Dw0Layout t.toTlp (hdrDw hdr 0)) (h1 : CplLayout t.toTlp (hdrDw hdr 1) (hdrDw hdr 2))
    (ht : t.type = 0x0A) (hl : t.length < 1024) (hb : t.byte_count < 4096) :
    CcDesc t (ccConv hdr 0) (ccConv hdr 1) (ccConv hdr 2) := by
  obtain ⟨_, a1, a2, a3, a4, a5, a6, a7, a8, a9, a10⟩ := h0
  obtain ⟨_, _, b1, b2, b3, b4, b5, b6, b7, b8⟩ := h1
  have f1 : utxBits hdr 32 7 = t.lower_address := by rw [← b8]; exact utxBits_dw hdr 2 0 7 (by decide) (by decide)
  have f2 : utxBits hdr 106 2 = t.at_ := by rw [← a9]; exact utxBits_dw hdr 0 10 2 (by decide) (by decide)
  have f3 : utxBits hdr 64 12 = t.byte_count := by
    have := utxBits_dw hdr 1 0 12 (by decide) (by decide)
    rw [show 32 * (3 - 1) + 0 = 64 from rfl] at this
    rw [this, b4, Nat.mod_eq_of_lt hb]
  have f4 : utxBits hdr 96 10 = t.length := by
    have := utxBits_dw hdr 0 0 10 (by decide) (by decide)
    rw [show 32 * (3 - 0) + 0 = 96 from rfl] at this
    rw [this, a10, Nat.mod_eq_of_lt hl]
  have f5 : utxBits hdr 77 3 = t.status := by rw [← b2]; exact utxBits_dw hdr 1 13 3 (by decide) (by decide)
  have f6 : utxBits hdr 110 1 = t.ep := by rw [← a7]; exact utxBits_dw hdr 0 14 1 (by decide) (by decide)
  have f7 : utxBits hdr 48 16 = idBits t.requester_id := by rw [← b5]; exact utxBits_dw hdr 2 16 16 (by decide) (by decide)
  have f8 : utxBits hdr 40 8 = t.tag := by rw [← b6]; exact utxBits_dw hdr 2 8 8 (by decide) (by decide)
  have f9 : utxBits hdr 80 16 = idBits t.completer_id := by rw [← b1]; exact utxBits_dw hdr 1 16 16 (by decide) (by decide)
  have f10 : utxBits hdr 116 3 = t.tc := by rw [← a3]; exact utxBits_dw hdr 0 20 3 (by decide) (by decide)
  have f11 : utxBits hdr 108 2 = t.attr % 4 := by rw [← a8]; exact utxBits_dw hdr 0 12 2 (by decide) (by decide)
  have f12 : utxBits hdr 114 1 = t.attr / 4 := by rw [← a4]; exact utxBits_dw hdr 0 18 1 (by decide) (by decide)
  have g1 := f1 ▸ utxBits_lt hdr 32 7
  have g2 := f2 ▸ utxBits_lt hdr 106 2
  have g5 := f5 ▸ utxBits_lt hdr 77 3
  have g6 := f6 ▸ utxBits_lt hdr 110 1
  have g7 := f7 ▸ utxBits_lt hdr 48 16
  have g8 := f8 ▸ utxBits_lt hdr 40 8
  have g9 := f9 ▸ utxBits_lt hdr 80 16
  have g10 := f10 ▸ utxBits_lt hdr 116 3
  have g11 := f11 ▸ utxBits_lt hdr 108 2
  have g12 := f12 ▸ utxBits_lt hdr 114 1
  have hc0 : ccConv hdr 0 = t.lower_address + t.at_ * 2 ^ 8 + t.byte_count * 2 ^ 16 := by
    unfold ccConv; simp only []; rw [f1, f2, f3]
  have hc1 : ccConv hdr 1 = t.length + t.status * 2 ^ 11 + t.ep * 2 ^ 14 + idBits t.requester_id * 2 ^ 16 := by
    unfold ccConv; simp only []; rw [f4, f5, f6, f7]
  have hc2 : ccConv hdr 2 = t.tag + idBits t.completer_id * 2 ^ 8 + t.tc * 2 ^ 25 + t.attr % 4 * 2 ^ 28 + t.attr / 4 * 2 ^ 30 := by
    unfold ccConv; simp only []; rw [f8, f9, f10, f11, f12]
  rw [hc0, hc1, hc2]
  have hlk : (if t.type = 0x0B then 1 else 0) = 0 := by rw [ht]; rfl
  constructor
  case locked => rw [hlk]; unfold bits; omega
  case dwords => omega
  all_goals (unfold bits; omega)

theorem rqType_kind {fmt type : Nat} (hf : fmt = 1 ∨ fmt = 3)
    (hk : (type = 0 ∨ type = 1 ∧ fmt = 1 ∨ (type = 12 ∨ type = 13 ∨ type = 14) ∧ fmt = 3)) :
    (type, decide (fmt = 2 ∨ fmt = 3), rqType fmt type) ∈ rqKinds ∧ rqType fmt type < 16 := by
  rcases hf with rfl | rfl <;> rcases hk with rfl | ⟨rfl, h⟩ | ⟨rfl | rfl | rfl, h⟩ <;> first | decide | (exact absurd h (by decide))

theorem rq_desc (t : TlpUs) (hdr : Nat) (h0 : Dw0Layout t.toTlp (hdrDw hdr 0)) (h1 : ReqDw1Layout t.toTlp (hdrDw hdr 1))
    (ha : hdrDw hdr 2 * 2 ^ 32 + hdrDw hdr 3 = t.address) (h4 : 4 ∣ t.address) (hf : t.fmt = 1 ∨ t.fmt = 3)
    (hk : (t.type = 0 ∨ t.type = 1 ∧ t.fmt = 1 ∨ (t.type = 12 ∨ t.type = 13 ∨ t.type = 14) ∧ t.fmt = 3))
    (hl : 0 < t.length ∧ t.length ≤ 1024) :
    RqDesc t (rqConv hdr 0) (rqConv hdr 1) (rqConv hdr 2) (rqConv hdr 3) := by
  obtain ⟨_, a1, a2, a3, a4, a5, a6, a7, a8, a9, a10⟩ := h0
  obtain ⟨_, b1, b2, b3, b4⟩ := h1
  have f1 : utxBits hdr 2 30 = bits (hdrDw hdr 3) 31 2 := utxBits_dw hdr 3 2 30 (by decide) (by decide)
  have f2 : utxBits hdr 106 2 = t.at_ := by rw [← a9]; exact utxBits_dw hdr 0 10 2 (by decide) (by decide)
  have f3 : utxBits hdr 32 32 = hdrDw hdr 2 := rfl
  have f4 : utxBits hdr 96 10 = t.length % 1024 := by rw [← a10]; exact utxBits_dw hdr 0 0 10 (by decide) (by decide)
  have f5 : utxBits hdr 125 3 = t.fmt := by rw [← a1]; exact utxBits_dw hdr 0 29 3 (by decide) (by decide)
  have f6 : utxBits hdr 110 1 = t.ep := by rw [← a7]; exact utxBits_dw hdr 0 14 1 (by decide) (by decide)
  have f7 : utxBits hdr 80 16 = idBits t.requester_id := by rw [← b1]; exact utxBits_dw hdr 1 16 16 (by decide) (by decide)
  have f8 : utxBits hdr 72 8 = t.tag := by rw [← b2]; exact utxBits_dw hdr 1 8 8 (by decide) (by decide)
  have f9 : utxBits hdr 120 5 = t.type := by rw [← a2]; exact utxBits_dw hdr 0 24 5 (by decide) (by decide)
  have f10 : utxBits hdr 116 3 = t.tc := by rw [← a3]; exact utxBits_dw hdr 0 20 3 (by decide) (by decide)
  have f11 : utxBits hdr 108 2 = t.attr % 4 := by rw [← a8]; exact utxBits_dw hdr 0 12 2 (by decide) (by decide)
  have f12 : utxBits hdr 114 1 = t.attr / 4 := by rw [← a4]; exact utxBits_dw hdr 0 18 1 (by decide) (by decide)
  have g2 := f2 ▸ utxBits_lt hdr 106 2
  have g6 := f6 ▸ utxBits_lt hdr 110 1
  have g7 := f7 ▸ utxBits_lt hdr 80 16
  have g8 := f8 ▸ utxBits_lt hdr 72 8
  have g10 := f10 ▸ utxBits_lt hdr 116 3
  have g11 := f11 ▸ utxBits_lt hdr 108 2
  have g12 := f12 ▸ utxBits_lt hdr 114 1
  have g13 : hdrDw hdr 2 < 2 ^ 32 := Nat.mod_lt _ (by decide)
  have g14 : hdrDw hdr 3 < 2 ^ 32 := Nat.mod_lt _ (by decide)
  obtain ⟨k1, k2⟩ := rqType_kind hf hk
  have f13 : utxBits hdr 2 30 * 4 = hdrDw hdr 3 := by rw [f1]; unfold bits; omega
  have hlen : t.length % 1024 + (if t.length % 1024 = 0 then 1 else 0) * 2 ^ 10 = t.length := by split <;> omega
  have hc0 : rqConv hdr 0 = t.at_ + hdrDw hdr 3 := by
    unfold rqConv; simp only []; rw [f2, f13]
  have hc1 : rqConv hdr 1 = hdrDw hdr 2 := rfl
  have hc2 : rqConv hdr 2 = t.length + rqType t.fmt t.type * 2 ^ 11 + t.ep * 2 ^ 15 + idBits t.requester_id * 2 ^ 16 := by
    unfold rqConv; simp only []; rw [f4, f5, f6, f7, f9, hlen]
  have hc3 : rqConv hdr 3 = t.tag + t.tc * 2 ^ 25 + t.attr % 4 * 2 ^ 28 + t.attr / 4 * 2 ^ 30 := by
    unfold rqConv; simp only []; rw [f8, f10, f11, f12]
  rw [hc0, hc1, hc2, hc3]
  have d4 : hdrDw hdr 3 % 4 = 0 := by omega
  generalize hrt : rqType t.fmt t.type = rt at *
  constructor
  case kind =>
    have : bits (t.length + rt * 2 ^ 11 + t.ep * 2 ^ 15 + idBits t.requester_id * 2 ^ 16) 14 11 = rt := by unfold bits; omega
    rw [this]; exact k1
  case dwords => omega
  all_goals (unfold bits; omega)

end Verif.Proofs
