import Verif.Spec.UsIfRx
/-! Proofs about the UltraScale RC and CQ interfaces: descriptors. -/
namespace Verif.Proofs
open Verif.Model Verif.Spec

theorem urxBits_lt (d : Nat → Nat) (k lo n : Nat) : urxBits d k lo n < 2 ^ n := Nat.mod_lt _ (Nat.two_pow_pos n)

theorem hdrDw_of {x a b c d : Nat} (h : x = a * 2 ^ 96 + (b * 2 ^ 64) + (c * 2 ^ 32 + d)) (ha : a < 2 ^ 32) (hb : b < 2 ^ 32)
    (hc : c < 2 ^ 32) (hd : d < 2 ^ 32) : hdrDw x 0 = a ∧ hdrDw x 1 = b ∧ hdrDw x 2 = c ∧ hdrDw x 3 = d := by
  subst h
  unfold hdrDw
  refine ⟨?_, ?_, ?_, ?_⟩
  · show _ / 2 ^ 96 % 2 ^ 32 = a; omega
  · show _ / 2 ^ 64 % 2 ^ 32 = b; omega
  · show _ / 2 ^ 32 % 2 ^ 32 = c; omega
  · show _ / 2 ^ 0 % 2 ^ 32 = d; omega

theorem rc_header (t : TlpUs) (d0 d1 d2 be : Nat) (d : Nat → Nat) (e0 : d 0 = d0) (e1 : d 1 = d1) (e2 : d 2 = d2) (m : UrxMeta)
    (hmd : m = rcConv d be) (h : RcDesc t d0 d1 d2)
    (hk : (t.fmt = 0 ∧ t.length = 0 ∨ t.fmt = 2 ∧ 0 < t.length) ∧ (t.type = 0x0A ∨ t.type = 0x0B))
    (hla : t.lower_address < 128) :
    Dw0Layout { t.toTlp with th := 0, td := 0, at_ := 0 } (hdrDw m.hdr 0) ∧
    CplLayout { t.toTlp with bcm := 0 } (hdrDw m.hdr 1) (hdrDw m.hdr 2) ∧ hdrDw m.hdr 3 = 0 ∧ m.hdr < 2 ^ 128 := by
  have f1 : urxBits d 1 0 11 = t.length := by unfold urxBits; rw [e1]; exact h.length
  have f2 : urxBits d 0 29 1 = (if t.type = 0x0B then 1 else 0) := by unfold urxBits; rw [e0]; exact h.locked
  have f3 : urxBits d 2 25 3 = t.tc := by unfold urxBits; rw [e2]; exact h.tc
  have f4 : bits d2 30 28 = t.attr := h.attr
  have f4a : urxBits d 2 30 1 = t.attr / 4 := by rw [← f4]; unfold urxBits bits; rw [e2]; omega
  have f4b : urxBits d 2 28 2 = t.attr % 4 := by rw [← f4]; unfold urxBits bits; rw [e2]; omega
  have f5 : urxBits d 1 14 1 = t.ep := by unfold urxBits; rw [e1]; exact h.poisoned
  have f6 : urxBits d 2 8 16 = idBits t.completer_id := by unfold urxBits; rw [e2]; exact h.completer_id
  have f7 : urxBits d 1 11 3 = t.status := by unfold urxBits; rw [e1]; exact h.status
  have f8 : urxBits d 0 16 13 = t.byte_count := by unfold urxBits; rw [e0]; exact h.byte_count
  have f9 : urxBits d 1 16 16 = idBits t.requester_id := by unfold urxBits; rw [e1]; exact h.requester_id
  have f10 : urxBits d 2 0 8 = t.tag := by unfold urxBits; rw [e2]; exact h.tag
  have f11 : urxBits d 0 0 7 = t.lower_address := by
    have := h.lower_address
    unfold bits at this
    unfold urxBits; rw [e0]; omega
  have g1 := f1 ▸ urxBits_lt d 1 0 11
  have g3 := f3 ▸ urxBits_lt d 2 25 3
  have g4a := f4a ▸ urxBits_lt d 2 30 1
  have g4b := f4b ▸ urxBits_lt d 2 28 2
  have g5 := f5 ▸ urxBits_lt d 1 14 1
  have g6 := f6 ▸ urxBits_lt d 2 8 16
  have g7 := f7 ▸ urxBits_lt d 1 11 3
  have g8 := f8 ▸ urxBits_lt d 0 16 13
  have g9 := f9 ▸ urxBits_lt d 1 16 16
  have g10 := f10 ▸ urxBits_lt d 2 0 8
  have hfmt : (if urxBits d 1 0 11 ≠ 0 then 2 else 0) = t.fmt := by
    rw [f1]; split <;> omega
  have htype : 10 + urxBits d 0 29 1 = t.type := by rw [f2]; split <;> omega
  have hfl : t.fmt < 4 := by omega
  have htl : t.type < 32 := by omega
  have hm : m.hdr = (t.fmt * 2 ^ 29 + t.type * 2 ^ 24 + t.tc * 2 ^ 20 + t.attr / 4 * 2 ^ 18 + t.ep * 2 ^ 14 +
      t.attr % 4 * 2 ^ 12 + t.length % 2 ^ 10) * 2 ^ 96 + ((idBits t.completer_id * 2 ^ 16 + t.status * 2 ^ 13 + t.byte_count % 2 ^ 12) * 2 ^ 64) +
      ((idBits t.requester_id * 2 ^ 16 + t.tag * 2 ^ 8 + t.lower_address) * 2 ^ 32 + 0) := by
    rw [hmd]
    unfold rcConv
    simp only []
    rw [hfmt, htype, f1, f3, f4a, f4b, f5, f6, f7, f8, f9, f10, f11]
    omega
  obtain ⟨r0, r1, r2, r3⟩ := hdrDw_of hm (by omega) (by omega) (by omega) (by omega)
  rw [r0, r1, r2, r3]
  refine ⟨?_, ?_, rfl, by rw [hm]; omega⟩
  · unfold Dw0Layout bits
    simp only []
    refine ⟨by omega, ?_, ?_, ?_, ?_, ?_, ?_, ?_, ?_, ?_, ?_⟩ <;> omega
  · unfold CplLayout bits
    simp only []
    refine ⟨by omega, by omega, ?_, ?_, ?_, ?_, ?_, ?_, ?_, ?_⟩ <;> omega

theorem rc_error (d : Nat → Nat) (be : Nat) :
    (urxBits d 0 12 4, (rcConv d be).error) ∈ rcErrors ∨
    (urxBits d 0 12 4 ∉ rcErrors.map Prod.fst ∧ (rcConv d be).error = 0) := by
  have h := urxBits_lt d 0 12 4
  show (urxBits d 0 12 4, rcError (urxBits d 0 12 4)) ∈ rcErrors ∨ (urxBits d 0 12 4 ∉ _ ∧ rcError (urxBits d 0 12 4) = 0)
  revert h
  generalize urxBits d 0 12 4 = x
  intro h
  have : ∀ x : Fin 16, (x.val, rcError x.val) ∈ rcErrors ∨ (x.val ∉ rcErrors.map Prod.fst ∧ rcError x.val = 0) := by decide
  exact this ⟨x, h⟩

theorem cq_header (t : TlpUs) (data : Bool) (d0 d1 d2 d3 be : Nat) (d : Nat → Nat) (e0 : d 0 = d0) (e1 : d 1 = d1) (e2 : d 2 = d2)
    (e3 : d 3 = d3) (m : UrxMeta) (hmd : m = cqConv d be) (h : CqDesc t data d0 d1 d2 d3 be) :
    Dw0Layout { t.toTlp with fmt := if data then 3 else 1, th := 0, td := 0, ep := 0 } (hdrDw m.hdr 0) ∧
    ReqDw1Layout t.toTlp (hdrDw m.hdr 1) ∧ hdrDw m.hdr 2 * 2 ^ 32 + hdrDw m.hdr 3 = t.address ∧ m.hdr < 2 ^ 128 ∧
    m.bar = t.bar_id ∧ m.func = t.completer_id.function := by
  have f1 : urxBits d 2 0 11 = t.length := by unfold urxBits; rw [e2]; exact h.length
  have f3 : urxBits d 3 25 3 = t.tc := by unfold urxBits; rw [e3]; exact h.tc
  have f4 : bits d3 30 28 = t.attr := h.attr
  have f4a : urxBits d 3 30 1 = t.attr / 4 := by rw [← f4]; unfold urxBits bits; rw [e3]; omega
  have f4b : urxBits d 3 28 2 = t.attr % 4 := by rw [← f4]; unfold urxBits bits; rw [e3]; omega
  have f5 : urxBits d 0 0 2 = t.at_ := by unfold urxBits; rw [e0]; exact h.at_
  have f6 : urxBits d 2 16 16 = idBits t.requester_id := by unfold urxBits; rw [e2]; exact h.requester_id
  have f7 : urxBits d 3 0 8 = t.tag := by unfold urxBits; rw [e3]; exact h.tag
  have f8 : be % 16 = t.first_be := by have := h.first_be; unfold bits at this; omega
  have f9 : be / 16 % 16 = t.last_be := by have := h.last_be; unfold bits at this; omega
  have f10 : urxBits d 0 2 30 = d0 / 4 := by unfold urxBits; rw [e0]; have := h.dwords; omega
  have f11 : urxBits d 1 0 32 = d1 := by unfold urxBits; rw [e1]; have := h.dwords; omega
  have f12 : cqFmtType (urxBits d 2 11 4) (urxBits d 2 0 11) (urxBits d 3 16 3) = (if data then 3 else 1, t.type) := by
    have h1 : urxBits d 2 11 4 = bits d2 14 11 := by unfold urxBits bits; rw [e2]
    rw [h1]
    have := h.kind
    unfold cqKinds at this
    simp only [List.mem_cons, Prod.mk.injEq, List.not_mem_nil, or_false] at this
    rcases this with ⟨a, rfl, c⟩ | ⟨a, rfl, c⟩ | ⟨a, rfl, c⟩ | ⟨a, rfl, c⟩ | ⟨a, rfl, c⟩ | ⟨a, rfl, c⟩ | ⟨a, rfl, c⟩ | ⟨a, rfl, c⟩ <;>
      rw [a, c] <;> rfl
  have htl : t.type < 16 := by
    have := h.kind
    unfold cqKinds at this
    simp only [List.mem_cons, Prod.mk.injEq, List.not_mem_nil, or_false] at this
    omega
  have g1 := f1 ▸ urxBits_lt d 2 0 11
  have g3 := f3 ▸ urxBits_lt d 3 25 3
  have g4a := f4a ▸ urxBits_lt d 3 30 1
  have g4b := f4b ▸ urxBits_lt d 3 28 2
  have g5 := f5 ▸ urxBits_lt d 0 0 2
  have g6 := f6 ▸ urxBits_lt d 2 16 16
  have g7 := f7 ▸ urxBits_lt d 3 0 8
  have g8 : t.first_be < 16 := by omega
  have g9 : t.last_be < 16 := by omega
  have hdw := h.dwords
  have haddr := h.address
  have hbar : m.bar = t.bar_id := by
    rw [hmd]; show urxBits d 3 16 3 = _
    unfold urxBits; rw [e3]; exact h.bar_id
  have hfunc : m.func = t.completer_id.function := by
    rw [hmd]; show urxBits d 3 8 8 = _
    unfold urxBits; rw [e3]; exact h.function
  have hfl : (if data then 3 else 1) < 4 := by cases data <;> decide
  generalize hfm : (if data then 3 else 1) = fm at *
  have hm : m.hdr = (fm * 2 ^ 29 + t.type * 2 ^ 24 + t.tc * 2 ^ 20 + t.attr / 4 * 2 ^ 18 +
      t.attr % 4 * 2 ^ 12 + t.at_ * 2 ^ 10 + t.length % 2 ^ 10) * 2 ^ 96 +
      ((idBits t.requester_id * 2 ^ 16 + t.tag * 2 ^ 8 + t.last_be * 2 ^ 4 + t.first_be) * 2 ^ 64) + (d1 * 2 ^ 32 + d0 / 4 * 4) := by
    rw [hmd]
    unfold cqConv
    simp only []
    rw [f12, f1, f3, f4a, f4b, f5, f6, f7, f8, f9, f10, f11]
    simp only []
    omega
  obtain ⟨r0, r1, r2, r3⟩ := hdrDw_of hm (by omega) (by omega) (by omega) (by omega)
  rw [r0, r1, r2, r3]
  refine ⟨?_, ?_, by omega, by rw [hm]; omega, hbar, hfunc⟩
  · unfold Dw0Layout bits
    simp only []
    refine ⟨by omega, ?_, ?_, ?_, ?_, ?_, ?_, ?_, ?_, ?_, ?_⟩ <;> omega
  · unfold ReqDw1Layout bits
    refine ⟨by omega, ?_, ?_, ?_, ?_⟩ <;> omega

end Verif.Proofs
