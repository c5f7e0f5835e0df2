import Verif.Proofs.Us
/-!
C29 (UltraScale CQ, CC, RQ and RC descriptors).
-/
namespace Verif.Props
open Verif Verif.Model Verif.Proofs Verif.Spec

local instance (i : PcieId) : Decidable (WfId i) := by unfold WfId; infer_instance

/-- C29: a completer request survives `pack_us_cq` and `unpack_us_cq` in all fields the frame
carries, with or without parity checking; in particular the byte-enable and parity assertions
accept every packed frame. -/
theorem C29_cq_roundtrip_partial (t : TlpUs) (h : WfCq t) (check : Bool) :
    (t.packCq.bind fun p => ({} : TlpUs).unpackCq p check) = some (carriedCq t) :=
  cq_roundtrip t h check

/-- C29: the same for requester requests, including configuration requests. -/
theorem C29_rq_roundtrip_partial (t : TlpUs) (h : WfRq t) (check : Bool) :
    (t.packRq.bind fun p => ({} : TlpUs).unpackRq p check) = some (carriedRq t) :=
  rq_roundtrip t h check

/-- C29: the same for completer completions. -/
theorem C29_cc_roundtrip_partial (t : TlpUs) (h : WfCpl t) (hla : t.lower_address < 128) (check : Bool) :
    (t.packCc.bind fun p => ({} : TlpUs).unpackCc p check) = some (carriedCc t) :=
  cc_roundtrip t h hla check

/-- C29: the same for requester completions. -/
theorem C29_rc_roundtrip_partial (t : TlpUs) (h : WfCpl t) (hla : t.lower_address < 4096)
    (he : t.error_code < 16) (check : Bool) :
    (t.packRc.bind fun p => ({} : TlpUs).unpackRc p check) = some (carriedRc t) :=
  rc_roundtrip t h hla he check

/-- C29: a completer request frame is the four-DWORD descriptor of the Xilinx documentation followed
by the payload, with the side-band byte enables of the TLP and valid parity. -/
theorem C29_cq_layout (t : TlpUs) (h : WfCq t) :
    ∃ d0 d1 d2 d3 p, t.packCq = some p ∧ p.data = d0 :: d1 :: d2 :: d3 :: t.data ∧
      CqLayout t d0 d1 d2 d3 ∧ p.first_be = t.first_be ∧ p.last_be = t.last_be ∧
      p.discontinue = t.discontinue ∧ p.checkParity = true := by
  obtain ⟨hk, _⟩ := addr_kinds t h.toUsAddr false
  refine ⟨_, _, t.reqDw2, t.cqDw3, _, by unfold TlpUs.packCq; rw [if_pos hk], ?_,
    cq_layout t h _ _ rfl, rfl, rfl, rfl, checkParity_update _⟩
  simp only [UsFrame.updateParity, TlpUs.addrDw, List.cons_append, List.nil_append]

/-- C29: the requester request frame. -/
theorem C29_rq_layout (t : TlpUs) (h : WfRq t) :
    ∃ d0 d1 d2 d3 p, t.packRq = some p ∧ p.data = d0 :: d1 :: d2 :: d3 :: t.data ∧
      RqLayout t d0 d1 d2 d3 ∧ p.first_be = t.first_be ∧ p.last_be = t.last_be ∧
      p.discontinue = t.discontinue ∧ p.seq_num = t.seq_num ∧ p.checkParity = true := by
  have hd : ∃ d0 d1, (if isAddrReq t.fmt_type then t.addrDw
      else [(t.register_number &&& 0x3ff) <<< 2, 0]) = [d0, d1] := by
    split
    · exact ⟨_, _, rfl⟩
    · exact ⟨_, _, rfl⟩
  obtain ⟨d0, d1, hd⟩ := hd
  have hk : (isAddrReq t.fmt_type || isCfgReq t.fmt_type) = true := by
    rcases h.kind with ha | hc
    · rw [(addr_kinds t ha false).1]; rfl
    · rw [(cfg_kinds t hc).2.1]; simp
  refine ⟨d0, d1, t.reqDw2, _, _, by unfold TlpUs.packRq; rw [if_pos hk], ?_,
    rq_layout t h _ _ hd, rfl, rfl, rfl, rfl, checkParity_update _⟩
  simp only [UsFrame.updateParity, hd, List.cons_append, List.nil_append]

/-- C29: the completer completion frame. -/
theorem C29_cc_layout (t : TlpUs) (h : WfCpl t) (hla : t.lower_address < 128) :
    ∃ d0 d1 d2 p, t.packCc = some p ∧ p.data = d0 :: d1 :: d2 :: t.data ∧
      CcLayout t d0 ∧ CplLayoutUs t t.completer_id_enable d1 d2 ∧
      p.discontinue = t.discontinue ∧ p.checkParity = true := by
  refine ⟨t.ccDw0, t.cplDw1, _, _, by unfold TlpUs.packCc; rw [if_pos (isCpl_kinds t h).1], ?_,
    cc_layout t h hla, cpl_layout_us t h _, rfl, checkParity_update _⟩
  simp only [UsFrame.updateParity, List.cons_append, List.nil_append]

/-- C29: the requester completion frame. -/
theorem C29_rc_layout (t : TlpUs) (h : WfCpl t) (hla : t.lower_address < 4096)
    (he : t.error_code < 16) :
    ∃ d0 d1 d2 p, t.packRc = some p ∧ p.data = d0 :: d1 :: d2 :: t.data ∧
      RcLayout t d0 ∧ CplLayoutUs t false d1 d2 ∧
      p.discontinue = t.discontinue ∧ p.checkParity = true := by
  refine ⟨t.rcDw0, t.cplDw1, _, _, by unfold TlpUs.packRc; rw [if_pos (isCpl_kinds t h).1], ?_,
    rc_layout t h hla he, cpl_layout_us t h _, rfl, checkParity_update _⟩
  simp only [UsFrame.updateParity, List.cons_append, List.nil_append]

/-- C29: in a completer request frame, the descriptor DWORDs have no byte enables, the first payload
DWORD has the first-DWORD byte enables, the last of several has the last-DWORD byte enables and all
others are fully enabled. -/
theorem C29_cq_byte_enables (t : TlpUs) (p : UsFrame) (h : t.packCq = some p) :
    p.byte_en.length = p.data.length ∧ (∀ j, j < 4 → p.byte_en[j]? = some 0) ∧
    ∀ j, j < t.data.length → p.byte_en[4 + j]? =
      some (if j = 0 then t.first_be else if j + 1 = t.data.length then t.last_be else 0xf) := by
  unfold TlpUs.packCq at h
  split at h
  · cases h
    simp only [UsFrame.updateParity]
    refine ⟨by simp [payloadBe_length, TlpUs.addrDw], ?_, ?_⟩
    · intro j hj
      match j, hj with
      | 0, _ => rfl
      | 1, _ => rfl
      | 2, _ => rfl
      | 3, _ => rfl
    · intro j hj
      rw [List.getElem?_append_right (by simp), ← payloadBe_get _ _ _ _ hj]
      simp
  · cases h

/-- C29: in a requester completion frame, payload byte `i` is enabled exactly when it is one of the
`byte_count` bytes that start at offset `lower_address % 4` of the payload. The last DWORD of the
payload is assumed to hold at least one of them. -/
theorem C29_rc_byte_enables (t : TlpUs) (p : UsFrame) (h : t.packRc = some p)
    (hl : t.length = t.data.length) (hb : 4 * (t.length - 1) < t.lower_address % 4 + t.byte_count) :
    (∀ j, j < 3 → p.byte_en[j]? = some 0) ∧
    ∀ i, i < 4 * t.data.length → ∃ be, p.byte_en[3 + i / 4]? = some be ∧
      be.testBit (i % 4) =
        decide (t.lower_address % 4 ≤ i ∧ i < t.lower_address % 4 + t.byte_count) := by
  unfold TlpUs.packRc at h
  split at h
  · cases h
    simp only [UsFrame.updateParity]
    refine ⟨?_, ?_⟩
    · intro j hj
      match j, hj with
      | 0, _ => rfl
      | 1, _ => rfl
      | 2, _ => rfl
    · intro i hi
      rw [hl] at hb ⊢
      exact cplBe_get _ _ _ _ hi hb
  · cases h

/-- C29: packing rejects every TLP type the interface does not carry. -/
theorem C29_kinds (t : TlpUs) :
    (t.packCq.isSome ↔ (t.type = 0 ∧ t.fmt < 4) ∨ (t.type = 2 ∧ (t.fmt = 0 ∨ t.fmt = 2))) ∧
    (t.packRq.isSome ↔ (t.type = 0 ∧ t.fmt < 4) ∨
      ((t.type = 2 ∨ t.type = 4 ∨ t.type = 5) ∧ (t.fmt = 0 ∨ t.fmt = 2))) ∧
    (t.packCc.isSome ↔ (t.fmt = 0 ∨ t.fmt = 2) ∧ (t.type = 0x0A ∨ t.type = 0x0B)) ∧
    (t.packRc.isSome ↔ (t.fmt = 0 ∨ t.fmt = 2) ∧ (t.type = 0x0A ∨ t.type = 0x0B)) := by
  have i1 : ∀ (b : Bool) (x : UsFrame), (if b = true then some x else none).isSome = b := by
    intro b x; cases b <;> rfl
  unfold TlpUs.packCq TlpUs.packRq TlpUs.packCc TlpUs.packRc
  simp only [i1]
  simp only [isAddrReq, isCfgReq, isCpl, Tlp.fmt_type, TLP_IO_READ, TLP_IO_WRITE, TLP_MEM_READ,
    TLP_MEM_READ_64, TLP_MEM_WRITE, TLP_MEM_WRITE_64, TLP_CFG_READ_0, TLP_CFG_READ_1,
    TLP_CFG_WRITE_0, TLP_CFG_WRITE_1, TLP_CPL, TLP_CPL_DATA, TLP_CPL_LOCKED, TLP_CPL_LOCKED_DATA,
    FMT_3DW, FMT_4DW, FMT_3DW_DATA, FMT_4DW_DATA, Prod.mk.injEq, Bool.or_eq_true,
    decide_eq_true_eq]
  refine ⟨?_, ?_, ?_, ?_⟩ <;> omega

/-- C29 fails for poisoned TLPs: all four descriptors have a poisoned bit (or a poisoned error code
for RC), but `pack_us_*` does not set it ("TODO poisoned"), so `ep` is lost. -/
theorem C29_poisoned_fails : ∃ t : TlpUs, WfRq t ∧ t.ep = 1 ∧
    ∃ u, (t.packRq.bind fun p => ({} : TlpUs).unpackRq p true) = some u ∧ u.ep = 0 := by
  refine ⟨{ fmt := 2, length := 1, data := [5], ep := 1, first_be := 15 }, ?_, rfl,
    _, rq_roundtrip _ ?_ true, rfl⟩ <;>
  exact ⟨⟨by decide, by decide, by decide, by decide, by decide, by decide, by decide⟩,
      Or.inl ⟨by decide, by decide, by decide, by decide⟩, by decide⟩

/-! ### Instances -/

def exampleCq : TlpUs :=
  { fmt := 3, type := 0, length := 3, data := [1, 2, 3], address := 0x123456780, tag := 7,
    first_be := 0xe, last_be := 0x3, requester_id := ⟨1, 2, 3⟩, completer_id := ⟨4, 5, 6⟩,
    bar_id := 2, bar_aperture := 24, tc := 1, attr := 5, at_ := 2 }

theorem exampleCq_wf : WfCq exampleCq :=
  ⟨⟨by decide, by decide, by decide, by decide, by decide, by decide, by decide⟩,
    ⟨by decide, by decide, by decide, by decide⟩, by decide, by decide, by decide⟩

example : (exampleCq.packCq.bind fun p => ({} : TlpUs).unpackCq p true) =
    some { exampleCq with completer_id := ⟨0, 0, 6⟩ } := C29_cq_roundtrip_partial _ exampleCq_wf true

example : WfRq exampleCq := ⟨exampleCq_wf.toUsCommon, Or.inl exampleCq_wf.toUsAddr, by decide⟩

example : WfRq { fmt := 2, «type» := 5, length := 1, data := [9], register_number := 4, completer_id := ⟨3, 0, 1⟩ } :=
  ⟨⟨by decide, by decide, by decide, by decide, by decide, by decide, by decide⟩,
    Or.inr ⟨by decide, by decide⟩, by decide⟩

def exampleRc : TlpUs :=
  { fmt := 2, type := 0x0A, length := 2, data := [1, 2], lower_address := 0x7e, byte_count := 5,
    completer_id := ⟨4, 5, 6⟩, requester_id := ⟨1, 2, 3⟩, tag := 9 }

theorem exampleRc_wf : WfCpl exampleRc :=
  ⟨⟨by decide, by decide, by decide, by decide, by decide, by decide, by decide⟩,
    by decide, by decide, by decide, by decide, by decide⟩

example : exampleRc.packRc.map (·.byte_en) = some [0, 0, 0, 0xc, 0x7] := by decide
example : (exampleRc.packRc.bind fun p => ({} : TlpUs).unpackRc p true) = some exampleRc :=
  C29_rc_roundtrip_partial _ exampleRc_wf (by decide) (by decide) true
example : (exampleRc.packCc.bind fun p => ({} : TlpUs).unpackCc p true) = some exampleRc :=
  C29_cc_roundtrip_partial _ exampleRc_wf (by decide) true

end Verif.Props
