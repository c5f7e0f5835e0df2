import Verif.Proofs.TlpPack
/-!
C08 (completions survive pack/unpack) and C09 (requests).
-/
namespace Verif.Props
open Verif Verif.Model Verif.Proofs Verif.Spec

/-! ### C08 -/

/-- C08: every well-formed completion is packed, and unpacking the packed DWORDs into a fresh TLP
gives back the same TLP in every field (including those `TLP.__eq__` does not compare). -/
theorem C08_completion_roundtrip (t : Tlp) (h : WfCompletion t) :
    ∃ p, t.pack = some p ∧ ({} : Tlp).unpack p = some t := by
  have hcpl := unpackCpl_pack t
  have hdw0 := unpackDw0_packDw0 t {} h.common
    (by have := h.kind.1; omega) (by have := h.kind.2; omega)
  obtain ⟨⟨hf, ht⟩, hcom, _, _, _, _, _, _, _, hu⟩ := id h
  have hreq : isRequest t.fmt_type = false := by
    unfold Tlp.fmt_type
    rcases hf with hf | hf <;> rcases ht with ht | ht <;> rw [hf, ht] <;> decide
  have hc : isCompletion t.fmt_type = true := by
    unfold Tlp.fmt_type
    rcases hf with hf | hf <;> rcases ht with ht | ht <;> rw [hf, ht] <;> decide
  refine ⟨_, by unfold Tlp.pack; rw [hreq, hc]; rfl, ?_⟩
  unfold Tlp.unpack
  simp only [List.cons_append, List.nil_append, List.getElem?_cons_zero, List.getElem?_cons_succ,
    Option.bind_eq_bind, Option.bind_some, hdw0]
  have e1 : (Tlp.mk t.fmt t.type t.tc t.th t.td t.ep t.attr t.at_ t.length ⟨0, 0, 0⟩ 0 0 0 ⟨0, 0, 0⟩
    ⟨0, 0, 0⟩ 0 0 0 0 0 0 []).fmt_type = t.fmt_type := rfl
  simp only [e1, hreq, hc, Bool.false_eq_true, if_false, if_true, hcpl _ h]
  obtain ⟨hu1, hu2, hu3, hu4, hu5⟩ := hu
  obtain ⟨_, _, _, _, _, _, hl⟩ := hcom
  cases t with
  | mk fmt type tc th td ep attr at_ length cid status bcm bc rid did tag fbe lbe la addr reg data =>
  simp only at *
  subst hu1 hu2 hu3 hu4 hu5
  unfold Tlp.unpackData
  rcases hf with hf | hf <;> subst hf <;> simp at hl ⊢
  exact hl.2

/-- C08: the packed form of a well-formed completion has the layout required by the PCIe base
specification: three header DWORDs followed by the payload. -/
theorem C08_completion_layout (t : Tlp) (h : WfCompletion t) :
    ∃ d0 d1 d2, t.pack = some (d0 :: d1 :: d2 :: t.data) ∧ Dw0Layout t d0 ∧ CplLayout t d1 d2 := by
  have h0 := dw0_layout t h.common (by have := h.kind.1; omega) (by have := h.kind.2; omega)
  have h1 := cpl_layout t h
  obtain ⟨⟨hf, ht⟩, ⟨_, _, _, _, _, _, hl⟩, _, _, _, _, _, _, _, _⟩ := id h
  refine ⟨_, _, _, ?_, h0, h1⟩
  have hreq : isRequest t.fmt_type = false := by
    unfold Tlp.fmt_type
    rcases hf with hf | hf <;> rcases ht with ht | ht <;> rw [hf, ht] <;> decide
  have hc : isCompletion t.fmt_type = true := by
    unfold Tlp.fmt_type
    rcases hf with hf | hf <;> rcases ht with ht | ht <;> rw [hf, ht] <;> decide
  unfold Tlp.pack
  simp only [hreq, hc, Bool.false_eq_true, if_false, if_true, List.cons_append, List.nil_append]
  congr 4
  rcases hf with hf | hf <;> simp [hf] at hl ⊢
  exact hl.2

/-- A 1024-DWORD completion with byte count 4096: both encodings wrap to zero. -/
example : WfCompletion {
      fmt := 2, type := 0x0A, length := 1024, byte_count := 4096, tag := 5,
      attr := 5, requester_id := ⟨1, 2, 3⟩, completer_id := ⟨4, 0, 1⟩, lower_address := 4,
      data := List.replicate 1024 7 } := by
  constructor
  case common =>
    refine ⟨by decide, by decide, by decide, by decide, by decide, by decide, ?_⟩
    rw [if_pos (Or.inl rfl)]
    exact ⟨List.length_replicate.symm, by decide, by decide⟩
  all_goals simp [WfId]

/-! ### C09 -/

/-- C09 is false of the code. Configuration requests lose their register number
(`>> 0x3ff` in `unpack` where a mask was meant). -/
theorem C09_cfg_roundtrip_fails :
    ¬ ∀ t : Tlp, WfCfgRequest t → ∃ p, t.pack = some p ∧ ({} : Tlp).unpack p = some t := by
  intro h
  have hw : WfCfgRequest ({ fmt := 0, type := 4, length := 1, register_number := 1, first_be := 15 } : Tlp) := by
    constructor
    · constructor <;> simp [WfCommon, WfId]
    all_goals simp [WfId]
  obtain ⟨p, h1, h2⟩ := h _ hw
  rw [show Tlp.pack { fmt := 0, type := 4, length := 1, register_number := 1, first_be := 15 } =
    some [0x04000001, 0x0000000f, 0x4] by decide +kernel] at h1
  cases h1
  revert h2
  decide +kernel

/-- C09 is false of the code for every memory or IO read with a 3DW header: `unpack` reads a
fourth DWORD that `pack` never produced (IndexError). -/
theorem C09_read_3dw_roundtrip_fails (t : Tlp) (h : WfAddrRequest t) (hf : t.fmt = 0) :
    ∃ p, t.pack = some p ∧ ({} : Tlp).unpack p = none := by
  have hdw0 := unpackDw0_packDw0 t {} h.common (by omega) (by have := h.kind; omega)
  have hdw1 := unpackReqDw1_packReqDw1 t
  have hreq : isRequest t.fmt_type = true := by
    unfold Tlp.fmt_type
    rcases h.kind with ⟨ht, _⟩ | ⟨ht, _⟩ | ⟨ht, _⟩ <;> rw [hf, ht] <;> decide
  have hcfg : isCfg t.fmt_type = false := by
    unfold Tlp.fmt_type
    rcases h.kind with ⟨ht, _⟩ | ⟨ht, _⟩ | ⟨ht, _⟩ <;> rw [hf, ht] <;> decide
  have hp : t.pack = some [t.packDw0, t.packReqDw1, t.address &&& 0xfffffffc] := by
    unfold Tlp.pack
    simp [hreq, hcfg, hf, Tlp.packAddr]
  refine ⟨_, hp, ?_⟩
  unfold Tlp.unpack
  simp only [List.getElem?_cons_zero, List.getElem?_cons_succ,
    Option.bind_eq_bind, Option.bind_some, hdw0]
  have e1 : (Tlp.mk t.fmt t.type t.tc t.th t.td t.ep t.attr t.at_ t.length ⟨0, 0, 0⟩ 0 0 0 ⟨0, 0, 0⟩
    ⟨0, 0, 0⟩ 0 0 0 0 0 0 []).fmt_type = t.fmt_type := rfl
  have e2 : (Tlp.mk t.fmt t.type t.tc t.th t.td t.ep t.attr t.at_ t.length ⟨0, 0, 0⟩ 0 0 0
    t.requester_id ⟨0, 0, 0⟩ t.tag t.first_be t.last_be 0 0 0 []).fmt_type = t.fmt_type := rfl
  simp only [e1, hreq, if_true, hdw1 _ h.toWfRequest, e2, hcfg, Bool.false_eq_true, if_false]
  rw [if_pos (Or.inl hf)]
  rfl

/-- C09 is false of the code for 64-bit memory requests: the two address DWORDs are not those of
the specification, and the address is not recovered. -/
theorem C09_4dw_roundtrip_fails :
    ¬ ∀ t : Tlp, WfAddrRequest t → t.fmt = 3 →
      ∃ p, t.pack = some p ∧ ({} : Tlp).unpack p = some t := by
  intro h
  have hw : WfAddrRequest ({
      fmt := 3, type := 0, length := 1, address := 0x100000000, first_be := 15,
      data := [0xdeadbeef] } : Tlp) := by
    constructor
    · constructor <;> simp [WfCommon, WfId]
    all_goals simp
  obtain ⟨p, h1, h2⟩ := h _ hw rfl
  rw [show Tlp.pack {
      fmt := 3, type := 0, length := 1, address := 0x100000000, first_be := 15,
      data := [0xdeadbeef] } = some [0x60000001, 0x0000000f, 1, 1, 0xdeadbeef] by decide +kernel] at h1
  cases h1
  revert h2
  decide +kernel

/-- C09, part that holds: a configuration request survives except for its register number, which
is always decoded as 0; in particular requests for register 0 survive. Missing for the full
claim: the register number, and memory/IO requests. -/
theorem C09_cfg_roundtrip_partial (t : Tlp) (h : WfCfgRequest t) :
    ∃ p, t.pack = some p ∧ ({} : Tlp).unpack p = some { t with register_number := 0 } := by
  have hdw0 := unpackDw0_packDw0 t {} h.common (by have := h.kind.1; omega)
    (by have := h.kind.2; omega)
  have hdw1 := unpackReqDw1_packReqDw1 t
  have hkind := h.kind
  have hreq : isRequest t.fmt_type = true := by
    unfold Tlp.fmt_type
    rcases hkind.1 with hf | hf <;> rcases hkind.2 with ht | ht <;> rw [hf, ht] <;> decide
  have hcfg : isCfg t.fmt_type = true := by
    unfold Tlp.fmt_type
    rcases hkind.1 with hf | hf <;> rcases hkind.2 with ht | ht <;> rw [hf, ht] <;> decide
  have hd : (((t.register_number &&& 0x3ff) <<< 2) ||| (t.dest_id.toInt <<< 16)) =
      cat (4 * t.register_number) 16 (idBits t.dest_id) := by
    rw [toInt_idBits _ h.dest, and_1023, Nat.shiftLeft_eq _ 2, or_shift _ _ 16 (by omega), cat]
    have := h.register; omega
  refine ⟨_, by unfold Tlp.pack; rw [hreq, hcfg]; rfl, ?_⟩
  unfold Tlp.unpack
  simp only [List.cons_append, List.nil_append, List.getElem?_cons_zero, List.getElem?_cons_succ,
    Option.bind_eq_bind, Option.bind_some, hdw0]
  have e1 : (Tlp.mk t.fmt t.type t.tc t.th t.td t.ep t.attr t.at_ t.length ⟨0, 0, 0⟩ 0 0 0 ⟨0, 0, 0⟩
    ⟨0, 0, 0⟩ 0 0 0 0 0 0 []).fmt_type = t.fmt_type := rfl
  have e2 : (Tlp.mk t.fmt t.type t.tc t.th t.td t.ep t.attr t.at_ t.length ⟨0, 0, 0⟩ 0 0 0
    t.requester_id ⟨0, 0, 0⟩ t.tag t.first_be t.last_be 0 0 0 []).fmt_type = t.fmt_type := rfl
  simp only [e1, hreq, if_true, hdw1 _ h.toWfRequest, e2, hcfg, hd]
  have hb : 4 * t.register_number < 2 ^ 16 := by have := h.register; omega
  have hz : (cat (4 * t.register_number) 16 (idBits t.dest_id) >>> 2) >>> 1023 = 0 := by
    rw [← Nat.shiftRight_add, cat_shr _ _ _ _ hb (by decide), Nat.shiftRight_eq_div_pow]
    apply Nat.div_eq_of_lt
    exact Nat.lt_of_lt_of_le (idBits_lt _ h.dest)
      (Nat.pow_le_pow_right (n := 2) (i := 16) (j := 1009) (by decide) (by decide))
  rw [hz, cat_shr _ _ _ _ hb (by decide), Nat.sub_self, Nat.shiftRight_zero, fromInt_idBits _ h.dest]
  obtain ⟨⟨⟨_, _, _, _, _, _, hl⟩, _, _, _, _, hu⟩, hk, _, _, hu'⟩ := h
  obtain ⟨hu1, hu2, hu3, hu4, hu5⟩ := hu
  cases t with
  | mk fmt type tc th td ep attr at_ length cid status bcm bc rid did tag fbe lbe la addr reg data =>
  simp only at *
  subst hu1 hu2 hu3 hu4 hu5 hu'
  unfold Tlp.unpackData
  rcases hk.1 with hf | hf <;> subst hf <;> simp at hl ⊢
  exact hl.2

/-- C09, part that holds for 3DW memory and IO requests: what `pack` produces is the layout of the
specification, so a correct decoder recovers every field. Missing: the code's own `unpack`. -/
theorem C09_pack_3dw_layout_partial (t : Tlp) (h : WfAddrRequest t) (hf : t.fmt = 0 ∨ t.fmt = 2) :
    ∃ d0 d1, t.pack = some (d0 :: d1 :: t.address :: t.data) ∧
      Dw0Layout t d0 ∧ ReqDw1Layout t d1 := by
  have h0 := dw0_layout t h.common (by omega) (by have := h.kind; omega)
  refine ⟨_, _, ?_, h0, reqDw1_layout t h.toWfRequest⟩
  have hreq : isRequest t.fmt_type = true := by
    unfold Tlp.fmt_type
    rcases h.kind with ⟨ht, _⟩ | ⟨ht, _⟩ | ⟨ht, _⟩ <;> rcases hf with hf | hf <;> rw [hf, ht] <;>
      first | decide | (exfalso; omega)
  have hcfg : isCfg t.fmt_type = false := by
    unfold Tlp.fmt_type
    rcases h.kind with ⟨ht, _⟩ | ⟨ht, _⟩ | ⟨ht, _⟩ <;> rcases hf with hf | hf <;> rw [hf, ht] <;>
      first | decide | (exfalso; omega)
  have hr := h.range
  rw [if_pos hf] at hr
  obtain ⟨c, hc⟩ := h.aligned
  have ha : t.address &&& 0xfffffffc = t.address := by rw [and_fffffffc]; omega
  obtain ⟨_, _, _, _, _, _, hl⟩ := h.common
  unfold Tlp.pack
  rcases hf with hf | hf <;> simp [hf] at hl <;> simp [hreq, hcfg, hf, Tlp.packAddr, ha, FMT_3DW_DATA, FMT_4DW_DATA, FMT_4DW, hl]

/-- C09: the 4DW case of `pack` is wrong for addresses whose upper half has a bit that the lower
half lacks: the last header DWORD is the bitwise or of both halves. -/
theorem C09_pack_4dw_layout_partial (t : Tlp) (h : WfAddrRequest t) (hf : t.fmt = 1 ∨ t.fmt = 3) :
    ∃ d0 d1, t.pack = some (d0 :: d1 :: t.address / 2 ^ 32 ::
        (t.address / 2 ^ 32 ||| t.address % 2 ^ 32) :: t.data) ∧
      Dw0Layout t d0 ∧ ReqDw1Layout t d1 := by
  have h0 := dw0_layout t h.common (by omega) (by have := h.kind; omega)
  refine ⟨_, _, ?_, h0, reqDw1_layout t h.toWfRequest⟩
  have hreq : isRequest t.fmt_type = true := by
    unfold Tlp.fmt_type
    rcases h.kind with ⟨ht, _⟩ | ⟨ht, _⟩ | ⟨ht, _⟩ <;> rcases hf with hf | hf <;> rw [hf, ht] <;>
      first | decide | (exfalso; omega)
  have hcfg : isCfg t.fmt_type = false := by
    unfold Tlp.fmt_type
    rcases h.kind with ⟨ht, _⟩ | ⟨ht, _⟩ | ⟨ht, _⟩ <;> rcases hf with hf | hf <;> rw [hf, ht] <;>
      first | decide | (exfalso; omega)
  have hr := h.range
  rw [if_neg (by omega)] at hr
  obtain ⟨c, hc⟩ := h.aligned
  have ha : t.address &&& 0xfffffffc = t.address % 2 ^ 32 := by rw [and_fffffffc]; omega
  have hb : (t.address >>> 32) &&& 0xffffffff = t.address / 2 ^ 32 := by
    rw [and_ffffffff, Nat.shiftRight_eq_div_pow]; omega
  obtain ⟨_, _, _, _, _, _, hl⟩ := h.common
  unfold Tlp.pack
  rcases hf with hf | hf <;> simp [hf] at hl <;> simp [hreq, hcfg, hf, Tlp.packAddr, ha, hb, FMT_3DW_DATA, FMT_4DW_DATA, FMT_4DW, hl]

example : WfCfgRequest {
      fmt := 2, type := 5, length := 1, register_number := 0x3f, first_be := 3,
      tag := 9, dest_id := ⟨3, 1, 0⟩, data := [0x1234] } := by
  constructor
  · constructor <;> simp [WfCommon, WfId]
  all_goals simp [WfId]

example : WfAddrRequest {
      fmt := 2, type := 0, length := 2, address := 0xfee00000, first_be := 15,
      last_be := 3, tag := 9, data := [0x1234, 0x5678] } := by
  constructor
  · constructor <;> simp [WfCommon, WfId]
  all_goals simp

end Verif.Props
