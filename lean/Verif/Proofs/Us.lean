import Verif.Proofs.Parity
import Verif.Proofs.TlpPack
/-! Helper lemmas for the UltraScale descriptors. -/
namespace Verif.Proofs
open Verif Verif.Model Verif.Spec

theorem fromInt_cat (i : PcieId) (h : WfId i) (y : Nat) :
    PcieId.fromInt (cat (idBits i) 16 y) = i := by
  refine Eq.trans ?_ (fromInt_idBits i h)
  generalize idBits i = v
  unfold PcieId.fromInt
  simp only [and_255, and_31, and_7, Nat.shiftRight_eq_div_pow, cat]
  simp only [PcieId.mk.injEq]
  refine ⟨?_, ?_, ?_⟩ <;> omega

theorem addrDw_cat (t : TlpUs) : t.addrDw =
    [cat (t.at_ % 4) 2 (t.address / 4 % 2 ^ 30), t.address / 2 ^ 32 % 2 ^ 32] := by
  unfold TlpUs.addrDw
  have e1 : t.address &&& 0xfffffffc = (t.address / 4 % 2 ^ 30) <<< 2 := by
    rw [and_fffffffc, Nat.shiftLeft_eq]
  have e2 := and_field t.address 32 32
  simp only [Nat.reducePow, Nat.reduceSub, Nat.reduceMul, Nat.reduceShiftLeft] at e2
  rw [e1, and_3, or_shift_cat _ _ 2 (by omega), e2, Nat.shiftRight_eq_div_pow]
  simp

theorem reqCode_lt (ft : Nat × Nat) : reqCode ft < 16 := by
  unfold reqCode
  split <;> try decide
  split <;> try decide
  split <;> try decide
  split <;> try decide
  split <;> try decide
  split <;> try decide
  split <;> try decide
  split <;> try decide
  split <;> try decide
  split <;> try decide
  split <;> try decide
  split <;> decide

theorem reqDw2_cat (t : TlpUs) : t.reqDw2 =
    cat (t.length % 2048) 11 (cat (reqCode t.fmt_type) 4 (cat 0 1 t.requester_id.toInt)) := by
  unfold TlpUs.reqDw2
  have := reqCode_lt t.fmt_type
  rw [and_2047, or_shift _ _ 11 (by omega), or_shift _ _ 16 (by omega)]
  simp only [cat]
  omega

theorem cqDw3_cat (t : TlpUs) : t.cqDw3 =
    cat (t.tag % 256) 8 (cat (t.completer_id.function % 256) 8 (cat (t.bar_id % 8) 3
      (cat (t.bar_aperture % 64) 6 (cat (t.tc % 8) 3 (t.attr % 8))))) := by
  unfold TlpUs.cqDw3
  simp only [and_255, and_7, and_63]
  rw [or_shift _ _ 8 (by omega), or_shift _ _ 16 (by omega), or_shift _ _ 19 (by omega),
    or_shift _ _ 25 (by omega), or_shift _ _ 28 (by omega)]
  simp only [cat]
  omega

theorem idDw_cat (t : TlpUs) (en : Bool) (h : WfId t.completer_id) : t.idDw en =
    cat (t.tag % 256) 8 (cat (idBits t.completer_id) 16 (cat en.toNat 1
      (cat (t.tc % 8) 3 (t.attr % 8)))) := by
  unfold TlpUs.idDw
  rw [toInt_idBits _ h]
  have := idBits_lt _ h
  have e : (if en = true then 1 <<< 24 else 0) = en.toNat <<< 24 := by cases en <;> rfl
  have := en.toNat_le
  simp only [and_255, and_7, e]
  rw [or_shift _ _ 8 (by omega), or_shift _ _ 24 (by omega), or_shift _ _ 25 (by omega),
    or_shift _ _ 28 (by omega)]
  simp only [cat]
  omega

/-- The locked bit. -/
def lockBit (t : TlpUs) : Nat :=
  if t.fmt_type = TLP_CPL_LOCKED ∨ t.fmt_type = TLP_CPL_LOCKED_DATA then 1 else 0

theorem lockBit_lt (t : TlpUs) : lockBit t < 2 := by unfold lockBit; split <;> omega

theorem lock_shift (t : TlpUs) :
    (if t.fmt_type = TLP_CPL_LOCKED ∨ t.fmt_type = TLP_CPL_LOCKED_DATA then 1 <<< 29 else 0) =
      lockBit t <<< 29 := by unfold lockBit; split <;> rfl

theorem ccDw0_cat (t : TlpUs) : t.ccDw0 =
    cat (t.lower_address % 128) 7 (cat 0 1 (cat (t.at_ % 4) 2 (cat 0 6
      (cat (t.byte_count % 8192) 13 (lockBit t))))) := by
  unfold TlpUs.ccDw0
  rw [lock_shift]
  simp only [and_127, and_3, and_8191]
  rw [or_shift _ _ 8 (by omega), or_shift _ _ 16 (by omega), or_shift _ _ 29 (by omega)]
  simp only [cat]
  omega

theorem rcDw0_cat (t : TlpUs) : t.rcDw0 =
    cat (t.lower_address % 4096) 12 (cat (t.error_code % 16) 4
      (cat (t.byte_count % 8192) 13 (lockBit t))) := by
  unfold TlpUs.rcDw0
  rw [lock_shift]
  simp only [and_4095, and_15, and_8191]
  rw [or_shift _ _ 12 (by omega), or_shift _ _ 16 (by omega), or_shift _ _ 29 (by omega)]
  simp only [cat]
  omega

theorem cplDw1_cat (t : TlpUs) : t.cplDw1 =
    cat (t.length % 2048) 11 (cat (t.status % 8) 3 (cat 0 2 t.requester_id.toInt)) := by
  unfold TlpUs.cplDw1
  simp only [and_2047, and_7]
  rw [or_shift _ _ 11 (by omega), or_shift _ _ 16 (by omega)]
  simp only [cat]
  omega

theorem and_bit29 (x : Nat) : x &&& (1 <<< 29) = x / 2 ^ 29 % 2 * 2 ^ 29 := and_field x 1 29

theorem checkParity_update (f : UsFrame) : f.updateParity.checkParity = true := by
  simp [UsFrame.updateParity, UsFrame.checkParity]

theorem update_parity_eq {f g : UsFrame} (h : g = f.updateParity) : g.checkParity = true := by
  rw [h]; exact checkParity_update f

/-- Address from the first two descriptor DWORDs. -/
theorem addr_join (t : TlpUs) (ha : 4 ∣ t.address) (hr : t.address < 2 ^ 64) :
    ((t.address / 2 ^ 32 % 2 ^ 32) <<< 32) |||
      (cat (t.at_ % 4) 2 (t.address / 4 % 2 ^ 30) &&& 0xfffffffc) = t.address := by
  rw [and_fffffffc, shift_or _ _ 32 (by omega)]
  simp only [cat]
  omega

theorem fmtFor_eq (t : TlpUs) (h : UsAddr t) (f : Nat)
    (hf : f = if t.fmt = 2 ∨ t.fmt = 3 then 2 else 0) : fmtFor f t.address = t.fmt := by
  obtain ⟨hk, _, _, hc⟩ := h
  unfold fmtFor FMT_3DW FMT_4DW FMT_3DW_DATA FMT_4DW_DATA
  by_cases hb : 2 ^ 32 ≤ t.address
  · have := hc.mpr hb
    rw [if_pos (by omega)]
    rcases this with e | e <;> simp [hf, e]
  · rw [if_neg (by omega), hf]
    have : ¬ (t.fmt = 1 ∨ t.fmt = 3) := fun e => hb (hc.mp e)
    split <;> omega

/-- The kinds of address requests, with the code and the 32-bit type it decodes to. -/
theorem addr_kinds (t : TlpUs) (h : UsAddr t) (cfg : Bool) :
    isAddrReq t.fmt_type = true ∧ reqCode t.fmt_type < 8 ∧ reqCode t.fmt_type = reqTypeCode t ∧
    reqType cfg (reqCode t.fmt_type) =
      some (if t.fmt = 2 ∨ t.fmt = 3 then 2 else 0, t.type) := by
  have hk := h.kind
  unfold Tlp.fmt_type reqTypeCode
  have : (t.type = 0 ∧ (t.fmt = 0 ∨ t.fmt = 1 ∨ t.fmt = 2 ∨ t.fmt = 3)) ∨
    (t.type = 2 ∧ (t.fmt = 0 ∨ t.fmt = 2)) := by omega
  cases cfg <;> rcases this with ⟨h1, h2 | h2 | h2 | h2⟩ | ⟨h1, h2 | h2⟩ <;> rw [h1, h2] <;> decide

theorem cfg_kinds (t : TlpUs) (h : UsCfg t) :
    isAddrReq t.fmt_type = false ∧ isCfgReq t.fmt_type = true ∧
    8 ≤ reqCode t.fmt_type ∧ reqCode t.fmt_type < 12 ∧ reqCode t.fmt_type = reqTypeCode t ∧
    reqType true (reqCode t.fmt_type) = some (t.fmt, t.type) := by
  obtain ⟨⟨h1, h2⟩, _⟩ := h
  unfold Tlp.fmt_type reqTypeCode
  rcases h1 with h1 | h1 <;> rcases h2 with h2 | h2 <;> rw [h1, h2] <;> decide

theorem cq_roundtrip (t : TlpUs) (h : WfCq t) (check : Bool) :
    (t.packCq.bind fun p => ({} : TlpUs).unpackCq p check) = some (carriedCq t) := by
  obtain ⟨hk, hlt, _, hty⟩ := addr_kinds t h.toUsAddr false
  have hrid := idBits_lt _ h.requester
  unfold TlpUs.packCq
  rw [if_pos hk]
  simp only [Option.bind_some]
  unfold TlpUs.unpackCq
  rw [checkParity_update]
  simp only [UsFrame.updateParity, addrDw_cat, List.cons_append, List.nil_append,
    List.getElem?_cons_zero, List.getElem?_cons_succ, Option.bind_eq_bind, Option.bind_some,
    List.drop_succ_cons, List.drop_zero]
  have e1 : (t.reqDw2 >>> 11) &&& 0xf = reqCode t.fmt_type := by
    rw [reqDw2_cat, cat_shr _ _ _ _ (by omega) (by omega), and_15]
    simp only [Nat.sub_self, Nat.shiftRight_zero, cat]
    omega
  rw [e1, hty]
  simp only [Option.bind_some, ne_eq, not_true_eq_false, if_false, Bool.not_true, Bool.and_false,
    Bool.false_eq_true]
  rw [addr_join t h.aligned h.range, fmtFor_eq t h.toUsAddr _ rfl, reqDw2_cat, cqDw3_cat,
    toInt_idBits _ h.requester]
  obtain ⟨h1, h2, h3, h4, h5, h6, _⟩ := h.toUsCommon
  have h7 := h.function
  have h8 := h.bar_id
  have h9 := h.bar_aperture
  simp only [and_2047, and_255, and_7, and_63, and_3]
  cat_simp
  rw [fromInt_idBits _ h5]
  unfold carriedCq
  simp only [Option.some.injEq, TlpUs.mk.injEq, Tlp.mk.injEq, PcieId.mk.injEq, true_and, and_true]
  refine ⟨⟨?_, ?_, ?_, ?_, ?_, ?_⟩, ?_, ?_⟩ <;> omega

theorem isCpl_kinds (t : TlpUs) (h : WfCpl t) : isCpl t.fmt_type = true ∧
    lockBit t = (if t.type = 0x0B then 1 else 0) := by
  obtain ⟨h1, h2⟩ := h.kind
  have h1' : t.fmt = 0 ∨ t.fmt = 2 := by omega
  unfold lockBit Tlp.fmt_type
  rcases h1' with h1 | h1 <;> rcases h2 with h2 | h2 <;> rw [h1, h2] <;> decide

theorem cplType_eq (t : TlpUs) (h : WfCpl t) (dw0 : Nat) (hd : dw0 / 2 ^ 29 % 2 = lockBit t) :
    cplType dw0 t.length = (t.fmt, t.type) := by
  obtain ⟨h1, h2⟩ := h.kind
  unfold cplType
  rw [and_bit29, hd, (isCpl_kinds t h).2]
  unfold TLP_CPL_LOCKED TLP_CPL FMT_3DW_DATA FMT_3DW
  rcases h2 with h2 | h2 <;> simp only [h2] <;> simp <;> split <;> omega

theorem data_take (t : TlpUs) (h : WfCpl t) :
    (if t.length > 0 then t.data.take t.length else []) = t.data := by
  have := h.payload
  split
  · rw [← this, List.take_length]
  · exact (List.eq_nil_of_length_eq_zero (by omega)).symm

theorem cc_roundtrip (t : TlpUs) (h : WfCpl t) (hla : t.lower_address < 128) (check : Bool) :
    (t.packCc.bind fun p => ({} : TlpUs).unpackCc p check) = some (carriedCc t) := by
  obtain ⟨hk, _⟩ := isCpl_kinds t h
  have hrid := idBits_lt _ h.requester
  have hcid := idBits_lt _ h.completer
  have hlb := lockBit_lt t
  have hty := cplType_eq t h t.ccDw0 (by
    rw [ccDw0_cat, ← Nat.shiftRight_eq_div_pow]
    cat_simp
    omega)
  obtain ⟨h1, h2, h3, h4, h5, h6, _⟩ := h.toUsCommon
  have h7 := h.status
  have h8 := h.byte_count
  unfold TlpUs.packCc
  rw [if_pos hk]
  simp only [Option.bind_some]
  unfold TlpUs.unpackCc
  rw [checkParity_update]
  simp only [UsFrame.updateParity, List.cons_append, List.nil_append,
    List.getElem?_cons_zero, List.getElem?_cons_succ, Option.bind_eq_bind, Option.bind_some,
    List.drop_succ_cons, List.drop_zero]
  simp only [Bool.not_true, Bool.and_false, Bool.false_eq_true, if_false]
  have el : t.cplDw1 &&& 0x7ff = t.length := by
    rw [cplDw1_cat, and_2047]
    cat_simp
    omega
  rw [el, hty, data_take t h, idDw_cat _ _ h.completer, cplDw1_cat, ccDw0_cat,
    toInt_idBits _ h.requester]
  have hen := t.completer_id_enable.toNat_le
  simp only [and_8191, and_255, and_127, and_7, and_3, and_1]
  cat_simp
  rw [fromInt_idBits _ h5, fromInt_cat _ h.completer]
  unfold carriedCc
  simp only [Option.some.injEq, TlpUs.mk.injEq, Tlp.mk.injEq, true_and, and_true]
  refine ⟨⟨?_, ?_, ?_, ?_, ?_, ?_, ?_⟩, ?_⟩
  all_goals first
    | omega
    | (cases t.completer_id_enable <;> rfl)

theorem rc_roundtrip (t : TlpUs) (h : WfCpl t) (hla : t.lower_address < 4096)
    (he : t.error_code < 16) (check : Bool) :
    (t.packRc.bind fun p => ({} : TlpUs).unpackRc p check) = some (carriedRc t) := by
  obtain ⟨hk, _⟩ := isCpl_kinds t h
  have hrid := idBits_lt _ h.requester
  have hcid := idBits_lt _ h.completer
  have hlb := lockBit_lt t
  have hty := cplType_eq t h t.rcDw0 (by
    rw [rcDw0_cat, ← Nat.shiftRight_eq_div_pow]
    cat_simp
    omega)
  obtain ⟨h1, h2, h3, h4, h5, h6, _⟩ := h.toUsCommon
  have h7 := h.status
  have h8 := h.byte_count
  unfold TlpUs.packRc
  rw [if_pos hk]
  simp only [Option.bind_some]
  unfold TlpUs.unpackRc
  rw [checkParity_update]
  simp only [UsFrame.updateParity, List.cons_append, List.nil_append,
    List.getElem?_cons_zero, List.getElem?_cons_succ, Option.bind_eq_bind, Option.bind_some,
    List.drop_succ_cons, List.drop_zero]
  have el : t.cplDw1 &&& 0x7ff = t.length := by
    rw [cplDw1_cat, and_2047]
    cat_simp
    omega
  have ea : t.rcDw0 &&& 0xfff = t.lower_address := by
    rw [rcDw0_cat, and_4095]
    cat_simp
    omega
  have eb : (t.rcDw0 >>> 16) &&& 0x1fff = t.byte_count := by
    rw [rcDw0_cat, and_8191]
    cat_simp
    omega
  rw [el, hty, data_take t h, ea, eb, idDw_cat _ _ h.completer, cplDw1_cat, rcDw0_cat,
    toInt_idBits _ h.requester]
  simp only [ne_eq, not_true_eq_false, Bool.not_true, Bool.and_false, Bool.false_eq_true, if_false]
  simp only [and_15, and_255, and_7, Bool.toNat_false]
  cat_simp
  rw [fromInt_idBits _ h5, fromInt_cat _ h.completer]
  unfold carriedRc
  simp only [Option.some.injEq, TlpUs.mk.injEq, Tlp.mk.injEq, true_and, and_true]
  refine ⟨⟨?_, ?_, ?_, ?_⟩, ?_⟩
  all_goals omega

theorem rq_roundtrip (t : TlpUs) (h : WfRq t) (check : Bool) :
    (t.packRq.bind fun p => ({} : TlpUs).unpackRq p check) = some (carriedRq t) := by
  have hrid := idBits_lt _ h.requester
  have hcid := idBits_lt _ h.completer
  obtain ⟨h1, h2, h3, h4, h5, h6, _⟩ := h.toUsCommon
  have e1 : (t.reqDw2 >>> 11) &&& 0xf = reqCode t.fmt_type % 16 := by
    have := reqCode_lt t.fmt_type
    rw [reqDw2_cat, cat_shr _ _ _ _ (by omega) (by omega), and_15]
    simp only [Nat.sub_self, Nat.shiftRight_zero, cat]
    omega
  have hcl := reqCode_lt t.fmt_type
  have hen := t.requester_id_enable.toNat_le
  unfold TlpUs.packRq
  rcases h.kind with ha | hc
  · obtain ⟨hk, hlt, _, hty⟩ := addr_kinds t ha true
    rw [if_pos (by rw [hk]; rfl), if_pos hk]
    simp only [Option.bind_some]
    unfold TlpUs.unpackRq
    rw [checkParity_update]
    simp only [UsFrame.updateParity, addrDw_cat, List.cons_append, List.nil_append,
      List.getElem?_cons_zero, List.getElem?_cons_succ, Option.bind_eq_bind, Option.bind_some,
      List.drop_succ_cons, List.drop_zero]
    rw [e1, Nat.mod_eq_of_lt (by omega), hty]
    simp only [Option.bind_some, Bool.not_true, Bool.and_false, Bool.false_eq_true, if_false,
      if_pos hlt]
    rw [addr_join t ha.aligned ha.range, fmtFor_eq t ha _ rfl, reqDw2_cat,
      idDw_cat _ _ h.completer, toInt_idBits _ h.requester]
    simp only [and_2047, and_255, and_7, and_3, and_1]
    cat_simp
    rw [fromInt_idBits _ h5, fromInt_cat _ h.completer]
    unfold carriedRq
    have ht : t.type = 0 ∨ t.type = 2 := by have := ha.kind; omega
    simp only [if_pos ht, Option.some.injEq, TlpUs.mk.injEq, Tlp.mk.injEq, true_and, and_true]
    refine ⟨⟨?_, ?_, ?_, ?_, ?_⟩, ?_⟩
    all_goals first
      | omega
      | (cases t.requester_id_enable <;> rfl)
  · obtain ⟨hk, hk', hge, hlt, _, hty⟩ := cfg_kinds t hc
    rw [if_pos (by rw [hk']; simp), hk]
    simp only [Option.bind_some, Bool.false_eq_true, if_false]
    unfold TlpUs.unpackRq
    rw [checkParity_update]
    simp only [UsFrame.updateParity, List.cons_append, List.nil_append,
      List.getElem?_cons_zero, List.getElem?_cons_succ, Option.bind_eq_bind, Option.bind_some,
      List.drop_succ_cons, List.drop_zero]
    rw [e1, Nat.mod_eq_of_lt (by omega), hty]
    simp only [Option.bind_some, Bool.not_true, Bool.and_false, Bool.false_eq_true, if_false,
      if_neg (show ¬ reqCode t.fmt_type < 8 by omega)]
    rw [reqDw2_cat, idDw_cat _ _ h.completer, toInt_idBits _ h.requester]
    simp only [and_2047, and_255, and_7, and_1, and_1023]
    cat_simp
    rw [fromInt_idBits _ h5, fromInt_cat _ h.completer]
    unfold carriedRq
    have ht : ¬ (t.type = 0 ∨ t.type = 2) := by have := hc.kind; omega
    have hr := hc.register
    simp only [if_neg ht, Option.some.injEq, TlpUs.mk.injEq, Tlp.mk.injEq, true_and, and_true]
    refine ⟨⟨?_, ?_, ?_, ?_, ?_⟩, ?_⟩
    all_goals first
      | omega
      | (simp only [Nat.shiftLeft_eq, Nat.shiftRight_eq_div_pow]; omega)
      | (cases t.requester_id_enable <;> rfl)

/-! ### Layout -/

theorem cq_layout (t : TlpUs) (h : WfCq t) (d0 d1 : Nat) (hd : t.addrDw = [d0, d1]) :
    CqLayout t d0 d1 t.reqDw2 t.cqDw3 := by
  rw [addrDw_cat] at hd
  obtain ⟨rfl, rfl⟩ : _ = d0 ∧ _ = d1 := by simpa using hd
  obtain ⟨_, _, hc, _⟩ := addr_kinds t h.toUsAddr false
  have hcl := reqCode_lt t.fmt_type
  have hrid := idBits_lt _ h.requester
  obtain ⟨h1, h2, h3, h4, h5, h6, _⟩ := h.toUsCommon
  have h7 := h.function
  have h8 := h.bar_id
  have h9 := h.bar_aperture
  have ha := h.aligned
  have hr := h.range
  unfold CqLayout bits
  rw [reqDw2_cat, cqDw3_cat, toInt_idBits _ h5, ← hc]
  simp only [← Nat.shiftRight_eq_div_pow, Nat.reduceAdd, Nat.reduceSub]
  cat_simp
  refine ⟨?_, ?_, ?_, ?_, ?_, ?_, ?_, ?_, ?_, ?_, ?_, ?_, ?_, ?_, ?_, ?_⟩
  all_goals first
    | exact True.intro
    | (simp only [Nat.shiftRight_eq_div_pow]; omega)
    | cat_bound
    | omega

theorem rq_layout (t : TlpUs) (h : WfRq t) (d0 d1 : Nat)
    (hd : (if isAddrReq t.fmt_type then t.addrDw
      else [(t.register_number &&& 0x3ff) <<< 2, 0]) = [d0, d1]) :
    RqLayout t d0 d1 t.reqDw2 (t.idDw t.requester_id_enable) := by
  have hcl := reqCode_lt t.fmt_type
  have hrid := idBits_lt _ h.requester
  have hcid := idBits_lt _ h.completer
  have hen := t.requester_id_enable.toNat_le
  obtain ⟨h1, h2, h3, h4, h5, h6, _⟩ := h.toUsCommon
  have key : reqCode t.fmt_type = reqTypeCode t ∧ d0 < 2 ^ 32 ∧ d1 < 2 ^ 32 ∧
      (if t.type = 0 ∨ t.type = 2 then
        bits d0 1 0 = t.at_ ∧ bits d0 31 2 * 4 + d1 * 2 ^ 32 = t.address
       else d0 = t.register_number * 4 ∧ d1 = 0) := by
    rcases h.kind with ha | hc
    · obtain ⟨hk, _, hc, _⟩ := addr_kinds t ha false
      rw [if_pos hk, addrDw_cat] at hd
      obtain ⟨rfl, rfl⟩ : _ = d0 ∧ _ = d1 := by simpa using hd
      have h8 := ha.aligned
      have h9 := ha.range
      rw [if_pos (by have := ha.kind; omega)]
      unfold bits
      simp only [Nat.reduceAdd, Nat.reduceSub, cat]
      refine ⟨hc, ?_, ?_, ?_, ?_⟩ <;> omega
    · obtain ⟨hk, _, _, _, hc', _⟩ := cfg_kinds t hc
      rw [hk, and_1023, Nat.shiftLeft_eq] at hd
      obtain ⟨rfl, rfl⟩ : _ = d0 ∧ _ = d1 := by simpa using hd
      have := hc.register
      rw [if_neg (by have := hc.kind; omega)]
      refine ⟨hc', ?_, ?_, ?_, ?_⟩ <;> omega
  obtain ⟨k1, k2, k3, k4⟩ := key
  refine ⟨k4, ?_⟩
  unfold bits
  rw [reqDw2_cat, idDw_cat _ _ h.completer, toInt_idBits _ h5, ← k1]
  simp only [← Nat.shiftRight_eq_div_pow, Nat.reduceAdd, Nat.reduceSub]
  cat_simp
  refine ⟨?_, ?_, ?_, ?_, ?_, ?_, ?_, ?_, ?_, k2, k3, ?_, ?_⟩
  all_goals first
    | exact True.intro
    | omega
    | cat_bound

theorem cpl_layout_us (t : TlpUs) (h : WfCpl t) (en : Bool) :
    CplLayoutUs t en t.cplDw1 (t.idDw en) := by
  have hrid := idBits_lt _ h.requester
  have hcid := idBits_lt _ h.completer
  have hen := en.toNat_le
  obtain ⟨h1, h2, h3, h4, h5, h6, _⟩ := h.toUsCommon
  have h7 := h.status
  unfold CplLayoutUs bits
  rw [cplDw1_cat, idDw_cat _ _ h.completer, toInt_idBits _ h5]
  simp only [← Nat.shiftRight_eq_div_pow, Nat.reduceAdd, Nat.reduceSub]
  cat_simp
  refine ⟨?_, ?_, ?_, ?_, ?_, ?_, ?_, ?_, ?_, ?_, ?_⟩
  all_goals first
    | exact True.intro
    | omega
    | cat_bound

theorem cc_layout (t : TlpUs) (h : WfCpl t) (hla : t.lower_address < 128) :
    CcLayout t t.ccDw0 := by
  obtain ⟨_, hl⟩ := isCpl_kinds t h
  have hlb := lockBit_lt t
  have h1 := h.at_
  have h2 := h.byte_count
  unfold CcLayout bits
  rw [ccDw0_cat, ← hl]
  simp only [← Nat.shiftRight_eq_div_pow, Nat.reduceAdd, Nat.reduceSub]
  cat_simp
  refine ⟨?_, ?_, ?_, ?_, ?_, ?_, ?_, ?_⟩
  all_goals first
    | exact True.intro
    | (simp only [Nat.shiftRight_eq_div_pow]; omega)
    | cat_bound

theorem rc_layout (t : TlpUs) (h : WfCpl t) (hla : t.lower_address < 4096)
    (he : t.error_code < 16) : RcLayout t t.rcDw0 := by
  obtain ⟨_, hl⟩ := isCpl_kinds t h
  have hlb := lockBit_lt t
  have h2 := h.byte_count
  unfold RcLayout bits
  rw [rcDw0_cat, ← hl]
  simp only [← Nat.shiftRight_eq_div_pow, Nat.reduceAdd, Nat.reduceSub]
  cat_simp
  refine ⟨?_, ?_, ?_, ?_, ?_, ?_⟩
  all_goals first
    | exact True.intro
    | (simp only [Nat.shiftRight_eq_div_pow]; omega)
    | cat_bound

/-! ### Byte enables -/

theorem payloadBe_length (n f l : Nat) : (payloadBe n f l).length = n := by
  unfold payloadBe
  match n with
  | 0 => simp
  | 1 => simp
  | 2 => simp
  | n + 3 => simp

theorem payloadBe_get (n f l j : Nat) (h : j < n) : (payloadBe n f l)[j]? =
    some (if j = 0 then f else if j + 1 = n then l else 0xf) := by
  unfold payloadBe
  match n, j with
  | n, 0 => simp [show n ≥ 1 by omega]
  | n + 1, j + 1 =>
    rw [if_pos (show n + 1 ≥ 1 by omega), if_pos (show n + 1 > 1 by omega),
      if_neg (show ¬ j + 1 = 0 by omega)]
    rw [List.append_assoc, List.cons_append, List.nil_append, List.getElem?_cons_succ]
    by_cases hl : j + 1 + 1 = n + 1
    · rw [if_pos hl]
      by_cases h2 : n + 1 > 2
      · rw [if_pos h2, List.getElem?_append_right (by simp; omega)]
        simp [show j - (n - 1) = 0 by omega]
      · rw [if_neg h2]
        simp [show j = 0 by omega]
    · rw [if_neg hl, if_pos (show n + 1 > 2 by omega), List.getElem?_append_left (by simp; omega)]
      simp [List.getElem?_replicate, show j < n - 1 by omega]

theorem first_bit : ∀ o, o < 4 → ∀ b, b < 4 → ((0xf <<< o) &&& 0xf).testBit b = decide (o ≤ b) := by
  decide

theorem last_bit : ∀ s, s < 4 → ∀ b, b < 4 → (0xf >>> s).testBit b = decide (b + s < 4) := by
  decide

theorem cplBe_get (la bc n i : Nat) (hn : i < 4 * n) (hb : 4 * (n - 1) < la % 4 + bc) :
    ∃ be, (cplBe la bc n n)[3 + i / 4]? = some be ∧
      be.testBit (i % 4) = decide (la % 4 ≤ i ∧ i < la % 4 + bc) := by
  unfold cplBe
  simp only [and_3]
  have ho : la % 4 < 4 := by omega
  have hib : i % 4 < 4 := by omega
  -- the byte enable of the last DWORD
  have hlast : ∀ b, b < 4 → (if bc + la % 4 > n * 4 then 0xf
      else 0xf >>> (((4 : Int) - bc - la) % 4).toNat).testBit b =
      decide (4 * (n - 1) + b < la % 4 + bc) := by
    intro b hb4
    split
    · rw [show (0xf : Nat) = 0xf >>> 0 from rfl, last_bit 0 (by omega) b hb4]
      simp only [decide_eq_decide]; omega
    · rw [last_bit _ (by omega) b hb4]
      simp only [decide_eq_decide]; omega
  generalize (if bc + la % 4 > n * 4 then 0xf
      else 0xf >>> (((4 : Int) - bc - la) % 4).toNat) = last at hlast
  rw [List.getElem?_append_right (by simp)]
  simp only [List.length_cons, List.length_nil, Nat.zero_add, Nat.reduceAdd, Nat.add_sub_cancel_left]
  by_cases h1 : n = 1
  · rw [if_pos h1, payloadBe_get _ _ _ _ (by omega)]
    refine ⟨_, rfl, ?_⟩
    rw [if_pos (by omega), Nat.testBit_and, first_bit _ ho _ hib, hlast _ hib]
    rw [← Bool.decide_and, decide_eq_decide]
    omega
  · rw [if_neg h1, payloadBe_get _ _ _ _ (by omega)]
    refine ⟨_, rfl, ?_⟩
    split
    · rw [first_bit _ ho _ hib, decide_eq_decide]; omega
    · split
      · rw [hlast _ hib, decide_eq_decide]; omega
      · rw [show (0xf : Nat) = 0xf >>> 0 from rfl, last_bit 0 (by omega) _ hib, decide_eq_decide]
        omega

end Verif.Proofs
