import Verif.Basic.Cat
import Verif.Proofs.Util
import Verif.Spec.Header
/-! Helper lemmas: header DWORDs as linear arithmetic. -/
namespace Verif.Proofs
open Verif Verif.Model Verif.Spec

theorem toInt_idBits (i : PcieId) (h : WfId i) : i.toInt = idBits i := by
  obtain ⟨h1, h2, h3⟩ := h
  rw [pcieId_toInt_eq, idBits]; omega

theorem idBits_lt (i : PcieId) (h : WfId i) : idBits i < 65536 := by
  obtain ⟨h1, h2, h3⟩ := h
  unfold idBits; omega

theorem fromInt_idBits (i : PcieId) (h : WfId i) : PcieId.fromInt (idBits i) = i := by
  obtain ⟨h1, h2, h3⟩ := h
  unfold PcieId.fromInt
  rw [and_255, and_31, and_7, Nat.shiftRight_eq_div_pow, Nat.shiftRight_eq_div_pow]
  cases i
  simp only [PcieId.mk.injEq, idBits] at *
  refine ⟨?_, ?_, ?_⟩ <;> omega

theorem fromInt_lt (v : Nat) : (PcieId.fromInt v).bus < 256 ∧ (PcieId.fromInt v).device < 32 ∧
    (PcieId.fromInt v).function < 8 := by
  unfold PcieId.fromInt
  simp only [and_255, and_31, and_7, Nat.shiftRight_eq_div_pow]
  omega

theorem packDw0_cat (t : Tlp) : t.packDw0 =
    cat (t.length % 1024) 10 (cat (t.at_ % 4) 2 (cat (t.attr % 4) 2 (cat (t.ep % 2) 1
    (cat (t.td % 2) 1 (cat (t.th % 2) 1 (cat 0 1 (cat (t.attr / 4 % 2) 1 (cat 0 1
    (cat (t.tc % 8) 3 (cat 0 1 (cat (t.type % 32) 5 (t.fmt % 8)))))))))))) := by
  unfold Tlp.packDw0
  simp only [and_1023, and_3, and_1, and_4, and_7, and_31]
  have e : (t.attr / 4 % 2 * 4) <<< 16 = (t.attr / 4 % 2) <<< 18 := by
    simp only [Nat.shiftLeft_eq]; omega
  rw [e, or_shift _ _ 10 (by omega), or_shift _ _ 12 (by omega), or_shift _ _ 14 (by omega),
    or_shift _ _ 15 (by omega), or_shift _ _ 16 (by omega), or_shift _ _ 18 (by omega),
    or_shift _ _ 20 (by omega), or_shift _ _ 24 (by omega), or_shift _ _ 29 (by omega)]
  simp only [cat]
  omega

theorem packReqDw1_cat (t : Tlp) : t.packReqDw1 =
    cat (t.first_be % 16) 4 (cat (t.last_be % 16) 4 (cat (t.tag % 256) 8 t.requester_id.toInt)) := by
  unfold Tlp.packReqDw1
  simp only [and_15, and_255]
  rw [or_shift _ _ 4 (by omega), or_shift _ _ 8 (by omega), or_shift _ _ 16 (by omega)]
  simp only [cat]
  omega

theorem packCplDw1_cat (t : Tlp) : t.packCplDw1 =
    cat (t.byte_count % 4096) 12 (cat (t.bcm % 2) 1 (cat (t.status % 8) 3 t.completer_id.toInt)) := by
  unfold Tlp.packCplDw1
  simp only [and_4095, and_1, and_7]
  rw [or_shift _ _ 12 (by omega), or_shift _ _ 13 (by omega), or_shift _ _ 16 (by omega)]
  simp only [cat]
  omega

theorem packCplDw2_cat (t : Tlp) : t.packCplDw2 =
    cat (t.lower_address % 128) 7 (cat 0 1 (cat (t.tag % 256) 8 t.requester_id.toInt)) := by
  unfold Tlp.packCplDw2
  simp only [and_127, and_255]
  rw [or_shift _ _ 8 (by omega), or_shift _ _ 16 (by omega)]
  simp only [cat]
  omega

/-- Extract fields from concatenations. -/
macro "cat_simp" : tactic => `(tactic|
  simp (disch := omega) only [cat_shr, cat_modn, Nat.reduceSub, Nat.shiftRight_zero])

/-- Bound a concatenation of fields. -/
macro "cat_bound" : tactic => `(tactic|
  ((repeat (refine cat_lt _ _ _ _ (by omega) (by decide) ?_; simp only [Nat.reduceSub])); omega))

theorem dw0_layout (t : Tlp) (h : WfCommon t) (hf : t.fmt < 8) (ht : t.type < 32) :
    Dw0Layout t t.packDw0 := by
  obtain ⟨h1, h2, h3, h4, h5, h6, _⟩ := h
  unfold Dw0Layout bits
  rw [packDw0_cat]
  simp only [← Nat.shiftRight_eq_div_pow, Nat.reduceAdd, Nat.reduceSub]
  cat_simp
  refine ⟨?_, ?_, ?_, ?_, ?_, ?_, ?_, ?_, ?_, ?_, ?_⟩ <;> first | exact True.intro | cat_bound | omega

theorem reqDw1_layout (t : Tlp) (h : WfRequest t) : ReqDw1Layout t t.packReqDw1 := by
  obtain ⟨_, h1, h2, h3, h4, _⟩ := h
  have := idBits_lt _ h1
  unfold ReqDw1Layout bits
  rw [packReqDw1_cat, toInt_idBits _ h1]
  simp only [← Nat.shiftRight_eq_div_pow, Nat.reduceAdd, Nat.reduceSub]
  cat_simp
  refine ⟨?_, ?_, ?_, ?_, ?_⟩ <;> first | exact True.intro | cat_bound | omega

theorem cpl_layout (t : Tlp) (h : WfCompletion t) : CplLayout t t.packCplDw1 t.packCplDw2 := by
  have h1 := idBits_lt _ h.completer
  have h2 := idBits_lt _ h.requester
  obtain ⟨_, _, hc, hr, h3, h4, h5, h6, h7, _⟩ := h
  unfold CplLayout bits
  rw [packCplDw1_cat, packCplDw2_cat, toInt_idBits _ hc, toInt_idBits _ hr]
  simp only [← Nat.shiftRight_eq_div_pow, Nat.reduceAdd, Nat.reduceSub]
  cat_simp
  refine ⟨?_, ?_, ?_, ?_, ?_, ?_, ?_, ?_, ?_, ?_⟩ <;> first | exact True.intro | cat_bound | omega

/-- DWORD 0 decodes to the fields it was packed from. -/
theorem unpackDw0_packDw0 (t u : Tlp) (h : WfCommon t) (hf : t.fmt < 4) (ht : t.type < 32) :
    u.unpackDw0 t.packDw0 = { u with
      length := t.length, at_ := t.at_, attr := t.attr, ep := t.ep, td := t.td, th := t.th,
      tc := t.tc, type := t.type, fmt := t.fmt } := by
  obtain ⟨h1, h2, h3, h4, h5, h6, h7⟩ := h
  unfold Tlp.unpackDw0
  rw [packDw0_cat]
  have e : ∀ a b : Nat, a < 4 → a ||| (b * 4) = a + b * 4 := by
    intro a b h
    have := or_shift a b 2 h
    rw [Nat.shiftLeft_eq] at this; exact this
  have e4 : ∀ x : Nat, (x >>> 16) / 4 = x >>> 18 := by
    intro x
    rw [show 18 = 16 + 2 from rfl, Nat.shiftRight_add x, Nat.shiftRight_eq_div_pow _ 2]
  simp only [and_1023, and_3, and_1, and_4, and_7, and_31, e4]
  cat_simp
  rw [e _ _ (by omega)]
  simp only [FMT_3DW_DATA, FMT_4DW_DATA]
  have hfm : t.fmt % 8 = t.fmt := by omega
  simp only [hfm]
  by_cases hd : t.fmt = 2 ∨ t.fmt = 3
  · rw [if_pos hd] at h7
    by_cases h0 : t.length % 1024 = 0
    · rw [if_pos ⟨hd, h0⟩]
      simp only [Tlp.mk.injEq, true_and, and_true]
      refine ⟨?_, ?_, ?_, ?_, ?_, ?_, ?_, ?_⟩ <;> omega
    · rw [if_neg (by intro h; exact h0 h.2)]
      simp only [Tlp.mk.injEq, true_and, and_true]
      refine ⟨?_, ?_, ?_, ?_, ?_, ?_, ?_, ?_⟩ <;> omega
  · rw [if_neg hd] at h7
    rw [if_neg (by intro h; exact hd h.1)]
    simp only [Tlp.mk.injEq, true_and, and_true]
    refine ⟨?_, ?_, ?_, ?_, ?_, ?_, ?_, ?_⟩ <;> omega

theorem unpackReqDw1_packReqDw1 (t u : Tlp) (h : WfRequest t) :
    u.unpackReqDw1 t.packReqDw1 = { u with
      first_be := t.first_be, last_be := t.last_be, tag := t.tag,
      requester_id := t.requester_id } := by
  obtain ⟨_, h1, h2, h3, h4, _⟩ := h
  unfold Tlp.unpackReqDw1
  rw [packReqDw1_cat, toInt_idBits _ h1]
  simp only [and_15, and_255]
  cat_simp
  rw [fromInt_idBits _ h1]
  simp only [Tlp.mk.injEq, true_and, and_true]
  refine ⟨?_, ?_, ?_⟩ <;> omega

theorem unpackCpl_pack (t u : Tlp) (h : WfCompletion t) :
    u.unpackCpl t.packCplDw1 t.packCplDw2 = { u with
      byte_count := t.byte_count, bcm := t.bcm, status := t.status,
      completer_id := t.completer_id, lower_address := t.lower_address, tag := t.tag,
      requester_id := t.requester_id } := by
  obtain ⟨_, _, hc, hr, h3, h4, h5, h6, h7, _⟩ := h
  unfold Tlp.unpackCpl
  rw [packCplDw1_cat, packCplDw2_cat, toInt_idBits _ hc, toInt_idBits _ hr]
  simp only [and_4095, and_1, and_7, and_127, and_255]
  cat_simp
  rw [fromInt_idBits _ hc, fromInt_idBits _ hr]
  simp only [Tlp.mk.injEq, true_and, and_true]
  refine ⟨?_, ?_, ?_, ?_, ?_⟩ <;> first | omega | (split <;> omega)

end Verif.Proofs
