import Verif.Proofs.Parity
/-!
C26 (byte parity).
-/
namespace Verif.Props
open Verif Verif.Model Verif.Proofs Verif.Spec

/-- C26: bit `k` of `dword_parity(d)` (`tb/pcie_us.py`) is the XOR of the bits of byte `k` of the
DWORD; there are four parity bits. -/
theorem C26_dword_parity (d k : Nat) :
    (dwordParity d).testBit k = (decide (k < 4) && byteParity d k) := dwordParity_testBit d k

/-- C26: the same for `dword_parity(d)` of `tb/pcie_if.py`. -/
theorem C26_dword_parity_if (d k : Nat) :
    (dwordParityIf d).testBit k = (decide (k < 4) && byteParity d k) := by
  rw [dwordParityIf_eq]; exact dwordParity_testBit d k

/-- C26: bit `k` of `parity(d)` (`tb/pcie_if.py`) is the XOR of the bits of byte `k`, for headers of
any width. -/
theorem C26_parity_if (d k : Nat) : (parityIf d).testBit k = byteParity d k := parityIf_testBit d k

/-- C26: `update_parity` stores odd parity per byte for the data DWORDs, and leaves the data alone. -/
theorem C26_us_update (f : UsFrame) :
    f.updateParity.data = f.data ∧ f.updateParity.parity.length = f.data.length ∧
    ∀ i (h : i < f.data.length) (h' : i < f.updateParity.parity.length) k,
      (f.updateParity.parity[i]).testBit k = (decide (k < 4) && !byteParity f.data[i] k) := by
  refine ⟨rfl, by simp [UsFrame.updateParity], ?_⟩
  intro i h h' k
  simp only [UsFrame.updateParity, List.getElem_map, Nat.testBit_xor, dwordParity_testBit]
  match k with
  | 0 => simp
  | 1 => simp
  | 2 => simp
  | 3 => simp
  | k + 4 =>
    rw [Nat.testBit_lt_two_pow (x := 15) (by
      have : 2 ^ 4 ≤ 2 ^ (k + 4) := Nat.pow_le_pow_right (by omega) (by omega)
      omega)]
    simp [show ¬ k + 4 < 4 by omega]

/-- C26: the same for `PcieIfFrame`, whose header and prefix parity is even. -/
theorem C26_if_update (f : IfFrame) :
    f.updateParity.data = f.data ∧ f.updateParity.hdr = f.hdr ∧
    f.updateParity.tlp_prfx = f.tlp_prfx ∧ f.updateParity.parity.length = f.data.length ∧
    (∀ i (h : i < f.data.length) (h' : i < f.updateParity.parity.length) k,
      (f.updateParity.parity[i]).testBit k = (decide (k < 4) && !byteParity f.data[i] k)) ∧
    (∀ k, f.updateParity.hdr_par.testBit k = byteParity f.hdr k) ∧
    ∀ k, f.updateParity.tlp_prfx_par.testBit k = (decide (k < 4) && byteParity f.tlp_prfx k) := by
  refine ⟨rfl, rfl, rfl, by simp [IfFrame.updateParity], ?_, parityIf_testBit f.hdr,
    C26_dword_parity_if f.tlp_prfx⟩
  intro i h h' k
  have := (C26_us_update { data := f.data }).2.2 i h (by simpa [UsFrame.updateParity] using h) k
  rw [← this]
  simp [UsFrame.updateParity, IfFrame.updateParity, dwordParityIf_eq]

/-- C26: `check_parity` accepts every frame produced by `update_parity`. -/
theorem C26_us_accepts (f : UsFrame) : f.updateParity.checkParity = true := by
  simp [UsFrame.updateParity, UsFrame.checkParity]

/-- C26: `check_parity` of `PcieIfFrame` accepts every frame produced by `update_parity`. -/
theorem C26_if_accepts (f : IfFrame) : f.updateParity.checkParity = true := by
  simp [IfFrame.updateParity, IfFrame.checkParity]

/-- C26: a frame that `check_parity` accepts is rejected after any single bit of its data or parity
is flipped. -/
theorem C26_us_rejects (f g : UsFrame) (h : f.checkParity = true) (hf : UsFlip f g) :
    g.checkParity = false := by
  simp only [UsFrame.checkParity, decide_eq_true_eq, decide_eq_false_iff_not] at h ⊢
  cases hf with
  | data l hl =>
    simp only
    rw [h]
    exact (listFlip_map hl fun x y hxy e => dwordParity_flip hxy (xor_inj e)).symm
  | parity l hl =>
    simp only
    rw [← h]
    exact listFlip_ne hl

/-- C26: the same for `PcieIfFrame`, including header, prefix and their parity. -/
theorem C26_if_rejects (f g : IfFrame) (h : f.checkParity = true) (hf : IfFlip f g) :
    g.checkParity = false := by
  simp only [IfFrame.checkParity, Bool.and_eq_true, decide_eq_true_eq, Bool.and_eq_false_iff,
    decide_eq_false_iff_not] at h ⊢
  obtain ⟨⟨h1, h2⟩, h3⟩ := h
  cases hf with
  | data l hl =>
    refine Or.inl (Or.inl ?_)
    simp only
    rw [h1]
    exact (listFlip_map hl fun x y hxy e => dwordParity_flip hxy
      (by rw [← dwordParityIf_eq, ← dwordParityIf_eq]; exact xor_inj e)).symm
  | hdr x hx => exact Or.inl (Or.inr (by simp only; rw [h2]; exact (parityIf_flip hx).symm))
  | prfx x hx =>
    refine Or.inr ?_
    simp only
    rw [h3, dwordParityIf_eq, dwordParityIf_eq]
    exact (dwordParity_flip hx).symm
  | parity l hl => exact Or.inl (Or.inl (by simp only; rw [← h1]; exact listFlip_ne hl))
  | hdrPar x hx => exact Or.inl (Or.inr (by simp only; rw [← h2]; exact bitFlip_ne hx))
  | prfxPar x hx => exact Or.inr (by simp only; rw [← h3]; exact bitFlip_ne hx)

/-- A frame with data, accepted; and one of its single-bit corruptions. -/
def exampleParityFrame : IfFrame :=
  IfFrame.updateParity { hdr := 0x4000000100000f0f, data := [0x12345678, 0xdeadbeef] }

example : exampleParityFrame.checkParity = true := C26_if_accepts _
example : ({ exampleParityFrame with data := [0x12345678, 0xdeadbeee] } : IfFrame).checkParity = false := by
  apply C26_if_rejects exampleParityFrame _ (C26_if_accepts _)
  exact IfFlip.data _ ⟨1, by decide, 0xdeadbeee, ⟨0, by decide, by decide⟩, by decide⟩
example : dwordParity 0x01030700 = 0b1010 := by decide

end Verif.Props
