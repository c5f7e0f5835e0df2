import Verif.Proofs.ConfigBits
/-! Bit-level lemmas for the PCI Express capability. -/
namespace Verif.Proofs
open Verif Verif.Model Verif.Spec

theorem pcieCap2_bit (s : PcieCapState) (data mask i : Nat) (hi : i < 32) (h : i ≠ 20 ∧ i ≠ 21):
    (readPcieCap2 (writePcieCap2 s data mask)).testBit i =
      writtenBit (pcieCapAttr 2) (readPcieCap2 s) data mask i := by
  obtain ⟨h1, h2⟩ := h
  unfold readPcieCap2 writePcieCap2 writtenBit pcieCapAttr
  simp only [mask_1, mask_2, mask_4, mask_8, bitSet_eq, Nat.testBit_or, testBit_flag, Nat.testBit_shiftLeft,
    Nat.testBit_and, testBit_ite, Nat.testBit_shiftRight]
  bits32 hi <;> simp [-Nat.testBit_zero] at h1 h2 ⊢ <;> (try split) <;> simp_all [-Nat.testBit_zero]

theorem pcieCap4_bit (s : PcieCapState) (data mask i : Nat) (hi : i < 32) (h : i ≠ 3 ∧ i ≠ 4):
    (readPcieCap4 (writePcieCap4 s data mask)).testBit i =
      writtenBit (pcieCapAttr 4) (readPcieCap4 s) data mask i := by
  obtain ⟨h1, h2⟩ := h
  unfold readPcieCap4 writePcieCap4 writtenBit pcieCapAttr
  simp only [mask_1, mask_2, mask_4, mask_8, bitSet_eq, Nat.testBit_or, testBit_flag, Nat.testBit_shiftLeft,
    Nat.testBit_and, testBit_ite, Nat.testBit_shiftRight]
  bits32 hi <;> simp [-Nat.testBit_zero] at h1 h2 ⊢ <;> (try split) <;> simp_all [-Nat.testBit_zero]

theorem pcieCap6_bit (s : PcieCapState) (data mask i : Nat) (hi : i < 32) :
    (readPcieCap6 (writePcieCap6 s data mask)).testBit i =
      writtenBit (pcieCapAttr 6) (readPcieCap6 s) data mask i := by
  unfold readPcieCap6 writePcieCap6 writtenBit pcieCapAttr
  simp only [mask_1, mask_2, mask_4, mask_8, bitSet_eq, Nat.testBit_or, testBit_flag, Nat.testBit_shiftLeft,
    Nat.testBit_and, testBit_ite, Nat.testBit_shiftRight]
  bits32 hi <;> simp [-Nat.testBit_zero] <;> (try split) <;> simp_all [-Nat.testBit_zero]

theorem pcieCap7_bit (s : PcieCapState) (data mask i : Nat) (hi : i < 32) :
    (readPcieCap7 (writePcieCap7 s data mask)).testBit i =
      writtenBit (pcieCapAttr 7) (readPcieCap7 s) data mask i := by
  unfold readPcieCap7 writePcieCap7 writtenBit pcieCapAttr
  simp only [mask_1, mask_2, mask_4, mask_8, bitSet_eq, Nat.testBit_or, testBit_flag, Nat.testBit_shiftLeft,
    Nat.testBit_and, testBit_ite, Nat.testBit_shiftRight]
  bits32 hi <;> simp [-Nat.testBit_zero] <;> (try split) <;> simp_all [-Nat.testBit_zero]

theorem pcieCap8_bit (s : PcieCapState) (data mask i : Nat) (hi : i < 32) :
    (readPcieCap8 (writePcieCap8 s data mask)).testBit i =
      writtenBit (pcieCapAttr 8) (readPcieCap8 s) data mask i := by
  unfold readPcieCap8 writePcieCap8 writtenBit pcieCapAttr
  simp only [mask_1, mask_2, mask_4, mask_8, bitSet_eq, Nat.testBit_or, testBit_flag, Nat.testBit_shiftLeft,
    Nat.testBit_and, testBit_ite, Nat.testBit_shiftRight]
  bits32 hi <;> simp [-Nat.testBit_zero] <;> (try split) <;> simp_all [-Nat.testBit_zero]

theorem pcieCap10_bit (s : PcieCapState) (data mask i : Nat) (hi : i < 32) :
    (readPcieCap10 (writePcieCap10 s data mask)).testBit i =
      writtenBit (pcieCapAttr 10) (readPcieCap10 s) data mask i := by
  unfold readPcieCap10 writePcieCap10 writtenBit pcieCapAttr
  simp only [mask_1, mask_2, mask_4, mask_8, bitSet_eq, Nat.testBit_or, testBit_flag, Nat.testBit_shiftLeft,
    Nat.testBit_and, testBit_ite, Nat.testBit_shiftRight]
  bits32 hi <;> simp [-Nat.testBit_zero] <;> (try split) <;> simp_all [-Nat.testBit_zero]

theorem pcieCap12_bit (s : PcieCapState) (data mask i : Nat) (hi : i < 32) :
    (readPcieCap12 (writePcieCap12 s data mask)).testBit i =
      writtenBit (pcieCapAttr 12) (readPcieCap12 s) data mask i := by
  unfold readPcieCap12 writePcieCap12 writtenBit pcieCapAttr
  simp only [mask_1, mask_2, mask_4, mask_8, bitSet_eq, Nat.testBit_or, testBit_flag, Nat.testBit_shiftLeft,
    Nat.testBit_and, testBit_ite, Nat.testBit_shiftRight]
  bits32 hi <;> simp [-Nat.testBit_zero] <;> (try split) <;> simp_all [-Nat.testBit_zero]

/-- Writing one register leaves the others alone. -/
theorem pcieCap_other (s s' : PcieCapState) (reg data mask r : Nat) (hne : r ≠ reg)
    (h : writePcieCap s reg data mask = some s') : readPcieCap s' r = readPcieCap s r := by
  unfold writePcieCap at h
  split at h
  all_goals first
    | (split at h
       · cases h
       · cases h
         unfold readPcieCap
         split <;> first | rfl | exact absurd rfl hne)
    | (cases h
       unfold readPcieCap
       split <;> first | rfl | exact absurd rfl hne)
    | (cases h; rfl)

end Verif.Proofs
