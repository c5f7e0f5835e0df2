import Verif.Proofs.PcieCap
import Verif.Proofs.Cap
import Verif.Model.Config
/-! Helper lemmas for the configuration header and the MSI capabilities. -/
namespace Verif.Proofs
open Verif Verif.Model Verif.Spec

/-- The bit-level effect of `byte_mask_update`. -/
theorem testBit_bmu (old mask new : Nat) (bitmask : BitMask) (i : Nat) :
    (byteMaskUpdate old mask new bitmask).testBit i =
      if mask.testBit (i / 8) = true ∧ (bitmask = none ∨ ∃ m, bitmask = some m ∧ m.testBit i = true)
      then new.testBit i else old.testBit i := by
  unfold byteMaskUpdate
  rw [byteMaskLoop_spec, testBit_applyBitmask]
  cases bitmask with
  | none => simp
  | some m =>
    by_cases h1 : mask.testBit (i / 8) = true <;> by_cases h2 : m.testBit i = true <;>
      simp [h1, h2]

theorem testBit_bmu_none (old mask new i : Nat) :
    (byteMaskUpdate old mask new).testBit i = if mask.testBit (i / 8) = true then new.testBit i else old.testBit i := by
  rw [testBit_bmu]; simp

theorem testBit_bmu_some (old mask new m i : Nat) :
    (byteMaskUpdate old mask new (some m)).testBit i =
      if mask.testBit (i / 8) = true ∧ m.testBit i = true then new.testBit i else old.testBit i := by
  rw [testBit_bmu]; simp

theorem commandStatus_bit (s : ConfigState) (data mask i : Nat) (hi : i < 32) :
    (readCommandStatus (writeCommandStatus s data mask)).testBit i =
      writtenBit (headerAttr s.bar_mask 1) (readCommandStatus s) data mask i := by
  unfold readCommandStatus writeCommandStatus writtenBit headerAttr
  simp only [mask_1, mask_2, mask_4, mask_8, bitSet_eq, Nat.testBit_or, testBit_flag, Nat.testBit_shiftLeft,
    Nat.testBit_and, testBit_ite, Nat.testBit_shiftRight]
  bits32 hi <;> simp [-Nat.testBit_zero] <;> (try split) <;> simp_all [-Nat.testBit_zero]

/-- Header values of byte size. -/
structure HeaderWf (s : ConfigState) : Prop where
  cache_ln : s.cache_ln < 256
  lat_timer : s.lat_timer < 256
  header_type : s.header_type < 256
  intr_line : s.intr_line < 256
  bars : s.bar.length = 6
  masks : s.bar_mask.length = 6

theorem bmu_byte_lt (x mask new : Nat) (hx : x < 256) (hm : mask &&& 1 = mask) :
    byteMaskUpdate x mask new < 256 := by
  apply Nat.lt_pow_two_of_testBit (n := 8)
  intro i hi
  rw [testBit_bmu_none]
  have h0 : mask.testBit (i / 8) = false := by
    rw [← hm, Nat.testBit_and]
    have : Nat.testBit 1 (i / 8) = false := by
      rw [show (1 : Nat) = 2 ^ 1 - 1 from rfl, Nat.testBit_two_pow_sub_one]
      simp; omega
    rw [this]; simp
  rw [h0]
  simp
  exact Nat.testBit_lt_two_pow (Nat.lt_of_lt_of_le hx (Nat.pow_le_pow_right (n := 2) (i := 8) (by decide) hi))

theorem and1_and1 (m : Nat) : (m &&& 1) &&& 1 = m &&& 1 := by
  rw [Nat.and_assoc]; rfl

theorem testBit_of_lt_256 {x i : Nat} (h : x < 256) (hi : 8 ≤ i) : x.testBit i = false :=
  Nat.testBit_lt_two_pow (Nat.lt_of_lt_of_le h (Nat.pow_le_pow_right (n := 2) (i := 8) (by decide) hi))

theorem reg3_bit (s : ConfigState) (h : HeaderWf s) (data mask i : Nat) (hi : i < 32) :
    (((byteMaskUpdate s.bist ((mask >>> 3) &&& 1) (data >>> 24)) <<< 24) ||| (s.header_type <<< 16) |||
      ((byteMaskUpdate s.lat_timer ((mask >>> 1) &&& 1) (data >>> 8)) <<< 8) |||
      byteMaskUpdate s.cache_ln (mask &&& 1) data).testBit i =
      writtenBit (headerAttr s.bar_mask 3)
        ((s.bist <<< 24) ||| (s.header_type <<< 16) ||| (s.lat_timer <<< 8) ||| s.cache_ln) data mask i := by
  have a1 := bmu_byte_lt s.cache_ln (mask &&& 1) data h.cache_ln (and1_and1 _)
  have a2 := bmu_byte_lt s.lat_timer ((mask >>> 1) &&& 1) (data >>> 8) h.lat_timer (and1_and1 _)
  have b1 := h.cache_ln
  have b2 := h.lat_timer
  have b3 := h.header_type
  unfold writtenBit headerAttr
  simp only [Nat.testBit_or, Nat.testBit_shiftLeft]
  by_cases h1 : i < 8
  · simp only [testBit_bmu_none, Nat.testBit_shiftRight, Nat.testBit_and]
    bits32 hi <;> simp [-Nat.testBit_zero] at h1 ⊢ <;> (try split) <;> simp_all [-Nat.testBit_zero]
  · rw [testBit_of_lt_256 a1 (by omega), testBit_of_lt_256 b1 (by omega)]
    by_cases h2 : i < 16
    · simp only [testBit_bmu_none, Nat.testBit_shiftRight, Nat.testBit_and]
      bits32 hi <;> simp [-Nat.testBit_zero] at h1 h2 ⊢ <;> (try split) <;> simp_all [-Nat.testBit_zero]
    · rw [testBit_of_lt_256 a2 (by omega), testBit_of_lt_256 b2 (by omega)]
      by_cases h3 : i < 24
      · simp only [testBit_bmu_none, Nat.testBit_shiftRight, Nat.testBit_and]
        bits32 hi <;> simp [-Nat.testBit_zero] at h1 h2 h3 ⊢ <;> (try split) <;> simp_all [-Nat.testBit_zero]
      · rw [testBit_of_lt_256 b3 (by omega)]
        simp only [testBit_bmu_none, Nat.testBit_shiftRight, Nat.testBit_and]
        bits32 hi <;> simp [-Nat.testBit_zero] at h1 h2 h3 ⊢ <;> (try split) <;> simp_all [-Nat.testBit_zero]

theorem reg15_bit (s : ConfigState) (h : HeaderWf s) (data mask i : Nat) (hi : i < 32) :
    (((byteMaskUpdate s.intr_pin ((mask >>> 1) &&& 1) (data >>> 8)) <<< 8) |||
      byteMaskUpdate s.intr_line (mask &&& 1) data).testBit i =
      writtenBit (headerAttr s.bar_mask 15) ((s.intr_pin <<< 8) ||| s.intr_line) data mask i := by
  have a1 := bmu_byte_lt s.intr_line (mask &&& 1) data h.intr_line (and1_and1 _)
  have b1 := h.intr_line
  unfold writtenBit headerAttr
  simp only [Nat.testBit_or, Nat.testBit_shiftLeft]
  by_cases h1 : i < 8
  · simp only [testBit_bmu_none, Nat.testBit_shiftRight, Nat.testBit_and]
    bits32 hi <;> simp [-Nat.testBit_zero] at h1 ⊢ <;> (try split) <;> simp_all [-Nat.testBit_zero]
  · rw [testBit_of_lt_256 a1 (by omega), testBit_of_lt_256 b1 (by omega)]
    simp only [testBit_bmu_none, Nat.testBit_shiftRight, Nat.testBit_and]
    bits32 hi <;> simp [-Nat.testBit_zero] at h1 ⊢ <;> (try split) <;> simp_all [-Nat.testBit_zero]

theorem reg12_bit (x data mask i : Nat) (hi : i < 32) (bm : List Nat) :
    (byteMaskUpdate x mask data).testBit i = writtenBit (headerAttr bm 12) x data mask i := by
  unfold writtenBit headerAttr
  rw [testBit_bmu_none]
  have : Nat.testBit 0xffffffff i = true := by
    rw [show (0xffffffff : Nat) = 2 ^ 32 - 1 from rfl, Nat.testBit_two_pow_sub_one]
    simp [hi]
  simp [this]

theorem bar_bit (x m data mask i : Nat) :
    (byteMaskUpdate x mask data (some m)).testBit i = writtenBit { rw := m } x data mask i := by
  unfold writtenBit
  rw [testBit_bmu_some]
  simp

/-- Reads of the 16 header registers always give a value; a header write succeeds and changes the
register written as its attributes say, and nothing else. -/
theorem header_write (s : ConfigState) (h : HeaderWf s) (reg data mask : Nat) (hreg : reg < 16) :
    ∃ s', writeConfig s reg data mask = some s' ∧ HeaderWf s' ∧ s'.bar_mask = s.bar_mask ∧
      (∀ r, r < 16 → ∃ v v', readConfig s r = some v ∧ readConfig s' r = some v' ∧
        (r ≠ reg → v' = v) ∧
        (r = reg → ∀ i, i < 32 → v'.testBit i = writtenBit (headerAttr s.bar_mask reg) v data mask i)) ∧
      (∀ r, 16 ≤ r → readConfig s' r = readConfig s r) := by
  have hro : ∀ (a : RegAttr) (v i : Nat), a.rw = 0 → a.w1c = 0 → v.testBit i = writtenBit a v data mask i := by
    intro a v i h1 h2
    unfold writtenBit
    rw [h1, h2]; simp
  have hcases : reg = 0 ∨ reg = 1 ∨ reg = 2 ∨ reg = 3 ∨ reg = 4 ∨ reg = 5 ∨ reg = 6 ∨ reg = 7 ∨ reg = 8 ∨
      reg = 9 ∨ reg = 10 ∨ reg = 11 ∨ reg = 12 ∨ reg = 13 ∨ reg = 14 ∨ reg = 15 := by omega
  -- reads of the registers of a state
  have hread : ∀ (t : ConfigState) (r : Nat), r < 16 → ∃ v, readConfig t r = some v := by
    intro t r hr
    have hr : r = 0 ∨ r = 1 ∨ r = 2 ∨ r = 3 ∨ r = 4 ∨ r = 5 ∨ r = 6 ∨ r = 7 ∨ r = 8 ∨
      r = 9 ∨ r = 10 ∨ r = 11 ∨ r = 12 ∨ r = 13 ∨ r = 14 ∨ r = 15 := by omega
    rcases hr with rfl | rfl | rfl | rfl | rfl | rfl | rfl | rfl | rfl | rfl | rfl | rfl | rfl | rfl | rfl | rfl <;>
      exact ⟨_, rfl⟩
  -- how the statement follows from the effect on the register written
  have fin : ∀ s', writeConfig s reg data mask = some s' → HeaderWf s' → s'.bar_mask = s.bar_mask →
      (∀ r, r ≠ reg → readConfig s' r = readConfig s r) →
      (∀ v v', readConfig s reg = some v → readConfig s' reg = some v' →
        ∀ i, i < 32 → v'.testBit i = writtenBit (headerAttr s.bar_mask reg) v data mask i) →
      ∃ s', writeConfig s reg data mask = some s' ∧ HeaderWf s' ∧ s'.bar_mask = s.bar_mask ∧
      (∀ r, r < 16 → ∃ v v', readConfig s r = some v ∧ readConfig s' r = some v' ∧
        (r ≠ reg → v' = v) ∧
        (r = reg → ∀ i, i < 32 → v'.testBit i = writtenBit (headerAttr s.bar_mask reg) v data mask i)) ∧
      (∀ r, 16 ≤ r → readConfig s' r = readConfig s r) := by
    intro s' h1 h2 h3 h4 h5
    refine ⟨s', h1, h2, h3, ?_, fun r hr => h4 r (by omega)⟩
    intro r hr
    obtain ⟨v, hv⟩ := hread s r hr
    obtain ⟨v', hv'⟩ := hread s' r hr
    refine ⟨v, v', hv, hv', ?_, ?_⟩
    · intro hne
      rw [h4 r hne, hv] at hv'
      exact (Option.some.inj hv').symm
    · intro he
      subst he
      exact h5 v v' hv hv'
  have barfin : ∀ k, k < 6 → reg = k + 4 →
      ∃ s', writeConfig s reg data mask = some s' ∧ HeaderWf s' ∧ s'.bar_mask = s.bar_mask ∧
      (∀ r, r < 16 → ∃ v v', readConfig s r = some v ∧ readConfig s' r = some v' ∧
        (r ≠ reg → v' = v) ∧
        (r = reg → ∀ i, i < 32 → v'.testBit i = writtenBit (headerAttr s.bar_mask reg) v data mask i)) ∧
      (∀ r, 16 ≤ r → readConfig s' r = readConfig s r) := by
    intro k hk he
    have hw : writeConfig s reg data mask = some { s with
        bar := s.bar.set k (byteMaskUpdate (s.bar.getD k 0) mask data (some (s.bar_mask.getD k 0))) } := by
      unfold writeConfig
      rw [if_pos (by omega)]
      have : reg - 4 = k := by omega
      rw [this]
    have hb := h.bars
    refine fin _ hw ⟨h.1, h.2, h.3, h.4, by simp [hb], h.6⟩ rfl ?_ ?_
    · intro r hne
      unfold readConfig
      split
      · rename_i hr
        simp only [Option.some.injEq]
        rw [List.getD_eq_getElem?_getD, List.getElem?_set_ne (by omega), List.getD_eq_getElem?_getD]
      · rfl
    · intro v v' hv hv' i hi
      have e1 : v = s.bar.getD k 0 := by
        have : readConfig s reg = some (s.bar.getD (reg - 4) 0) := by
          unfold readConfig; rw [if_pos (by omega)]
        rw [this] at hv
        have e : reg - 4 = k := by omega
        rw [e] at hv
        exact (Option.some.inj hv).symm
      have e2 : v' = byteMaskUpdate (s.bar.getD k 0) mask data (some (s.bar_mask.getD k 0)) := by
        unfold readConfig at hv'
        rw [if_pos (by omega)] at hv'
        have e : reg - 4 = k := by omega
        rw [e] at hv'
        simp only [Option.some.injEq] at hv'
        rw [← hv', List.getD_eq_getElem?_getD, List.getElem?_set_self (by omega)]
        rfl
      rw [e2, bar_bit, ← e1]
      have : headerAttr s.bar_mask reg = { rw := s.bar_mask.getD k 0 } := by
        have hk' : k = 0 ∨ k = 1 ∨ k = 2 ∨ k = 3 ∨ k = 4 ∨ k = 5 := by omega
        rcases hk' with rfl | rfl | rfl | rfl | rfl | rfl <;> subst he <;> rfl
      rw [this]
  have rofin : writeConfig s reg data mask = some s → (headerAttr s.bar_mask reg).rw = 0 →
      (headerAttr s.bar_mask reg).w1c = 0 →
      ∃ s', writeConfig s reg data mask = some s' ∧ HeaderWf s' ∧ s'.bar_mask = s.bar_mask ∧
      (∀ r, r < 16 → ∃ v v', readConfig s r = some v ∧ readConfig s' r = some v' ∧
        (r ≠ reg → v' = v) ∧
        (r = reg → ∀ i, i < 32 → v'.testBit i = writtenBit (headerAttr s.bar_mask reg) v data mask i)) ∧
      (∀ r, 16 ≤ r → readConfig s' r = readConfig s r) := by
    intro hw h1 h2
    refine fin s hw h rfl (fun _ _ => rfl) ?_
    intro v v' hv hv' i _
    rw [hv] at hv'
    rw [← Option.some.inj hv']
    exact hro _ _ _ h1 h2
  rcases hcases with rfl | rfl | rfl | rfl | rfl | rfl | rfl | rfl | rfl | rfl | rfl | rfl | rfl | rfl | rfl | rfl
  · exact rofin rfl rfl rfl
  · refine fin (writeCommandStatus s data mask) rfl ⟨h.1, h.2, h.3, h.4, h.5, h.6⟩ rfl ?_ ?_
    · intro r hne
      unfold readConfig readFunctionConfig
      have : (r = 1) = False := by simp [hne]
      simp only [this]
      rfl
    · intro v v' hv hv' i hi
      have e1 : v = readCommandStatus s := (Option.some.inj hv).symm
      have e2 : v' = readCommandStatus (writeCommandStatus s data mask) := (Option.some.inj hv').symm
      rw [e1, e2]
      exact commandStatus_bit s data mask i hi
  · exact rofin rfl rfl rfl
  · have hw : writeConfig s 3 data mask = some { s with
        cache_ln := byteMaskUpdate s.cache_ln (mask &&& 1) data
        lat_timer := byteMaskUpdate s.lat_timer ((mask >>> 1) &&& 1) (data >>> 8)
        bist := byteMaskUpdate s.bist ((mask >>> 3) &&& 1) (data >>> 24) } := rfl
    refine fin _ hw ⟨bmu_byte_lt _ _ _ h.1 (and1_and1 _), bmu_byte_lt _ _ _ h.2 (and1_and1 _), h.3, h.4, h.5, h.6⟩
      rfl ?_ ?_
    · intro r hne
      unfold readConfig readFunctionConfig
      simp only [hne, if_false]
      rfl
    · intro v v' hv hv' i hi
      have e1 : v = (s.bist <<< 24) ||| (s.header_type <<< 16) ||| (s.lat_timer <<< 8) ||| s.cache_ln :=
        (Option.some.inj hv).symm
      have e2 : v' = ((byteMaskUpdate s.bist ((mask >>> 3) &&& 1) (data >>> 24)) <<< 24) ||| (s.header_type <<< 16) |||
          ((byteMaskUpdate s.lat_timer ((mask >>> 1) &&& 1) (data >>> 8)) <<< 8) |||
          byteMaskUpdate s.cache_ln (mask &&& 1) data := (Option.some.inj hv').symm
      rw [e1, e2]
      exact reg3_bit s h data mask i hi
  · exact barfin 0 (by decide) rfl
  · exact barfin 1 (by decide) rfl
  · exact barfin 2 (by decide) rfl
  · exact barfin 3 (by decide) rfl
  · exact barfin 4 (by decide) rfl
  · exact barfin 5 (by decide) rfl
  · exact rofin rfl rfl rfl
  · exact rofin rfl rfl rfl
  · have hw : writeConfig s 12 data mask = some { s with
        expansion_rom_addr := byteMaskUpdate s.expansion_rom_addr mask data } := rfl
    refine fin _ hw ⟨h.1, h.2, h.3, h.4, h.5, h.6⟩ rfl ?_ ?_
    · intro r hne
      unfold readConfig readFunctionConfig
      have : (r = 12) = False := by simp [hne]
      simp only [this]
      rfl
    · intro v v' hv hv' i hi
      have e1 : v = s.expansion_rom_addr := (Option.some.inj hv).symm
      have e2 : v' = byteMaskUpdate s.expansion_rom_addr mask data := (Option.some.inj hv').symm
      rw [e1, e2]
      exact reg12_bit _ data mask i hi _
  · exact rofin rfl rfl rfl
  · exact rofin rfl rfl rfl
  · have hw : writeConfig s 15 data mask = some { s with
        intr_line := byteMaskUpdate s.intr_line (mask &&& 1) data
        intr_pin := byteMaskUpdate s.intr_pin ((mask >>> 1) &&& 1) (data >>> 8) } := rfl
    refine fin _ hw ⟨h.1, h.2, h.3, bmu_byte_lt _ _ _ h.4 (and1_and1 _), h.5, h.6⟩ rfl ?_ ?_
    · intro r hne
      unfold readConfig readFunctionConfig
      have : (r = 15) = False := by simp [hne]
      simp only [this]
      rfl
    · intro v v' hv hv' i hi
      have e1 : v = (s.intr_pin <<< 8) ||| s.intr_line := (Option.some.inj hv).symm
      have e2 : v' = ((byteMaskUpdate s.intr_pin ((mask >>> 1) &&& 1) (data >>> 8)) <<< 8) |||
          byteMaskUpdate s.intr_line (mask &&& 1) data := (Option.some.inj hv').symm
      rw [e1, e2]
      exact reg15_bit s h data mask i hi

/-! ### MSI and MSI-X registers -/

theorem testBit_fffc (i : Nat) (hi : i < 64) : Nat.testBit 0xfffffffffffffffc i = decide (2 ≤ i) := by
  rw [show (0xfffffffffffffffc : Nat) = (2 ^ 62 - 1) <<< 2 from rfl, testBit_two_pow_sub_one_shift]
  simp; omega

theorem testBit_fffc32 (i : Nat) : Nat.testBit 0xfffffffc i = decide (2 ≤ i ∧ i < 32) := by
  rw [show (0xfffffffc : Nat) = (2 ^ 30 - 1) <<< 2 from rfl, testBit_two_pow_sub_one_shift]
  simp

theorem testBit_ffff (i : Nat) : Nat.testBit 0xffff i = decide (i < 16) := by
  rw [show (0xffff : Nat) = 2 ^ 16 - 1 from rfl, Nat.testBit_two_pow_sub_one]

theorem testBit_ffffffff (i : Nat) : Nat.testBit 0xffffffff i = decide (i < 32) := by
  rw [show (0xffffffff : Nat) = 2 ^ 32 - 1 from rfl, Nat.testBit_two_pow_sub_one]

theorem msi0_bit (s : MsiState) (data mask i : Nat) (hi : i < 32) :
    ∀ v v', readMsiCap s 0 = some v → readMsiCap (writeMsiCap s 0 data mask) 0 = some v' →
      v'.testBit i = writtenBit (msiAttr s.addr64_capable 0) v data mask i := by
  intro v v' hv hv'
  rw [← Option.some.inj hv, ← Option.some.inj hv']
  unfold writeMsiCap writtenBit msiAttr
  simp only [if_pos, mask_1, mask_2, mask_4, mask_8, bitSet_eq, Nat.testBit_or, testBit_flag, Nat.testBit_shiftLeft,
    Nat.testBit_and, testBit_ite, Nat.testBit_shiftRight]
  bits32 hi <;> simp [-Nat.testBit_zero] <;> (try split) <;> simp_all [-Nat.testBit_zero]

theorem msix0_bit (s : MsixState) (data mask i : Nat) (hi : i < 32) :
    ∀ v v', readMsixCap s 0 = some v → readMsixCap (writeMsixCap s 0 data mask) 0 = some v' →
      v'.testBit i = writtenBit (msixAttr 0) v data mask i := by
  intro v v' hv hv'
  rw [← Option.some.inj hv, ← Option.some.inj hv']
  unfold writeMsixCap writtenBit msixAttr
  simp only [if_pos, mask_1, mask_2, mask_4, mask_8, bitSet_eq, Nat.testBit_or, testBit_flag, Nat.testBit_shiftLeft,
    Nat.testBit_and, testBit_ite, Nat.testBit_shiftRight]
  bits32 hi <;> simp [-Nat.testBit_zero] <;> (try split) <;> simp_all [-Nat.testBit_zero]

theorem mask_lt_16 {mask j : Nat} (hm : mask < 16) (hj : 4 ≤ j) : mask.testBit j = false :=
  Nat.testBit_lt_two_pow (Nat.lt_of_lt_of_le hm (Nat.pow_le_pow_right (n := 2) (i := 4) (by decide) hj))

theorem testBit_fffc64 (i : Nat) : Nat.testBit 0xfffffffffffffffc i = decide (2 ≤ i ∧ i < 64) := by
  rw [show (0xfffffffffffffffc : Nat) = (2 ^ 62 - 1) <<< 2 from rfl, testBit_two_pow_sub_one_shift]
  simp

theorem addr_lo_hi (a data mask : Nat) (hm : mask < 16) :
    ((byteMaskUpdate a mask data &&& 0xfffffffffffffffc) >>> 32) &&& 0xffffffff = (a >>> 32) &&& 0xffffffff := by
  apply Nat.eq_of_testBit_eq
  intro i
  rw [Nat.testBit_and, Nat.testBit_and, Nat.testBit_shiftRight, Nat.testBit_shiftRight, Nat.testBit_and,
    testBit_bmu_none, testBit_ffffffff, testBit_fffc64, mask_lt_16 hm (by omega)]
  by_cases hi : i < 32
  · have : 2 ≤ 32 + i ∧ 32 + i < 64 := by omega
    simp [hi, this]
  · simp [hi]

theorem addr_hi_lo (a data mask : Nat) :
    (byteMaskUpdate a (mask <<< 4) (data <<< 32) &&& 0xfffffffffffffffc) &&& 0xfffffffc = a &&& 0xfffffffc := by
  apply Nat.eq_of_testBit_eq
  intro i
  rw [Nat.testBit_and, Nat.testBit_and, Nat.testBit_and, testBit_bmu_none, testBit_fffc64, testBit_fffc32,
    Nat.testBit_shiftLeft]
  by_cases hi : 2 ≤ i ∧ i < 32
  · have h1 : 2 ≤ i ∧ i < 64 := by omega
    have h2 : ¬ (i / 8 ≥ 4) := by omega
    simp [hi, h1, h2]
  · simp [hi]

theorem msi1_bit (a data mask i : Nat) (hi : i < 32) (addr64 : Bool) :
    ((byteMaskUpdate a mask data &&& 0xfffffffffffffffc) &&& 0xfffffffc).testBit i =
      writtenBit (msiAttr addr64 1) (a &&& 0xfffffffc) data mask i := by
  unfold writtenBit msiAttr
  simp only [Nat.testBit_and, testBit_bmu_none, testBit_fffc64, testBit_fffc32]
  by_cases h2 : 2 ≤ i
  · have : i < 64 := by omega
    by_cases hmk : mask.testBit (i / 8) = true <;> simp [h2, hi, this, hmk, testBit_fffc32]
  · simp [h2, testBit_fffc32]

theorem msi2_bit (a data mask i : Nat) (hi : i < 32) :
    (((byteMaskUpdate a (mask <<< 4) (data <<< 32) &&& 0xfffffffffffffffc) >>> 32) &&& 0xffffffff).testBit i =
      writtenBit (msiAttr true 2) ((a >>> 32) &&& 0xffffffff) data mask i := by
  unfold writtenBit msiAttr
  simp only [Nat.testBit_and, Nat.testBit_shiftRight, testBit_bmu_none, testBit_fffc64, testBit_ffffffff,
    Nat.testBit_shiftLeft]
  have h1 : (32 + i) / 8 = 4 + i / 8 := by omega
  have h2 : i + 32 < 64 := by omega
  have h3 : 2 ≤ 32 + i := by omega
  have h4 : 4 + i / 8 - 4 = i / 8 := by omega
  rw [h1]
  by_cases hmk : mask.testBit (i / 8) = true <;> simp [hi, h2, h3, h4, hmk, testBit_ffffffff, Nat.add_comm]

theorem msiData_bit (d data mask i : Nat) (addr64 : Bool) (r : Nat) (hr : r = if addr64 then 3 else 2) :
    ((byteMaskUpdate d (mask &&& 0x3) data &&& 0xffff) &&& 0xffff).testBit i =
      writtenBit (msiAttr addr64 r) (d &&& 0xffff) data mask i := by
  have ha : msiAttr addr64 r = { rw := 0xffff } := by
    cases addr64 <;> subst hr <;> rfl
  rw [ha]
  unfold writtenBit
  simp only [Nat.testBit_and, testBit_bmu_none, testBit_ffff]
  by_cases h2 : i < 16
  · have h3 : Nat.testBit 3 (i / 8) = true := by
      have : i / 8 = 0 ∨ i / 8 = 1 := by omega
      rcases this with h | h <;> rw [h] <;> rfl
    by_cases hmk : mask.testBit (i / 8) = true <;> simp [h2, h3, hmk, testBit_ffff]
  · simp [h2, testBit_ffff]

theorem msiMask_bit (d data mask i : Nat) (addr64 : Bool) (r : Nat) (hr : r = if addr64 then 4 else 3)
    (hi : i < 32) :
    ((byteMaskUpdate d mask data &&& 0xffffffff) &&& 0xffffffff).testBit i =
      writtenBit (msiAttr addr64 r) (d &&& 0xffffffff) data mask i := by
  have ha : msiAttr addr64 r = { rw := 0xffffffff } := by
    cases addr64 <;> subst hr <;> rfl
  rw [ha]
  unfold writtenBit
  simp only [Nat.testBit_and, testBit_bmu_none, testBit_ffffffff]
  by_cases hmk : mask.testBit (i / 8) = true <;> simp [hi, hmk, testBit_ffffffff]

/-- The MSI registers: every implemented register behaves as its attributes say, the others keep
their value. -/
theorem msi_write (s : MsiState) (reg data mask r : Nat) (hm : mask < 16) :
    (r ≠ reg → readMsiCap (writeMsiCap s reg data mask) r = readMsiCap s r) ∧
    (r = reg → ∀ v, readMsiCap s r = some v → ∃ v', readMsiCap (writeMsiCap s reg data mask) r = some v' ∧
      ∀ i, i < 32 → v'.testBit i = writtenBit (msiAttr s.addr64_capable reg) v data mask i) := by
  by_cases h0 : reg = 0
  · subst h0
    constructor
    · intro hne
      unfold readMsiCap
      rw [if_neg hne, if_neg hne]
      rfl
    · intro he v hv
      subst he
      exact ⟨_, rfl, fun i hi => msi0_bit s data mask i hi v _ hv rfl⟩
  by_cases h1 : reg = 1
  · subst h1
    constructor
    · intro hne
      have hw : writeMsiCap s 1 data mask =
          { s with message_address := byteMaskUpdate s.message_address mask data &&& 0xfffffffffffffffc } := rfl
      rw [hw]
      unfold readMsiCap
      simp only [hne, if_false, addr_lo_hi _ _ _ hm]
    · intro he v hv
      subst he
      have e1 : v = s.message_address &&& 0xfffffffc := (Option.some.inj hv).symm
      exact ⟨_, rfl, fun i hi => by rw [e1]; exact msi1_bit _ data mask i hi _⟩
  by_cases h2 : reg = 2 ∧ s.addr64_capable
  · obtain ⟨rfl, ha⟩ := h2
    have hw : writeMsiCap s 2 data mask =
        { s with message_address := byteMaskUpdate s.message_address (mask <<< 4) (data <<< 32) &&& 0xfffffffffffffffc } := by
      unfold writeMsiCap
      rw [if_neg (by decide), if_neg (by decide), if_pos ⟨rfl, ha⟩]
    rw [hw]
    constructor
    · intro hne
      unfold readMsiCap
      simp only [hne, false_and, if_false, addr_hi_lo]
    · intro he v hv
      subst he
      unfold readMsiCap at hv ⊢
      rw [if_neg (by decide), if_neg (by decide), if_pos ⟨rfl, ha⟩] at hv ⊢
      refine ⟨_, rfl, fun i hi => ?_⟩
      rw [← Option.some.inj hv, ha]
      exact msi2_bit _ data mask i hi
  by_cases h3 : reg = (if s.addr64_capable then 3 else 2)
  · have hw : writeMsiCap s reg data mask =
        { s with message_data := byteMaskUpdate s.message_data (mask &&& 0x3) data &&& 0xffff } := by
      unfold writeMsiCap
      rw [if_neg h0, if_neg h1, if_neg h2, if_pos h3]
    rw [hw]
    constructor
    · intro hne
      unfold readMsiCap
      have : ¬ r = (if s.addr64_capable then 3 else 2) := by rw [← h3]; exact hne
      simp only [this, if_false]
    · intro he v hv
      subst he
      unfold readMsiCap at hv ⊢
      rw [if_neg h0, if_neg h1, if_neg h2, if_pos h3] at hv
      rw [if_neg h0, if_neg h1, if_neg h2, if_pos h3]
      refine ⟨_, rfl, fun i hi => ?_⟩
      rw [← Option.some.inj hv]
      exact msiData_bit _ data mask i _ _ h3
  by_cases h4 : reg = (if s.addr64_capable then 4 else 3) ∧ s.per_vector_mask_capable
  · have hw : writeMsiCap s reg data mask =
        { s with mask_bits := byteMaskUpdate s.mask_bits mask data &&& 0xffffffff } := by
      unfold writeMsiCap
      rw [if_neg h0, if_neg h1, if_neg h2, if_neg h3, if_pos h4]
    rw [hw]
    constructor
    · intro hne
      unfold readMsiCap
      have : ¬ r = (if s.addr64_capable then 4 else 3) := by rw [← h4.1]; exact hne
      simp only [this, false_and, if_false]
    · intro he v hv
      subst he
      unfold readMsiCap at hv ⊢
      rw [if_neg h0, if_neg h1, if_neg h2, if_neg h3, if_pos h4] at hv
      rw [if_neg h0, if_neg h1, if_neg h2, if_neg h3, if_pos h4]
      refine ⟨_, rfl, fun i hi => ?_⟩
      rw [← Option.some.inj hv]
      exact msiMask_bit _ data mask i _ _ h4.1 hi
  have hw : writeMsiCap s reg data mask = s := by
    unfold writeMsiCap
    rw [if_neg h0, if_neg h1, if_neg h2, if_neg h3, if_neg h4]
  rw [hw]
  refine ⟨fun _ => rfl, fun he v hv => ⟨v, hv, fun i hi => ?_⟩⟩
  subst he
  -- the only remaining implemented register holds the pending bits
  have hro : msiAttr s.addr64_capable r = {} := by
    unfold readMsiCap at hv
    rw [if_neg h0, if_neg h1, if_neg h2, if_neg h3, if_neg h4] at hv
    by_cases h5 : r = (if s.addr64_capable then 5 else 4) ∧ s.per_vector_mask_capable
    · have h6 := h5.1
      cases ha : s.addr64_capable <;> rw [ha] at h6 <;> subst h6 <;> rfl
    · rw [if_neg h5] at hv; cases hv
  rw [hro]
  unfold writtenBit
  simp

theorem msix_write (s : MsixState) (reg data mask r : Nat) :
    (r ≠ reg → readMsixCap (writeMsixCap s reg data mask) r = readMsixCap s r) ∧
    (r = reg → ∀ v, readMsixCap s r = some v → ∃ v', readMsixCap (writeMsixCap s reg data mask) r = some v' ∧
      ∀ i, i < 32 → v'.testBit i = writtenBit (msixAttr reg) v data mask i) := by
  by_cases h0 : reg = 0
  · subst h0
    constructor
    · intro hne
      unfold readMsixCap
      rw [if_neg hne, if_neg hne]
      rfl
    · intro he v hv
      subst he
      exact ⟨_, rfl, fun i hi => msix0_bit s data mask i hi v _ hv rfl⟩
  · have hw : writeMsixCap s reg data mask = s := by unfold writeMsixCap; rw [if_neg h0]
    rw [hw]
    refine ⟨fun _ => rfl, fun he v hv => ⟨v, hv, fun i _ => ?_⟩⟩
    have hro : msixAttr reg = {} := by
      cases reg with
      | zero => exact absurd rfl h0
      | succ n => rfl
    rw [hro]
    unfold writtenBit
    simp

end Verif.Proofs
