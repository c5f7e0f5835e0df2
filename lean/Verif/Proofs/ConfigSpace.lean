import Verif.Proofs.Config
import Verif.Proofs.PcieCap
import Verif.Proofs.Cap
/-! Writes to capability registers seen through the whole configuration space (C45). -/
namespace Verif.Proofs
open Verif Verif.Model Verif.Spec

/-- Every capability is wired to the callbacks of its ID, which is one of those the model knows. -/
def WiredCaps (l : List Cap) : Prop :=
  ∀ c ∈ l, c.read = some c.cap_id ∧ c.write = some c.cap_id ∧
    (c.cap_id = PM_CAP_ID ∨ c.cap_id = MSI_CAP_ID ∨ c.cap_id = PCIE_CAP_ID ∨ c.cap_id = MSIX_CAP_ID)

theorem findByReg_mem {l : List Cap} {r : Nat} {c : Cap} (h : findByReg l r = some c) : c ∈ l ∧ InCap c r := by
  unfold findByReg at h
  exact ⟨List.mem_of_find?_eq_some h, by simpa [InCap] using List.find?_some h⟩

/-- `s'` differs from `s` in capability state only. -/
def SameHeader (s s' : ConfigState) : Prop :=
  (∀ r, r < 16 ∨ 256 ≤ r → readConfig s' r = readConfig s r) ∧ s'.capabilities = s.capabilities

theorem readConfig_cap (s : ConfigState) (r : Nat) (h1 : 16 ≤ r) (h2 : r < 256) :
    readConfig s r = readCapRegister (readCapCallback s) s.capabilities r := by
  unfold readConfig readFunctionConfig
  repeat rw [if_neg (by omega)]
  rw [if_pos ⟨h1, h2⟩]

theorem sameHeader_callback (s s' : ConfigState) (cap r data mask : Nat)
    (h : writeCapCallback s cap r data mask = some s') : SameHeader s s' := by
  unfold writeCapCallback at h
  split at h
  · cases h; exact ⟨fun _ _ => rfl, rfl⟩
  split at h
  · cases h
    refine ⟨fun r hr => ?_, rfl⟩
    unfold readConfig readFunctionConfig
    rw [if_neg (by omega : ¬ (16 ≤ r ∧ r < 256)), if_neg (by omega : ¬ (16 ≤ r ∧ r < 256))]
    rfl
  split at h
  · cases hp : writePcieCap s.pcie r data mask with
    | none => rw [hp] at h; cases h
    | some p =>
      rw [hp] at h; cases h
      refine ⟨fun r hr => ?_, rfl⟩
      unfold readConfig readFunctionConfig
      rw [if_neg (by omega : ¬ (16 ≤ r ∧ r < 256)), if_neg (by omega : ¬ (16 ≤ r ∧ r < 256))]
      rfl
  split at h
  · cases h
    refine ⟨fun r hr => ?_, rfl⟩
    unfold readConfig readFunctionConfig
    rw [if_neg (by omega : ¬ (16 ≤ r ∧ r < 256)), if_neg (by omega : ¬ (16 ≤ r ∧ r < 256))]
    rfl
  · cases h

/-- Exceptions to the attributes of the PCI Express capability: (register, bit) pairs at which the
code deviates, see C45. -/
def PcieException (cap r i : Nat) : Prop :=
  cap = PCIE_CAP_ID ∧ ((r = 2 ∧ (i = 20 ∨ i = 21)) ∨ (r = 4 ∧ (i = 3 ∨ i = 4)))

theorem pcieCap_written (s s' : PcieCapState) (reg data mask i : Nat) (hi : i < 32)
    (hex : ¬ ((reg = 2 ∧ (i = 20 ∨ i = 21)) ∨ (reg = 4 ∧ (i = 3 ∨ i = 4))))
    (h : writePcieCap s reg data mask = some s') :
    (readPcieCap s' reg).testBit i = writtenBit (pcieCapAttr reg) (readPcieCap s reg) data mask i := by
  by_cases h2 : reg = 2
  · subst h2; cases h; exact pcieCap2_bit s data mask i hi (by omega)
  by_cases h4 : reg = 4
  · subst h4; cases h; exact pcieCap4_bit s data mask i hi (by omega)
  by_cases h6 : reg = 6
  · subst h6; cases h; exact pcieCap6_bit s data mask i hi
  by_cases h7 : reg = 7
  · subst h7; cases h; exact pcieCap7_bit s data mask i hi
  by_cases h8 : reg = 8
  · subst h8; cases h; exact pcieCap8_bit s data mask i hi
  by_cases h10 : reg = 10
  · subst h10; cases h; exact pcieCap10_bit s data mask i hi
  by_cases h12 : reg = 12
  · subst h12
    simp only [writePcieCap] at h
    split at h
    · cases h
    · cases h; exact pcieCap12_bit s data mask i hi
  have e : writePcieCap s reg data mask = some s := by
    unfold writePcieCap
    split <;> first | contradiction | rfl
  rw [e] at h; cases h
  have ea : pcieCapAttr reg = {} := by
    unfold pcieCapAttr
    split <;> first | contradiction | rfl
  rw [ea]; unfold writtenBit; simp

/-- Effect of a callback on the registers of all capabilities. -/
theorem callback_other (s s' : ConfigState) (cap r data mask cap' r' : Nat) (hm : mask < 16)
    (h : writeCapCallback s cap r data mask = some s') (hne : cap' ≠ cap ∨ r' ≠ r) :
    readCapCallback s' cap' r' = readCapCallback s cap' r' := by
  unfold writeCapCallback at h
  by_cases c1 : cap = PM_CAP_ID
  · rw [if_pos c1] at h; cases h; rfl
  rw [if_neg c1] at h
  by_cases c2 : cap = MSI_CAP_ID
  · rw [if_pos c2] at h; cases h
    unfold readCapCallback
    by_cases d2 : cap' = MSI_CAP_ID
    · have hr : r' ≠ r := by rcases hne with h | h; exact absurd (d2.trans c2.symm) h; exact h
      simp only [(msi_write s.msi r data mask r' hm).1 hr]
    · simp only [if_neg d2]
  rw [if_neg c2] at h
  by_cases c3 : cap = PCIE_CAP_ID
  · rw [if_pos c3] at h
    cases hp : writePcieCap s.pcie r data mask with
    | none => rw [hp] at h; cases h
    | some p =>
      rw [hp] at h; cases h
      unfold readCapCallback
      by_cases d3 : cap' = PCIE_CAP_ID
      · have hr : r' ≠ r := by rcases hne with h | h; exact absurd (d3.trans c3.symm) h; exact h
        simp only [pcieCap_other _ _ _ _ _ _ hr hp]
      · simp only [if_neg d3]
  rw [if_neg c3] at h
  by_cases c4 : cap = MSIX_CAP_ID
  · rw [if_pos c4] at h; cases h
    unfold readCapCallback
    by_cases d4 : cap' = MSIX_CAP_ID
    · have hr : r' ≠ r := by rcases hne with h | h; exact absurd (d4.trans c4.symm) h; exact h
      simp only [(msix_write s.msix r data mask r').1 hr]
    · simp only [if_neg d4]
  rw [if_neg c4] at h; cases h

theorem callback_written (s s' : ConfigState) (cap r data mask v : Nat) (hm : mask < 16)
    (h : writeCapCallback s cap r data mask = some s') (hv : readCapCallback s cap r = some v) :
    ∃ v', readCapCallback s' cap r = some v' ∧ ∀ i, i < 32 → ¬ PcieException cap r i →
      v'.testBit i = writtenBit (capAttr s.msi.addr64_capable cap r) v data mask i := by
  unfold writeCapCallback at h
  by_cases c1 : cap = PM_CAP_ID
  · rw [if_pos c1] at h; cases h
    refine ⟨v, hv, fun i _ _ => ?_⟩
    subst c1
    simp [capAttr, PM_CAP_ID, writtenBit]
  rw [if_neg c1] at h
  by_cases c2 : cap = MSI_CAP_ID
  · rw [if_pos c2] at h; cases h
    subst c2
    obtain ⟨v', h1, h2⟩ := (msi_write s.msi r data mask r hm).2 rfl v hv
    exact ⟨v', h1, fun i hi _ => h2 i hi⟩
  rw [if_neg c2] at h
  by_cases c3 : cap = PCIE_CAP_ID
  · rw [if_pos c3] at h
    subst c3
    cases hp : writePcieCap s.pcie r data mask with
    | none => rw [hp] at h; cases h
    | some p =>
      rw [hp] at h; cases h
      have hv' : v = readPcieCap s.pcie r := (Option.some.inj hv).symm
      refine ⟨readPcieCap p r, rfl, fun i hi hex => ?_⟩
      rw [hv']
      exact pcieCap_written s.pcie p r data mask i hi (fun hh => hex ⟨rfl, hh⟩) hp
  rw [if_neg c3] at h
  by_cases c4 : cap = MSIX_CAP_ID
  · rw [if_pos c4] at h; cases h
    subst c4
    obtain ⟨v', h1, h2⟩ := (msix_write s.msix r data mask r).2 rfl v hv
    exact ⟨v', h1, fun i hi _ => h2 i hi⟩
  rw [if_neg c4] at h; cases h

theorem capAttr_header (a : Bool) (cap i : Nat) (hi : i < 16) (hc : cap ≠ PCIE_CAP_ID) :
    (capAttr a cap 0).rw.testBit i = false ∧ (capAttr a cap 0).w1c.testBit i = false := by
  unfold capAttr
  by_cases c1 : cap = 5
  · rw [if_pos c1]
    simp only [msiAttr, if_pos]
    have : i = 0 ∨ i = 1 ∨ i = 2 ∨ i = 3 ∨ i = 4 ∨ i = 5 ∨ i = 6 ∨ i = 7 ∨ i = 8 ∨ i = 9 ∨ i = 10 ∨ i = 11 ∨
      i = 12 ∨ i = 13 ∨ i = 14 ∨ i = 15 := by omega
    rcases this with rfl | rfl | rfl | rfl | rfl | rfl | rfl | rfl | rfl | rfl | rfl | rfl | rfl | rfl | rfl | rfl <;>
      decide
  rw [if_neg c1, if_neg (show ¬ cap = 0x10 from hc)]
  split
  · simp only [msixAttr]
    have : i = 0 ∨ i = 1 ∨ i = 2 ∨ i = 3 ∨ i = 4 ∨ i = 5 ∨ i = 6 ∨ i = 7 ∨ i = 8 ∨ i = 9 ∨ i = 10 ∨ i = 11 ∨
      i = 12 ∨ i = 13 ∨ i = 14 ∨ i = 15 := by omega
    rcases this with rfl | rfl | rfl | rfl | rfl | rfl | rfl | rfl | rfl | rfl | rfl | rfl | rfl | rfl | rfl | rfl <;>
      decide
  · simp

theorem header_bits_hi (val n id i : Nat) (h1 : 16 ≤ i) (h2 : i < 32) :
    ((val &&& 0xffff0000) ||| ((n &&& 0xff) <<< 8) ||| (id &&& 0xff)).testBit i = val.testBit i := by
  have e1 : Nat.testBit 0xffff0000 i = true := by
    rw [show (0xffff0000 : Nat) = (2 ^ 16 - 1) <<< 16 from rfl, testBit_two_pow_sub_one_shift]
    simp; omega
  have e2 : ∀ j, 8 ≤ j → Nat.testBit 0xff j = false := by
    intro j hj
    rw [show (0xff : Nat) = 2 ^ 8 - 1 from rfl, Nat.testBit_two_pow_sub_one]
    simp; omega
  simp only [Nat.testBit_or, Nat.testBit_and, Nat.testBit_shiftLeft, e1, e2 i (by omega), e2 (i - 8) (by omega)]
  simp

theorem header_bits_lo (val val' n id i : Nat) (h1 : i < 16) :
    ((val &&& 0xffff0000) ||| ((n &&& 0xff) <<< 8) ||| (id &&& 0xff)).testBit i =
    ((val' &&& 0xffff0000) ||| ((n &&& 0xff) <<< 8) ||| (id &&& 0xff)).testBit i := by
  have e1 : Nat.testBit 0xffff0000 i = false := by
    rw [show (0xffff0000 : Nat) = (2 ^ 16 - 1) <<< 16 from rfl, testBit_two_pow_sub_one_shift]
    simp; omega
  simp only [Nat.testBit_or, Nat.testBit_and, e1]
  simp

theorem eq_of_nodup_ids {l : List Cap} (h : (l.map (·.cap_id)).Nodup) {c d : Cap} (hc : c ∈ l) (hd : d ∈ l)
    (he : c.cap_id = d.cap_id) : c = d := by
  induction l with
  | nil => cases hc
  | cons x l ih =>
    rw [List.map_cons, List.nodup_cons] at h
    rcases List.mem_cons.1 hc with rfl | hc' <;> rcases List.mem_cons.1 hd with rfl | hd'
    · rfl
    · exact absurd (List.mem_map.2 ⟨d, hd', he.symm⟩) h.1
    · exact absurd (List.mem_map.2 ⟨c, hc', he⟩) h.1
    · exact ih h.2 hc' hd'

/-- A write to the capability area: other registers keep their value, the written one follows its
attributes. -/
theorem cap_write (s s' : ConfigState) (hids : (s.capabilities.map (·.cap_id)).Nodup)
    (hw : WiredCaps s.capabilities) (reg data mask : Nat) (hm : mask < 16) (h1 : 16 ≤ reg) (h2 : reg < 256)
    (h : writeConfig s reg data mask = some s') :
    (∀ r, r ≠ reg → readConfig s' r = readConfig s r) ∧
    (∀ v, readConfig s reg = some v → ∃ v', readConfig s' reg = some v' ∧
      ∀ i, i < 32 → match findByReg s.capabilities reg with
        | some c => ¬ PcieException c.cap_id (reg - c.offset) i →
          v'.testBit i = writtenBit (capAttr s.msi.addr64_capable c.cap_id (reg - c.offset)) v data mask i
        | none => v'.testBit i = v.testBit i) := by
  unfold writeConfig writeFunctionConfig at h
  rw [if_neg (by omega), if_neg (by omega), if_neg (by omega), if_neg (by omega), if_neg (by omega),
    if_neg (by omega), if_pos ⟨h1, h2⟩] at h
  unfold writeCapTarget at h
  cases hf : findByReg s.capabilities reg with
  | none =>
    rw [hf] at h
    cases h
    exact ⟨fun _ _ => rfl, fun v hv => ⟨v, hv, fun _ _ => rfl⟩⟩
  | some c =>
    rw [hf] at h
    obtain ⟨hc, hin⟩ := findByReg_mem hf
    obtain ⟨w1, w2, w3⟩ := hw c hc
    simp only [w2, Option.getD_some] at h
    obtain ⟨sh1, sh2⟩ := sameHeader_callback _ _ _ _ _ _ h
    constructor
    · intro r hr
      by_cases hrc : 16 ≤ r ∧ r < 256
      · rw [readConfig_cap s' r hrc.1 hrc.2, readConfig_cap s r hrc.1 hrc.2, sh2]
        unfold readCapRegister
        cases hd : findByReg s.capabilities r with
        | none => rfl
        | some d =>
          obtain ⟨hdm, hdin⟩ := findByReg_mem hd
          obtain ⟨x1, _, _⟩ := hw d hdm
          simp only [x1, Option.getD_some]
          rw [callback_other s s' _ _ data mask d.cap_id (r - d.offset) hm h]
          by_cases hid : d.cap_id = c.cap_id
          · right
            have := eq_of_nodup_ids hids hdm hc hid
            subst this
            unfold InCap at hin hdin
            omega
          · exact Or.inl hid
      · exact sh1 r (by omega)
    · intro v hv
      rw [readConfig_cap s reg h1 h2] at hv
      rw [readConfig_cap s' reg h1 h2, sh2]
      unfold readCapRegister at hv ⊢
      rw [hf] at hv ⊢
      simp only [w1, Option.getD_some] at hv ⊢
      unfold Cap.readRegister at hv ⊢
      by_cases h0 : reg - c.offset = 0
      · rw [if_pos h0] at hv ⊢
        cases hcb : readCapCallback s c.cap_id (reg - c.offset) with
        | none => rw [hcb] at hv; cases hv
        | some val =>
          rw [hcb] at hv
          obtain ⟨val', e1, e2⟩ := callback_written s s' _ _ data mask val hm h hcb
          rw [e1]
          cases hn : c.next_cap with
          | none => rw [hn] at hv; cases hv
          | some n =>
            rw [hn] at hv
            have hv' : ((val &&& 0xffff0000) ||| ((n &&& 0xff) <<< 8) ||| (c.cap_id &&& 0xff)) = v := Option.some.inj hv
            subst hv'
            refine ⟨_, rfl, fun i hi hex => ?_⟩
            by_cases hi16 : i < 16
            · rw [header_bits_lo val' val n c.cap_id i hi16]
              have : (capAttr s.msi.addr64_capable c.cap_id (reg - c.offset)).rw.testBit i = false ∧
                  (capAttr s.msi.addr64_capable c.cap_id (reg - c.offset)).w1c.testBit i = false := by
                rw [h0]
                by_cases hp : c.cap_id = PCIE_CAP_ID
                · rw [hp]; simp [capAttr, PCIE_CAP_ID, pcieCapAttr]
                · exact capAttr_header _ _ i hi16 hp
              unfold writtenBit
              rw [this.1, this.2]
              simp
            · rw [header_bits_hi _ _ _ i (by omega) hi, e2 i hi hex]
              unfold writtenBit
              rw [header_bits_hi _ _ _ i (by omega) hi]
      · rw [if_neg h0] at hv ⊢
        obtain ⟨v', e1, e2⟩ := callback_written s s' _ _ data mask v hm h hv
        exact ⟨v', e1, e2⟩

/-- Capability writes raise only for Link Control 2 with a pending equalization request. -/
theorem cap_write_total (s : ConfigState) (hw : WiredCaps s.capabilities) (reg data mask : Nat)
    (h1 : 16 ≤ reg) (h2 : reg < 256) (hleq : s.pcie.link_equalization_request = false) :
    ∃ s', writeConfig s reg data mask = some s' := by
  unfold writeConfig writeFunctionConfig
  rw [if_neg (by omega), if_neg (by omega), if_neg (by omega), if_neg (by omega), if_neg (by omega),
    if_neg (by omega), if_pos ⟨h1, h2⟩]
  unfold writeCapTarget
  cases hf : findByReg s.capabilities reg with
  | none => exact ⟨s, rfl⟩
  | some c =>
    obtain ⟨hc, hin⟩ := findByReg_mem hf
    obtain ⟨w1, w2, w3⟩ := hw c hc
    simp only [w2, Option.getD_some]
    have hp : ∃ p, writePcieCap s.pcie (reg - c.offset) data mask = some p := by
      unfold writePcieCap
      split <;> first | exact ⟨_, rfl⟩ | (rw [hleq]; exact ⟨_, rfl⟩)
    obtain ⟨p, hp⟩ := hp
    unfold writeCapCallback
    rw [hp]
    rcases w3 with w | w | w | w <;> rw [w] <;> exact ⟨_, rfl⟩

theorem readConfig_ext (s : ConfigState) (r : Nat) (h1 : 256 ≤ r) (h2 : r < 4096) :
    readConfig s r = readExtCapRegister (fun _ _ => none) s.ext_capabilities r := by
  unfold readConfig readFunctionConfig
  repeat rw [if_neg (by omega)]
  rw [if_pos ⟨h1, h2⟩]

theorem extWalk_congr {read read' : Nat → Option Nat} {p : Nat} {xs : List (Nat × Nat)} (h : ExtWalk read p xs)
    (he : ∀ x ∈ xs, read' x.1 = read x.1) : ExtWalk read' p xs := by
  induction h with
  | done => exact ExtWalk.done
  | step ptr v rest h1 h2 h3 ih =>
    refine ExtWalk.step ptr v rest h1 ?_ (ih fun x hx => he x (List.mem_cons_of_mem _ hx))
    rw [he _ List.mem_cons_self, h2]

end Verif.Proofs
