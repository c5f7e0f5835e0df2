import Verif.Proofs.Util
import Verif.Model.Tlp
import Verif.Spec.Mem
/-! Helper lemmas about `TLP.set_be`, `set_data` and `get_data`. -/
namespace Verif.Proofs
open Verif Verif.Model

theorem and_low_zero (x r : Nat) (hx : x % 4 = 0) (hr : r < 4) : x &&& r = 0 := by
  have hd : 3 &&& r = r := by
    revert r; decide
  rw [← hd, ← Nat.and_assoc, and_3, hx, Nat.zero_and]

theorem setBe_cases (t : Tlp) (addr length : Nat) (_h : 1 ≤ length) :
    let n := (addr % 4 + length + 3) / 4
    (t.setBe addr length).address = addr - addr % 4 ∧
    (t.setBe addr length).length = n ∧
    (t.setBe addr length).first_be =
      (if n = 1 then ((0xf <<< (addr % 4)) &&& 0xf) &&& (0xf >>> (3 - (addr + length + 3) % 4))
       else (0xf <<< (addr % 4)) &&& 0xf) ∧
    (t.setBe addr length).last_be = (if n = 1 then 0 else 0xf >>> (3 - (addr + length + 3) % 4)) := by
  intro n
  have hn : (length + firstPad addr + lastPad addr length + 3) / 4 = n := by
    simp only [firstPad, lastPad, n]; omega
  unfold Tlp.setBe
  simp only [hn]
  have ha : andNot addr 3 = addr - addr % 4 := by rw [andNot_3]; omega
  by_cases h1 : n = 1
  · simp [h1, ha, firstPad, lastPad]
  · simp [h1, ha, firstPad, lastPad]

theorem setBe_address (t : Tlp) (addr length : Nat) :
    (t.setBe addr length).address = addr - addr % 4 := by
  unfold Tlp.setBe
  have ha : andNot addr 3 = addr - addr % 4 := by rw [andNot_3]; omega
  simp only [ha]; split <;> rfl

theorem setBe_length (t : Tlp) (addr length : Nat) (h : 1 ≤ length) :
    (t.setBe addr length).length = (addr % 4 + length + 3) / 4 := (setBe_cases t addr length h).2.1

theorem tb_first (r b : Nat) (hr : r < 4) (hb : b < 4) :
    ((0xf <<< r) &&& 0xf : Nat).testBit b = decide (r ≤ b) := by
  have : ∀ r < 4, ∀ b < 4, ((0xf <<< r) &&& 0xf : Nat).testBit b = decide (r ≤ b) := by decide
  exact this r hr b hb
theorem tb_last (s b : Nat) (hr : s < 4) (hb : b < 4) :
    (0xf >>> (3 - s) : Nat).testBit b = decide (b ≤ s) := by
  have : ∀ s < 4, ∀ b < 4, (0xf >>> (3 - s) : Nat).testBit b = decide (b ≤ s) := by decide
  exact this s hr b hb

theorem setBe_enabled (t : Tlp) (addr length : Nat) (h : 1 ≤ length) (a : Nat) :
    let r := t.setBe addr length
    Spec.enabled r.address r.length r.first_be r.last_be a = true ↔ addr ≤ a ∧ a < addr + length := by
  intro r
  obtain ⟨h1, h2, h3, h4⟩ := setBe_cases t addr length h
  have hr : addr % 4 < 4 := Nat.mod_lt _ (by decide)
  have hs : (addr + length + 3) % 4 < 4 := Nat.mod_lt _ (by decide)
  have ha : a % 4 < 4 := Nat.mod_lt _ (by decide)
  simp only [r, Spec.enabled, h1, h2, h3, h4]
  by_cases hn : (addr % 4 + length + 3) / 4 = 1
  · simp only [hn, if_true, Nat.testBit_and, tb_first _ _ hr ha, tb_last _ _ hs ha,
      Bool.and_eq_true, decide_eq_true_eq]
    have : (15 : Nat).testBit (a % 4) = true := by
      have : ∀ b < 4, (15 : Nat).testBit b = true := by decide
      exact this _ ha
    split
    · simp; omega
    · split <;> simp <;> omega
  · simp only [hn, if_false, Bool.and_eq_true, decide_eq_true_eq]
    split
    · simp [tb_first _ _ hr ha]; omega
    · split
      · rw [tb_last _ _ hs ha, decide_eq_true_eq]; omega
      · simp; omega
theorem firstBeOffset_of_setBe (t : Tlp) (addr length : Nat) (h : 1 ≤ length) :
    (t.setBe addr length).getFirstBeOffset = addr % 4 := by
  obtain ⟨h1, h2, h3, h4⟩ := setBe_cases t addr length h
  have hr : addr % 4 < 4 := Nat.mod_lt _ (by decide)
  have hs : (addr + length + 3) % 4 < 4 := Nat.mod_lt _ (by decide)
  unfold Tlp.getFirstBeOffset
  rw [h3]
  by_cases hn : (addr % 4 + length + 3) / 4 = 1
  · simp only [hn, if_true]
    have hle : addr % 4 ≤ (addr + length + 3) % 4 := by omega
    generalize addr % 4 = r at *
    generalize (addr + length + 3) % 4 = s at *
    clear h1 h2 h3 h4 hn
    revert r s; decide
  · simp only [hn, if_false]
    generalize addr % 4 = r at *
    clear h1 h2 h3 h4 hn hs
    revert r; decide

theorem lastBeOffset_of_setBe (t : Tlp) (addr length : Nat) (h : 1 ≤ length) :
    (t.setBe addr length).getLastBeOffset = 3 - (addr + length + 3) % 4 := by
  obtain ⟨h1, h2, h3, h4⟩ := setBe_cases t addr length h
  have hr : addr % 4 < 4 := Nat.mod_lt _ (by decide)
  have hs : (addr + length + 3) % 4 < 4 := Nat.mod_lt _ (by decide)
  unfold Tlp.getLastBeOffset
  rw [h3, h4, h2]
  by_cases hn : (addr % 4 + length + 3) / 4 = 1
  · simp only [hn, if_true]
    have hle : addr % 4 ≤ (addr + length + 3) % 4 := by omega
    generalize addr % 4 = r at *
    generalize (addr + length + 3) % 4 = s at *
    clear h1 h2 h3 h4 hn
    revert r s; decide
  · simp only [hn, if_false]
    generalize (addr + length + 3) % 4 = s at *
    clear h1 h2 h3 h4 hn
    revert s; decide

theorem bytesOfDword_dwordOfBytes (b0 b1 b2 b3 : UInt8) :
    bytesOfDword (dwordOfBytes b0 b1 b2 b3) = some [b0, b1, b2, b3] := by
  have h0 := b0.toNat_lt
  have h1 := b1.toNat_lt
  have h2 := b2.toNat_lt
  have h3 := b3.toNat_lt
  unfold bytesOfDword dwordOfBytes
  rw [if_pos (by omega)]
  have e0 : (b0.toNat + 256 * b1.toNat + 65536 * b2.toNat + 16777216 * b3.toNat) % 256 = b0.toNat := by omega
  have e1 : (b0.toNat + 256 * b1.toNat + 65536 * b2.toNat + 16777216 * b3.toNat) / 256 % 256 = b1.toNat := by omega
  have e2 : (b0.toNat + 256 * b1.toNat + 65536 * b2.toNat + 16777216 * b3.toNat) / 65536 % 256 = b2.toNat := by omega
  have e3 : (b0.toNat + 256 * b1.toNat + 65536 * b2.toNat + 16777216 * b3.toNat) / 16777216 % 256 = b3.toNat := by omega
  rw [e0, e1, e2, e3]
  simp

theorem dwordsOfBytes_some : ∀ (l : List UInt8), l.length % 4 = 0 →
    ∃ ws, dwordsOfBytes l = some ws ∧ bytesOfDwords ws = some l ∧ ws.length * 4 = l.length ∧
      ∀ w ∈ ws, w < 2 ^ 32
  | [], _ => ⟨[], rfl, rfl, rfl, by simp⟩
  | b0 :: b1 :: b2 :: b3 :: rest, h => by
    obtain ⟨ws, h1, h2, h3, h4⟩ := dwordsOfBytes_some rest (by simp at h; omega)
    refine ⟨dwordOfBytes b0 b1 b2 b3 :: ws, ?_, ?_, ?_, ?_⟩
    · simp [dwordsOfBytes, h1]
    · simp [bytesOfDwords, h2, bytesOfDword_dwordOfBytes]
    · simp; omega
    · intro w hw
      rcases List.mem_cons.1 hw with rfl | hw
      · have h0 := b0.toNat_lt
        have h1 := b1.toNat_lt
        have h2 := b2.toNat_lt
        have h3 := b3.toNat_lt
        unfold dwordOfBytes; omega
      · exact h4 w hw
  | [_], h => by simp at h
  | [_, _], h => by simp at h
  | [_, _, _], h => by simp at h

theorem setBeData_spec (t : Tlp) (addr : Nat) (data : List UInt8) :
    ∃ r ws, t.setBeData addr data = some r ∧
      r = { t.setBe addr data.length with data := ws, length := ws.length } ∧
      ws.length = (addr % 4 + data.length + 3) / 4 ∧
      (∀ w ∈ ws, w < 2 ^ 32) ∧
      r.getData = some (List.replicate (addr % 4) 0 ++ data ++
        List.replicate (lastPad addr data.length) 0) := by
  have hl : (List.replicate (firstPad addr) (0 : UInt8) ++ data ++
      List.replicate (lastPad addr data.length) 0).length % 4 = 0 := by
    simp [firstPad, lastPad]; omega
  obtain ⟨ws, h1, h2, h3, h4⟩ := dwordsOfBytes_some _ hl
  refine ⟨{ t.setBe addr data.length with data := ws, length := ws.length }, ws, ?_, rfl, ?_, h4, ?_⟩
  · unfold Tlp.setBeData Tlp.setData
    simp only [h1, Option.map_some]
    congr 1
  · simp [firstPad, lastPad] at h3; omega
  · exact h2

end Verif.Proofs
