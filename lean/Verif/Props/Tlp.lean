import Verif.Proofs.Tlp
/-!
C04 (byte enables), C05 (byte count), C06 (lower address), C07 (payload bytes).
-/
namespace Verif.Props
open Verif Verif.Model Verif.Proofs

/-! ### C04 -/

/-- C04: after `set_be(addr, length)` with `length ≥ 1` the enabled bytes are exactly
`addr .. addr+length-1`. -/
theorem C04_set_be_exact (t : Tlp) (addr length : Nat) (h : 1 ≤ length) (a : Nat) :
    Spec.enabled (t.setBe addr length).address (t.setBe addr length).length
      (t.setBe addr length).first_be (t.setBe addr length).last_be a = true ↔
    addr ≤ a ∧ a < addr + length :=
  setBe_enabled t addr length h a

/-- C04: the address is DWORD aligned, the enables fit four bits, `last_be` is zero exactly for
one-DWORD requests, and at least one DWORD is requested. -/
theorem C04_set_be_wellformed (t : Tlp) (addr length : Nat) (h : 1 ≤ length) :
    4 ∣ (t.setBe addr length).address ∧
    (t.setBe addr length).first_be < 16 ∧ (t.setBe addr length).last_be < 16 ∧
    1 ≤ (t.setBe addr length).length ∧
    ((t.setBe addr length).last_be = 0 ↔ (t.setBe addr length).length = 1) := by
  obtain ⟨h1, h2, h3, h4⟩ := setBe_cases t addr length h
  rw [h1, h2, h3, h4]
  have hs : (addr + length + 3) % 4 < 4 := Nat.mod_lt _ (by decide)
  have hl : ∀ s < 4, (0xf >>> (3 - s) : Nat) < 16 ∧ (0xf >>> (3 - s) : Nat) ≠ 0 := by decide
  have hr : (0xf <<< (addr % 4) &&& 0xf : Nat) < 16 :=
    Nat.lt_of_le_of_lt Nat.and_le_right (by decide)
  refine ⟨?_, ?_, ?_, by omega, ?_⟩
  · exact ⟨addr / 4, by omega⟩
  · split
    · exact Nat.lt_of_le_of_lt Nat.and_le_left hr
    · exact hr
  · split
    · decide
    · exact (hl _ hs).1
  · split
    · simp [*]
    · simp [*, (hl _ hs).2]

/-- C04: no other field of the TLP is changed by `set_be`. -/
theorem C04_set_be_frame (t : Tlp) (addr length : Nat) :
    ∃ a l f b, t.setBe addr length =
      { t with address := a, length := l, first_be := f, last_be := b } := by
  unfold Tlp.setBe
  simp only []
  split
  · exact ⟨_, _, _, _, rfl⟩
  · exact ⟨_, _, _, _, rfl⟩

example : let r := ({} : Tlp).setBe 0x1003 6
    (r.address, r.length, r.first_be, r.last_be) = (0x1000, 3, 8, 1) := by decide +kernel

/-! ### C05 -/

/-- C05: the byte count and the first byte are recovered from the enables. -/
theorem C05_byte_count_recovered (t : Tlp) (addr length : Nat) (h : 1 ≤ length) :
    (t.setBe addr length).getBeByteCount = length ∧
    (t.setBe addr length).address + (t.setBe addr length).getFirstBeOffset = addr := by
  unfold Tlp.getBeByteCount
  rw [firstBeOffset_of_setBe t addr length h, lastBeOffset_of_setBe t addr length h,
    setBe_address, setBe_length t addr length h]
  omega

example : (({} : Tlp).setBe 0x1003 6).getBeByteCount = 6 := by decide +kernel

/-! ### C06 -/

/-- C06 is false of the code: operator precedence makes `get_lower_address` drop the two low
bits (`address & (0x7c + offset)` instead of `(address & 0x7c) + offset`). -/
theorem C06_lower_address_fails :
    ¬ ∀ (t : Tlp) (addr length : Nat), 1 ≤ length →
      (t.setBe addr length).getLowerAddress = addr % 128 := by
  intro h
  have := h {} 1 1 (by decide)
  revert this
  decide +kernel

/-- C06, what holds: `get_lower_address` is `addr mod 128` rounded down to a DWORD; so it is
right exactly for DWORD-aligned requests. Missing for the full claim: the two low bits. -/
theorem C06_lower_address_partial (t : Tlp) (addr length : Nat) (h : 1 ≤ length) :
    (t.setBe addr length).getLowerAddress = addr % 128 - addr % 4 ∧
    ((t.setBe addr length).getLowerAddress = addr % 128 ↔ 4 ∣ addr) := by
  have e : (t.setBe addr length).getLowerAddress = addr % 128 - addr % 4 := by
    unfold Tlp.getLowerAddress
    rw [firstBeOffset_of_setBe t addr length h, setBe_address]
    have hr : addr % 4 < 4 := Nat.mod_lt _ (by decide)
    have hor : 0x7c + addr % 4 = 0x7c ||| addr % 4 := by
      generalize addr % 4 = r at *
      revert r; decide
    have hz : (addr - addr % 4) &&& (addr % 4) = 0 := and_low_zero _ _ (by omega) hr
    rw [hor, Nat.and_or_distrib_left, hz, Nat.or_zero, and_7c]
    omega
  refine ⟨e, ?_⟩
  rw [e]
  constructor
  · intro h2; exact ⟨addr / 4, by omega⟩
  · rintro ⟨c, rfl⟩; omega

example : (({} : Tlp).setBe 0x1234 6).getLowerAddress = 0x34 := by decide +kernel

/-! ### C07 -/

/-- C07: after `set_be_data(addr, data)` the TLP's payload is `data` padded with zero bytes to
DWORD boundaries, and the advertised length is the payload length and the one `set_be`
computes. -/
theorem C07_payload_padded (t : Tlp) (addr : Nat) (data : List UInt8) :
    ∃ r, t.setBeData addr data = some r ∧ r.length = r.data.length ∧
      (1 ≤ data.length → r.length = (t.setBe addr data.length).length) ∧
      (∀ w ∈ r.data, w < 2 ^ 32) ∧
      ∃ last, last < 4 ∧ (addr + data.length + last) % 4 = 0 ∧
        r.getData = some (List.replicate (addr % 4) 0 ++ data ++ List.replicate last 0) := by
  obtain ⟨r, ws, h1, h2, h3, h4, h5⟩ := setBeData_spec t addr data
  refine ⟨r, h1, by rw [h2], ?_, by rw [h2]; exact h4, lastPad addr data.length, ?_, ?_, h5⟩
  · intro h; rw [setBe_length t addr _ h, h2]; exact h3
  · unfold lastPad; omega
  · unfold lastPad; omega

/-- C07: the bytes at the enabled positions are exactly `data`: writing the TLP's enabled bytes
to any memory is the same as storing `data` at `addr`. -/
theorem C07_payload_enabled_bytes (t : Tlp) (addr : Nat) (data : List UInt8)
    (hd : data ≠ []) (m : Spec.Mem) :
    ∃ r p, t.setBeData addr data = some r ∧ r.getData = some p ∧
      Spec.applyWrite m r.address r.length r.first_be r.last_be p = Spec.store m addr data := by
  obtain ⟨r, ws, h1, h2, h3, h4, h5⟩ := setBeData_spec t addr data
  have hl : 1 ≤ data.length := by
    cases data with
    | nil => exact absurd rfl hd
    | cons _ _ => simp
  refine ⟨r, _, h1, h5, ?_⟩
  have hlen : r.length = (t.setBe addr data.length).length := by
    rw [setBe_length t addr _ hl, h2]; exact h3
  have e1 : r.address = (t.setBe addr data.length).address := by rw [h2]
  have e2 : r.first_be = (t.setBe addr data.length).first_be := by rw [h2]
  have e3 : r.last_be = (t.setBe addr data.length).last_be := by rw [h2]
  funext a
  have hen := setBe_enabled t addr data.length hl a
  unfold Spec.applyWrite Spec.store
  simp only [e1, e2, e3, hlen, hen]
  split
  · rename_i hin
    rw [setBe_address, List.append_assoc, List.getD_eq_getElem?_getD, List.getElem?_append_right (by simp; omega),
      List.getElem?_append_left (by simp; omega), List.getD_eq_getElem?_getD, List.length_replicate]
    congr 2
    omega
  · rfl

example : ({} : Tlp).setBeData 0x1003 [1, 2, 3] =
    some { address := 0x1000, length := 2, first_be := 8, last_be := 3, data := [0x01000000, 0x0302] } := by
  decide +kernel

end Verif.Props
