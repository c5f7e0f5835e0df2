import Verif.Proofs.Msix
/-! Helper lemmas for the MSI-X module: where the contents of a TLP come from. -/
namespace Verif.Proofs
open Verif Verif.Model Verif.Spec

/-- What the stages of the state machine remember, over the history `is` from `s0`. -/
def MsixTrace (c : MsixCfg) (s0 : Msix) (is : List MsixIn) : Prop :=
  let s := msixRun c s0 is
  match s.irq.state with
  | .idle => True
  | .readTbl1 => ∃ p i0, is = p ++ [i0] ∧ s.irq.tblRd = (msixRun c s0 p).axil.tbl (s.irq.irqIndex * 2)
  | .readTbl2 => ∃ p i0 i1, is = p ++ [i0, i1] ∧
      s.irq.vecAddr = wordNat ((msixRun c s0 p).axil.tbl (s.irq.irqIndex * 2)) 8 / 4 * 4 ∧
      s.irq.tblRd = (msixRun c s0 (p ++ [i0])).axil.tbl (s.irq.irqIndex * 2 + 1) ∧
      s.irq.enable = i1.enable ∧ s.irq.mask = i1.mask
  | .sendTlp => ∃ p i0 i1 i2 q, is = p ++ [i0, i1, i2] ++ q ∧
      s.irq.vecAddr = wordNat ((msixRun c s0 p).axil.tbl (s.irq.irqIndex * 2)) 8 / 4 * 4 ∧
      s.irq.vecData = wordNat ((msixRun c s0 (p ++ [i0])).axil.tbl (s.irq.irqIndex * 2 + 1)) 4 ∧
      (wordNat ((msixRun c s0 (p ++ [i0])).axil.tbl (s.irq.irqIndex * 2 + 1)) 8).testBit 32 = false ∧
      i1.enable = true ∧ i1.mask = false

theorem msixRun_append (c : MsixCfg) (s : Msix) (a b : List MsixIn) :
    msixRun c s (a ++ b) = msixRun c (msixRun c s a) b := by
  induction a generalizing s with
  | nil => rfl
  | cons i a ih => exact ih _

theorem msix_trace (c : MsixCfg) (s0 : Msix) (h0 : s0.irq.state = .idle) (is : List MsixIn)
    (hr : ∀ i ∈ is, i.rst = false) : MsixTrace c s0 is := by
  obtain ⟨n, hn⟩ : ∃ n, n = is.length := ⟨_, rfl⟩
  induction n generalizing is with
  | zero =>
    rw [List.length_eq_zero_iff.mp hn.symm]
    simp [MsixTrace, msixRun, h0]
  | succ n ih =>
    obtain ⟨p, i, rfl⟩ : ∃ p i, is = p ++ [i] := by
      rcases List.eq_nil_or_concat is with h | ⟨p, i, h⟩
      · rw [h] at hn; simp at hn
      · exact ⟨p, i, by simpa using h⟩
    have hp := ih p (fun j hj => hr j (List.mem_append_left _ hj)) (by simpa using hn)
    have hi : i.rst = false := hr i (by simp)
    have e : msixRun c s0 (p ++ [i]) = msixStep c (msixRun c s0 p) i := by rw [msixRun_append]; rfl
    unfold MsixTrace at hp ⊢
    rw [e]
    simp only at hp ⊢
    obtain ⟨hm, hen, hmk⟩ := msix_move c (msixRun c s0 p).axil.tbl (msixRun c s0 p).irq i hi
    have ei : (msixStep c (msixRun c s0 p) i).irq =
      msixIrqStep c (msixRun c s0 p).axil.tbl (msixRun c s0 p).irq i := rfl
    rw [ei]
    generalize msixIrqStep c (msixRun c s0 p).axil.tbl (msixRun c s0 p).irq i = m at hm hen hmk
    cases hm with
    | take h hi hs hx ht hb hp' hr ho =>
      rw [hs]; exact ⟨p, i, rfl, by rw [ht, hx]⟩
    | found h hi he hf hs hx ht hb hp' hr ho =>
      rw [hs]; exact ⟨p, i, rfl, by rw [ht, hx]⟩
    | scan h hi he hf hs hx hb hp' ho => rw [hs]; trivial
    | keep h hi hs hx hb hp' ho ha => rw [hs]; trivial
    | read1 h hs hx ht hv hb hp' hr ho =>
      rw [h] at hp
      obtain ⟨q, i0, rfl, h1⟩ := hp
      rw [hs]
      refine ⟨q, i0, i, by simp, ?_, ?_, hen, hmk⟩
      · rw [hv, hx, h1]
      · rw [ht, hx]
    | pass h hm hs hx hv hb hp' hr ho =>
      rw [h] at hp
      obtain ⟨q, i0, i1, rfl, h1, h2, h3, h4⟩ := hp
      rw [hs]
      refine ⟨q, i0, i1, i, [], by simp, ?_, ?_, ?_, ?_, ?_⟩
      · rw [hv.1, hx, h1]
      · rw [hv.2, hx, h2]
      · rw [hx, ← h2]; exact hm.2.2
      · rw [← h3]; exact hm.1
      · rw [← h4]; exact hm.2.1
    | masked h hm hs hx hb hp' ho => rw [hs]; trivial
    | send h hf hs hx hb hp' ho ht => rw [hs]; trivial
    | wait h hf hs hx hv hb hp' hr ho =>
      rw [h] at hp
      obtain ⟨p', i0, i1, i2, q, rfl, h1, h2, h3, h4⟩ := hp
      rw [hs]
      refine ⟨p', i0, i1, i2, q ++ [i], by simp, ?_, ?_, ?_, h4⟩
      · rw [hv.1, hx, h1]
      · rw [hv.2, hx, h2]
      · rw [hx]; exact h3

theorem wordNat_lt (w : RamWord) (n : Nat) : wordNat w n < 256 ^ n := by
  induction n with
  | zero => simp [wordNat]
  | succ n ih =>
    have : (w n).toNat ≤ 255 := by have := (w n).toNat_lt; omega
    have h2 : (w n).toNat * 256 ^ n ≤ 255 * 256 ^ n := Nat.mul_le_mul_right _ this
    rw [wordNat, Nat.pow_succ]; omega

theorem wordNat_sum (w : RamWord) (n : Nat) :
    wordNat w n = ((List.range n).map fun l => (w l).toNat * 256 ^ l).sum := by
  induction n with
  | zero => rfl
  | succ n ih => rw [wordNat, ih, List.range_succ]; simp

theorem wordNat_mask (w : RamWord) : (wordNat w 8).testBit 32 = (w 4).toNat.testBit 0 := by
  have h0 := wordNat_lt w 4
  have e : wordNat w 8 / 2 ^ 32 = (w 4).toNat + 256 * ((w 5).toNat + (w 6).toNat * 256 + (w 7).toNat * 65536) := by
    simp only [wordNat] at h0 ⊢
    omega
  rw [Nat.testBit_eq_decide_div_mod_eq, e, Nat.testBit_zero]
  congr 1
  rw [show ((w 4).toNat + 256 * ((w 5).toNat + (w 6).toNat * 256 + (w 7).toNat * 65536)) % 2 = (w 4).toNat % 2 by omega]

theorem msix_dw1 (r : Nat) (h : r < 65536) : r * 65536 + 15 < 4294967296 ∧ (r * 65536 + 15) / 65536 % 65536 = r ∧
    (r * 65536 + 15) / 256 % 256 = 0 ∧ (r * 65536 + 15) / 16 % 16 = 0 ∧ (r * 65536 + 15) / 1 % 16 = 15 := by omega

theorem msix_dw0 (f : Nat) (h : f < 8) (t : Tlp) (h1 : t.fmt = f) (h2 : t.type = 0) (h3 : t.tc = 0) (h4 : t.attr = 0)
    (h5 : t.th = 0) (h6 : t.td = 0) (h7 : t.ep = 0) (h8 : t.at_ = 0) (h9 : t.length = 1) :
    Dw0Layout t (f * 536870912 + 1) := by
  simp only [Dw0Layout, bits, h1, h2, h3, h4, h5, h6, h7, h8, h9, Nat.reducePow, Nat.reduceSub, Nat.reduceAdd]
  omega

theorem msix_fmt (x : Nat) (b : Bool) : (x / 2 ^ 30 != 0 || b) = true ↔ (2 ^ 32 ≤ x * 4 ∨ b = true) := by
  simp only [Bool.or_eq_true, bne_iff_ne, Nat.reducePow]
  constructor
  · rintro (h | h)
    · left; omega
    · exact .inr h
  · rintro (h | h)
    · left; omega
    · exact .inr h

theorem msix_a64 (x : Nat) (h : x < 4611686018427387904) : x * 4 / 2 ^ 32 % 2 ^ 32 = x * 4 / 2 ^ 32 ∧
    x % 2 ^ 30 * 4 = x * 4 % 2 ^ 32 := by
  simp only [Nat.reducePow]; omega

theorem msix_a32 (x : Nat) (h : ¬ 2 ^ 32 ≤ x * 4) : x % 2 ^ 30 * 4 = x * 4 := by
  simp only [Nat.reducePow] at h ⊢; omega

theorem msix_dw1' (r : Nat) (h : r < 65536) (t : Tlp) (h1 : idBits t.requester_id = r) (h2 : t.tag = 0)
    (h3 : t.last_be = 0) (h4 : t.first_be = 15) : ReqDw1Layout t (r * 2 ^ 16 + 15) := by
  have := msix_dw1 r h
  simp only [ReqDw1Layout, bits, h1, h2, h3, h4, Nat.reducePow, Nat.reduceSub, Nat.reduceAdd]
  exact this

theorem msix_hdr_encodes (c : MsixCfg) (a d : Nat) (ha : a < 2 ^ 64) (rid : PcieId) (hw : WfId rid) :
    EncodesWrite (msixMessage c.force64 rid (a / 4 * 4) d) (msixHdr c (a / 4 * 4) (idBits rid) d) := by
  obtain ⟨b1, b2, b3⟩ := hw
  have hid : idBits rid < 65536 := by unfold idBits; omega
  have hA : (a / 4 * 4) / 4 = a / 4 := by omega
  have hlt : a / 4 < 4611686018427387904 := by
    simp only [Nat.reducePow] at ha; omega
  unfold msixHdr msixMessage
  rw [hA, Nat.mod_eq_of_lt hid]
  clear hA ha
  generalize a / 4 = x at *
  have hc := msix_fmt x c.force64
  by_cases h : (x / 2 ^ 30 != 0 || c.force64) = true
  · rw [if_pos h, if_pos (hc.mp h)]
    refine ⟨?_, msix_dw1' _ hid _ rfl rfl rfl rfl, by simp, fun _ => msix_a64 x hlt, rfl⟩
    exact msix_dw0 3 (by decide) _ rfl rfl rfl rfl rfl rfl rfl rfl rfl
  · rw [if_neg h, if_neg (fun hh => h (hc.mpr hh))]
    refine ⟨?_, msix_dw1' _ hid _ rfl rfl rfl rfl, fun _ => msix_a32 x (fun hh => h (hc.mpr (.inl hh))), by simp, rfl⟩
    exact msix_dw0 2 (by decide) _ rfl rfl rfl rfl rfl rfl rfl rfl rfl

end Verif.Proofs
