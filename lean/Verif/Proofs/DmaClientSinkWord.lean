import Verif.Spec.DmaClientSink
import Verif.Proofs.DmaClientSource
/-! One word at the AXI stream DMA sink: byte enables, lanes and lengths. -/
namespace Verif.Proofs
open Verif Verif.Model Verif.Spec

theorem sinkCfg_src {c : SrcCfg} (hc : SinkCfgOk c) : SrcCfgOk c := ⟨Or.inl hc.kb, hc.sc, hc.ram, hc.len⟩

theorem filterMap_window {α : Type} (n lo len : Nat) (h : Nat → Option α) (hle : lo + len ≤ n)
    (hout : ∀ l, l < lo ∨ lo + len ≤ l → h l = none) :
    (List.range n).filterMap h = (List.range len).filterMap fun b => h (lo + b) := by
  obtain ⟨r, rfl⟩ : ∃ r, n = lo + len + r := ⟨n - (lo + len), by omega⟩
  rw [List.range_add, List.range_add, List.filterMap_append, List.filterMap_append, List.filterMap_map, List.filterMap_map]
  have h1 : (List.range lo).filterMap h = [] := by
    rw [List.filterMap_eq_nil_iff]
    intro a ha; exact hout a (Or.inl (List.mem_range.mp ha))
  have h2 : (List.range r).filterMap (h ∘ fun x => lo + len + x) = [] := by
    rw [List.filterMap_eq_nil_iff]
    intro a ha; exact hout _ (Or.inr (Nat.le_add_right _ _))
  rw [h1, h2, List.nil_append, List.append_nil]
  rfl

theorem filterMap_same {α β : Type} {f g : α → Option β} (l : List α) (h : ∀ x ∈ l, f x = g x) :
    l.filterMap f = l.filterMap g := by
  induction l with
  | nil => rfl
  | cons a l ih =>
    rw [List.filterMap_cons, List.filterMap_cons, h a List.mem_cons_self, ih fun x hx => h x (List.mem_cons_of_mem _ hx)]

/-- The bytes that the word on the inputs writes, from the registers. -/
def sinkNowWrites (c : SrcCfg) (s : Sink) (i : SinkIn) : List (Nat × UInt8) :=
  (List.range c.kw).filterMap fun b => if (sinkKeep c s i).testBit b then some (s.addr + b, i.data b) else none

theorem sinkKeep_lt (c : SrcCfg) (s : Sink) (i : SinkIn) : sinkKeep c s i < 2 ^ c.kw :=
  Nat.lt_of_le_of_lt Nat.and_le_left (Nat.mod_lt _ (Nat.two_pow_pos _))

theorem sink_row (c : SrcCfg) : c.rowBytes = c.kw * 2 ^ c.pb := by simp [SrcCfg.rowBytes, SrcCfg.kw, Nat.pow_add]

theorem sink_segs {c : SrcCfg} (hc : SinkCfgOk c) : c.rowBytes = c.segs * c.segBytes := by
  simp only [SrcCfg.rowBytes, SrcCfg.segs, SrcCfg.segBytes, ← Nat.pow_add]
  congr 1; have := hc.sc; omega

/-- The offset of the word in the row. -/
def sinkOfs (c : SrcCfg) (a : Nat) : Nat := if 2 ^ c.pb > 1 then srcPart c a * c.kw else 0

theorem sinkOfs_le (c : SrcCfg) (a : Nat) : sinkOfs c a + c.kw ≤ c.rowBytes := by
  unfold sinkOfs
  rw [sink_row]
  split
  · have : srcPart c a < 2 ^ c.pb := Nat.mod_lt _ (Nat.two_pow_pos _)
    calc srcPart c a * c.kw + c.kw = (srcPart c a + 1) * c.kw := by rw [Nat.add_mul, Nat.one_mul]
      _ ≤ 2 ^ c.pb * c.kw := Nat.mul_le_mul_right _ this
      _ = _ := Nat.mul_comm _ _
  · have := Nat.le_mul_of_pos_right c.kw (Nat.two_pow_pos c.pb)
    omega

theorem sinkOfs_mod (c : SrcCfg) (a : Nat) : sinkOfs c a % c.kw = 0 := by
  unfold sinkOfs; split
  · exact Nat.mul_mod_left _ _
  · exact Nat.zero_mod _

theorem sinkBe_testBit {c : SrcCfg} (hc : SinkCfgOk c) (s : Sink) (i : SinkIn) {l : Nat} (hl : l < c.rowBytes) :
    (sinkBe c s i).testBit l = (decide (sinkOfs c s.addr ≤ l) && (sinkKeep c s i).testBit (l - sinkOfs c s.addr)) := by
  have hp : 2 ^ c.partOff = c.kw := by
    unfold SrcCfg.partOff SrcCfg.kw
    have : 1 < 2 ^ c.kb := Nat.one_lt_two_pow (by have := hc.kb; omega)
    rw [if_pos this]
  unfold sinkBe sinkOfs
  rw [hp]
  split
  · rw [Nat.testBit_mod_two_pow, Nat.testBit_shiftLeft]
    simp [hl]
  · simp

/-- A command writes the bytes of the word that are in its segment. -/
theorem sinkCmd_writes {c : SrcCfg} (hc : SinkCfgOk c) (s : Sink) (i : SinkIn) (ha : s.addr % c.kw = 0) {k : Nat}
    (hk : k < c.segs) :
    sinkCmdWrites c k (sinkCmd c s i k) = (sinkNowWrites c s i).filter (sinkInSeg c k) := by
  have hkw := kw_pos c
  have hsb : 0 < c.segBytes := segBytes_pos c
  have hsplit := addr_split (sinkCfg_src hc) ha
  have hofs := sinkOfs_le c s.addr
  have hom := sinkOfs_mod c s.addr
  have hrow := sink_segs hc
  have hsplit : s.addr = s.addr / c.rowBytes * c.rowBytes + sinkOfs c s.addr := hsplit
  generalize hP : sinkOfs c s.addr = P at *
  generalize hq : s.addr / c.rowBytes = q at *
  -- both sides are this list over the lanes of the row
  let g : Nat → Option (Nat × UInt8) := fun l =>
    if l / c.segBytes = k ∧ P ≤ l ∧ (sinkKeep c s i).testBit (l - P) then some (q * c.rowBytes + l, i.data (l - P)) else none
  have hin : k * c.segBytes + c.segBytes ≤ c.rowBytes := by
    rw [hrow]
    calc k * c.segBytes + c.segBytes = (k + 1) * c.segBytes := by rw [Nat.add_mul, Nat.one_mul]
      _ ≤ _ := Nat.mul_le_mul_right _ hk
  have hkeep : ∀ l, P ≤ l → (sinkKeep c s i).testBit (l - P) = true → l - P < c.kw := by
    intro l _ h
    false_or_by_contra
    rename_i hn
    rw [Nat.testBit_lt_two_pow (Nat.lt_of_lt_of_le (sinkKeep_lt c s i) (Nat.pow_le_pow_right (by omega) (by omega)))] at h
    exact absurd h (by simp)
  have e1 : sinkCmdWrites c k (sinkCmd c s i k) = (List.range c.rowBytes).filterMap g := by
    rw [filterMap_window c.rowBytes (k * c.segBytes) c.segBytes g hin]
    · unfold sinkCmdWrites sinkCmd
      simp only
      apply filterMap_same
      intro b hb
      have hb := List.mem_range.mp hb
      have hdiv : (k * c.segBytes + b) / c.segBytes = k := by
        rw [Nat.mul_comm, Nat.mul_add_div hsb, Nat.div_eq_of_lt hb, Nat.add_zero]
      rw [Nat.testBit_mod_two_pow, Nat.testBit_shiftRight, sinkBe_testBit hc s i (by omega : k * c.segBytes + b < c.rowBytes), hP]
      simp only [g, hdiv, true_and, hb, decide_true, Bool.true_and, Bool.and_eq_true, decide_eq_true_eq, hq]
      by_cases hh : P ≤ k * c.segBytes + b ∧ (sinkKeep c s i).testBit (k * c.segBytes + b - P) = true
      · rw [if_pos hh, if_pos hh]
        have hlt := hkeep _ hh.1 hh.2
        have : (k * c.segBytes + b) % c.kw = k * c.segBytes + b - P := by
          generalize k * c.segBytes + b = l at *
          have : l = P + (l - P) := by omega
          rw [this, Nat.add_mod, hom, Nat.zero_add, Nat.mod_mod, Nat.mod_eq_of_lt hlt]
          omega
        rw [this]
      · rw [if_neg hh, if_neg hh]
    · intro l hl
      simp only [g]
      rw [if_neg]
      rintro ⟨h, -⟩
      have h1 := Nat.div_add_mod l c.segBytes
      have h2 := Nat.mod_lt l hsb
      rw [h, Nat.mul_comm] at h1
      omega
  have e2 : (sinkNowWrites c s i).filter (sinkInSeg c k) = (List.range c.rowBytes).filterMap g := by
    rw [filterMap_window c.rowBytes P c.kw g hofs]
    · unfold sinkNowWrites
      rw [List.filter_filterMap]
      apply filterMap_same
      intro b hb
      have hb := List.mem_range.mp hb
      have hseg : (s.addr + b) % c.rowBytes = P + b := by
        rw [hsplit, Nat.add_assoc, Nat.mul_comm, Nat.mul_add_mod, Nat.mod_eq_of_lt (by omega)]
      have ha : s.addr + b = q * c.rowBytes + (P + b) := by omega
      simp only [g, Nat.add_sub_cancel_left, Nat.le_add_right, true_and]
      cases (sinkKeep c s i).testBit b
      · simp
      · simp only [if_true, and_true]
        by_cases hd : (P + b) / c.segBytes = k
        · rw [if_pos hd, Option.filter_some, if_pos (by simp [sinkInSeg, hseg, hd]), ha]
        · rw [if_neg hd, Option.filter_some, if_neg (by simp [sinkInSeg, hseg, hd])]
    · intro l hl
      simp only [g]
      rw [if_neg]
      rintro ⟨-, h1, h2⟩
      have := hkeep l h1 h2
      omega
  rw [e1, e2]

/-- A segment that gets no command has no bytes to write. -/
theorem sinkCmd_none {c : SrcCfg} (s : Sink) (i : SinkIn) (k : Nat) (h : sinkMask c s i k = false) :
    sinkCmdWrites c k (sinkCmd c s i k) = [] := by
  unfold sinkCmdWrites
  rw [List.filterMap_eq_nil_iff]
  have : (sinkCmd c s i k).be = 0 := by simpa [sinkMask] using h
  intro b _
  simp [this]

end Verif.Proofs
