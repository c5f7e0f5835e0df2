import Verif.Proofs.MemOps
/-! The run-length write loop of `handle_mem_write_tlp` (C14). -/
namespace Verif.Proofs
open Verif Verif.Model Verif.Spec

/-- `wr` stores byte strings that lie within `[lo, hi)`. -/
def WriterOk {σ : Type} (wr : σ → Nat → List UInt8 → Option σ) (view : σ → Mem) (Inv : σ → Prop)
    (lo hi : Nat) : Prop :=
  ∀ s a d, Inv s → d ≠ [] → lo ≤ a → a + d.length ≤ hi →
    ∃ s', wr s a d = some s' ∧ Inv s' ∧ view s' = store (view s) a d

/-- Memory `m0` with the bytes enabled by `en` among the first `p` payload bytes written. -/
def written (m0 : Mem) (addr : Nat) (data : List UInt8) (en : Nat → Bool) (p : Nat) : Mem := fun a =>
  if addr ≤ a ∧ a < addr + p ∧ en (a - addr) = true then data.getD (a - addr) 0 else m0 a

structure RunInv {σ : Type} (view : σ → Mem) (Inv : σ → Prop) (m0 : Mem) (addr : Nat)
    (data : List UInt8) (en : Nat → Bool) (s : RunState σ) : Prop where
  inv : Inv s.mem
  mem : view s.mem = written m0 addr data en (s.start.getD s.offset)
  le : s.start.getD s.offset ≤ s.offset
  run : ∀ i, s.start.getD s.offset ≤ i → i < s.offset → en i = true

theorem pySlice_length {α : Type} (l : List α) (a b : Nat) (hb : b ≤ l.length) :
    (pySlice l a b).length = b - a := by
  simp [pySlice]; omega

theorem pySlice_getD (l : List UInt8) (a b i : Nat) (hi : i < b - a) :
    (pySlice l a b).getD i 0 = l.getD (a + i) 0 := by
  simp only [pySlice, List.getD_eq_getElem?_getD, List.getElem?_drop]
  rw [List.getElem?_take_of_lt (by omega)]

variable {σ : Type} {wr : σ → Nat → List UInt8 → Option σ} {view : σ → Mem} {Inv : σ → Prop}
  {lo hi addr : Nat} {data : List UInt8} {en : Nat → Bool} {m0 : Mem}

theorem flushRun_spec (hw : WriterOk wr view Inv lo hi) (hlo : lo ≤ addr)
    (hhi : addr + data.length ≤ hi) (s : RunState σ) (h : RunInv view Inv m0 addr data en s)
    (ho : s.offset ≤ data.length) :
    ∃ mem, flushRun wr addr data s = some mem ∧ Inv mem ∧
      view mem = written m0 addr data en s.offset := by
  obtain ⟨h1, h2, h3, h4⟩ := h
  unfold flushRun
  cases hs : s.start with
  | none =>
    simp only [hs, Option.getD_none] at h2
    exact ⟨s.mem, rfl, h1, h2⟩
  | some st =>
    simp only [hs, Option.getD_some] at h2 h3 h4
    by_cases hne : s.offset ≠ st
    · simp only [if_pos hne]
      have hl := pySlice_length data st s.offset ho
      obtain ⟨s', e1, e2, e3⟩ := hw s.mem (addr + st) (pySlice data st s.offset) h1
        (by intro h; rw [h] at hl; simp at hl; omega) (by omega) (by rw [hl]; omega)
      refine ⟨s', e1, e2, ?_⟩
      rw [e3, h2]
      funext a
      unfold store written
      rw [hl]
      by_cases ha : addr + st ≤ a ∧ a < addr + st + (s.offset - st)
      · rw [if_pos ha, pySlice_getD _ _ _ _ (by omega),
          if_pos ⟨by omega, by omega, h4 _ (by omega) (by omega)⟩]
        congr 1; omega
      · rw [if_neg ha]
        have : (addr ≤ a ∧ a < addr + st ∧ en (a - addr) = true) ↔
            (addr ≤ a ∧ a < addr + s.offset ∧ en (a - addr) = true) := by
          constructor
          · rintro ⟨x, y, z⟩; exact ⟨x, by omega, z⟩
          · rintro ⟨x, y, z⟩; exact ⟨x, by omega, z⟩
        simp only [this]
    · simp only [if_neg hne]
      have : s.offset = st := by omega
      rw [← this] at h2
      exact ⟨s.mem, rfl, h1, h2⟩

theorem runStep_spec (hw : WriterOk wr view Inv lo hi) (hlo : lo ≤ addr)
    (hhi : addr + data.length ≤ hi) (s : RunState σ) (h : RunInv view Inv m0 addr data en s)
    (ho : s.offset < data.length) (mask k : Nat) (hen : en s.offset = mask.testBit k) :
    ∃ s', runStep wr addr data mask s k = some s' ∧ RunInv view Inv m0 addr data en s' ∧
      s'.offset = s.offset + 1 := by
  unfold runStep
  simp only [and_one_shift_ne_zero]
  by_cases hm : mask.testBit k = true
  · rw [if_pos hm]
    refine ⟨_, rfl, ?_, rfl⟩
    obtain ⟨h1, h2, h3, h4⟩ := h
    refine ⟨h1, by simpa using h2, by simp; omega, ?_⟩
    intro i hi1 hi2
    simp only [Option.getD_some] at hi1 hi2
    by_cases hio : i = s.offset
    · rw [hio, hen, hm]
    · exact h4 i hi1 (by omega)
  · rw [if_neg hm]
    obtain ⟨mem, e1, e2, e3⟩ := flushRun_spec hw hlo hhi s h (by omega)
    refine ⟨⟨mem, s.offset + 1, none⟩, by simp [e1], ⟨e2, ?_, by simp, ?_⟩, rfl⟩
    · simp only [Option.getD_none]
      rw [e3]
      funext a
      unfold written
      have : (addr ≤ a ∧ a < addr + s.offset ∧ en (a - addr) = true) ↔
          (addr ≤ a ∧ a < addr + (s.offset + 1) ∧ en (a - addr) = true) := by
        constructor
        · rintro ⟨x, y, z⟩; exact ⟨x, by omega, z⟩
        · rintro ⟨x, y, z⟩
          refine ⟨x, ?_, z⟩
          by_cases hc : a - addr = s.offset
          · rw [hc, hen] at z; exact absurd z hm
          · omega
      simp only [this]
    · intro i hi1 hi2
      simp only [Option.getD_none] at hi1 hi2
      omega

theorem runDword_spec (hw : WriterOk wr view Inv lo hi) (hlo : lo ≤ addr)
    (hhi : addr + data.length ≤ hi) (s : RunState σ) (h : RunInv view Inv m0 addr data en s)
    (ho : s.offset + 4 ≤ data.length) (mask : Nat)
    (hen : ∀ k, k < 4 → en (s.offset + k) = mask.testBit k) :
    ∃ s', runDword wr addr data mask s = some s' ∧ RunInv view Inv m0 addr data en s' ∧
      s'.offset = s.offset + 4 := by
  unfold runDword
  obtain ⟨s1, a1, b1, c1⟩ := runStep_spec hw hlo hhi s h (by omega) mask 0 (hen 0 (by omega))
  obtain ⟨s2, a2, b2, c2⟩ := runStep_spec hw hlo hhi s1 b1 (by omega) mask 1
    (by rw [c1]; exact hen 1 (by omega))
  obtain ⟨s3, a3, b3, c3⟩ := runStep_spec hw hlo hhi s2 b2 (by omega) mask 2
    (by rw [c2, c1]; exact hen 2 (by omega))
  obtain ⟨s4, a4, b4, c4⟩ := runStep_spec hw hlo hhi s3 b3 (by omega) mask 3
    (by rw [c3, c2, c1]; exact hen 3 (by omega))
  refine ⟨s4, ?_, b4, by omega⟩
  simp [List.foldlM, a1, a2, a3, a4]

/-- The write handler performs exactly the specified byte writes. `addr` is the position of the
request in the region's own address space. -/
theorem handleMemWrite_spec (hw : WriterOk wr view Inv lo hi) (tlp : Tlp) (hal : 4 ∣ addr)
    (hlo : lo ≤ addr) (hhi : addr + 4 * tlp.length ≤ hi) (hlen : 1 ≤ tlp.length)
    (hdl : tlp.data.length = tlp.length) (hdw : ∀ w ∈ tlp.data, w < 2 ^ 32)
    (h4k : addr % 4096 + 4 * tlp.length ≤ 4096) (mem : σ) (hinv : Inv mem) :
    ∃ mem', handleMemWrite wr tlp addr mem = some mem' ∧ Inv mem' ∧
      view mem' = fun a => if enabled addr tlp.length tlp.first_be tlp.last_be a
        then payloadByte tlp.data (a - addr) else view mem a := by
  obtain ⟨data, hd⟩ := bytesOfDwords_of_lt tlp.data hdw
  obtain ⟨hdlen, hdb⟩ := bytesOfDwords_payload _ _ hd
  have hdata : data.length = 4 * tlp.length := by rw [hdlen, hdl]
  obtain ⟨c, hc⟩ := hal
  let en : Nat → Bool := fun i => enabled addr tlp.length tlp.first_be tlp.last_be (addr + i)
  have hmod : ∀ i, (addr + i) % 4 = i % 4 := by intro i; omega
  have hen0 : ∀ k, k < 4 → en (0 + k) = tlp.first_be.testBit k := by
    intro k hk
    simp only [en, enabled]
    rw [Nat.zero_add, decide_eq_true (by omega), if_pos (by omega), hmod, Nat.mod_eq_of_lt hk]
    rfl
  have henl : 1 < tlp.length → ∀ k, k < 4 → en (4 * (tlp.length - 1) + k) = tlp.last_be.testBit k := by
    intro hl k hk
    simp only [en, enabled]
    rw [decide_eq_true (by omega), if_neg (by omega), if_pos (by omega), hmod]
    have : (4 * (tlp.length - 1) + k) % 4 = k := by omega
    rw [this]; rfl
  have henm : ∀ i, 4 ≤ i → i < 4 * (tlp.length - 1) → en i = true := by
    intro i h1 h2
    simp only [en, enabled]
    rw [decide_eq_true (by omega), if_neg (by omega), if_neg (by omega)]
    rfl
  have hfin : ∀ m, written (view m) addr data en (4 * tlp.length) =
      fun a => if enabled addr tlp.length tlp.first_be tlp.last_be a
        then payloadByte tlp.data (a - addr) else view m a := by
    intro m
    funext a
    simp only [written]
    by_cases ha : addr ≤ a ∧ a < addr + 4 * tlp.length
    · have e : addr + (a - addr) = a := by omega
      have e' : en (a - addr) = enabled addr tlp.length tlp.first_be tlp.last_be a := by
        simp only [en]; rw [e]
      rw [hdb]
      by_cases hh : enabled addr tlp.length tlp.first_be tlp.last_be a = true
      · rw [if_pos ⟨ha.1, ha.2, e'.trans hh⟩, if_pos hh]
      · rw [if_neg (by intro h; exact hh (e'.symm.trans h.2.2)), if_neg hh]
    · have hh : ¬ enabled addr tlp.length tlp.first_be tlp.last_be a = true := by
        simp only [enabled, Bool.and_eq_true, decide_eq_true_eq]
        intro h; exact ha h.1
      rw [if_neg (by intro h; exact ha ⟨h.1, h.2.1⟩), if_neg hh]
  have hinv0 : RunInv view Inv (view mem) addr data en ⟨mem, 0, none⟩ := by
    refine ⟨hinv, ?_, by simp, ?_⟩
    · funext a; simp [written]; omega
    · intro i h1 h2; simp at h2
  obtain ⟨s1, a1, b1, c1⟩ := runDword_spec hw hlo (by rw [hdata]; exact hhi) ⟨mem, 0, none⟩ hinv0
    (by simp only; omega) tlp.first_be hen0
  have hno4k : ¬ (tlp.length * 4 > 0x1000 - (addr &&& 0xfff)) := by
    have : addr &&& 0xfff = addr % 4096 := and_4095 addr
    rw [this]; omega
  unfold handleMemWrite
  rw [if_neg hno4k]
  have hgd : tlp.getData = some data := hd
  simp only [hgd, a1, Option.bind_eq_bind, Option.bind_some]
  simp only at c1
  by_cases hl1 : tlp.length > 1
  · have hmid : ∃ s2, (if tlp.length > 2 then
        (⟨s1.mem, s1.offset + (tlp.length - 2) * 4, some (s1.start.getD s1.offset)⟩ : RunState σ)
        else s1) = s2 ∧ RunInv view Inv (view mem) addr data en s2 ∧
        s2.offset = 4 * (tlp.length - 1) := by
      refine ⟨_, rfl, ?_, ?_⟩
      · split
        · rename_i h2
          refine ⟨b1.inv, by simpa using b1.mem, ?_, ?_⟩
          · have := b1.le; simp; omega
          · intro i hi1 hi2
            simp only [Option.getD_some] at hi1 hi2
            by_cases hio : i < s1.offset
            · exact b1.run i hi1 hio
            · exact henm i (by omega) (by omega)
        · exact b1
      · split
        · simp only; omega
        · omega
    obtain ⟨s2, e2, b2, c2⟩ := hmid
    rw [e2, if_pos hl1]
    obtain ⟨s3, a3, b3, c3⟩ := runDword_spec hw hlo (by rw [hdata]; exact hhi) s2 b2
      (by omega) tlp.last_be (by rw [c2]; exact henl hl1)
    rw [a3]
    obtain ⟨mem', e1, e3, e4⟩ := flushRun_spec hw hlo (by rw [hdata]; exact hhi) s3 b3 (by omega)
    refine ⟨mem', e1, e3, ?_⟩
    rw [e4, ← hfin]
    congr 1; omega
  · rw [if_neg (show ¬ tlp.length > 2 by omega), if_neg hl1]
    obtain ⟨mem', e1, e3, e4⟩ := flushRun_spec hw hlo (by rw [hdata]; exact hhi) s1 b1 (by omega)
    refine ⟨mem', e1, e3, ?_⟩
    rw [e4, ← hfin]
    congr 1; omega

end Verif.Proofs
