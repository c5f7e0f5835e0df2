import Verif.Proofs.DmaClientSinkWord
import Verif.Proofs.DmaClientSourceRun
/-! The state machine of the AXI stream DMA sink: the word taken has the effect that the specification demands. -/
namespace Verif.Proofs
open Verif Verif.Model Verif.Spec

/-! ### Counting leading bits -/

theorem takeWhile_range (p : Nat → Bool) (n : Nat) :
    ((List.range n).takeWhile p).length ≤ n ∧ (∀ b < ((List.range n).takeWhile p).length, p b = true) ∧
    (((List.range n).takeWhile p).length < n → p ((List.range n).takeWhile p).length = false) := by
  induction n with
  | zero => simp
  | succ n ih =>
    obtain ⟨h1, h2, h3⟩ := ih
    rw [List.range_succ, List.takeWhile_append]
    split
    · next h =>
      rw [List.length_range] at h
      rw [h] at h2
      cases hp : p n with
      | true =>
        simp only [List.takeWhile_cons, hp, if_true, List.takeWhile_nil, List.length_append, List.length_range, List.length_singleton]
        refine ⟨Nat.le_refl _, fun b hb => ?_, fun h => by omega⟩
        rcases Nat.lt_succ_iff_lt_or_eq.mp hb with hb | rfl
        · exact h2 b hb
        · exact hp
      | false =>
        simp only [List.takeWhile_cons, hp, Bool.false_eq_true, if_false, List.append_nil, List.length_range]
        exact ⟨by omega, h2, fun _ => trivial⟩
    · next h =>
      rw [List.length_range] at h
      exact ⟨by omega, h2, fun _ => h3 (by omega)⟩

theorem first_unique {p : Nat → Bool} {n a b : Nat} (ha : a ≤ n) (hb : b ≤ n) (ha1 : ∀ x < a, p x = true)
    (hb1 : ∀ x < b, p x = true) (ha2 : a < n → p a = false) (hb2 : b < n → p b = false) : a = b := by
  rcases Nat.lt_trichotomy a b with h | h | h
  · have := hb1 a h; rw [ha2 (by omega)] at this; exact absurd this (by simp)
  · exact h
  · have := ha1 b h; rw [hb2 (by omega)] at this; exact absurd this (by simp)

theorem find_first (p : Nat → Bool) (n : Nat) :
    let r := ((List.range n).find? fun b => !p b).getD n
    r ≤ n ∧ (∀ b < r, p b = true) ∧ (r < n → p r = false) := by
  intro r
  match h : (List.range n).find? fun b => !p b with
  | none =>
    have e : r = n := by simp only [r, h, Option.getD_none]
    rw [List.find?_eq_none] at h
    refine ⟨by omega, fun b hb => ?_, fun h => by omega⟩
    have := h b (List.mem_range.mpr (by omega))
    simpa using this
  | some x =>
    have e : r = x := by simp only [r, h, Option.getD_some]
    rw [List.find?_range_eq_some] at h
    obtain ⟨h1, h2, h3⟩ := h
    have h2 := List.mem_range.mp h2
    refine ⟨by omega, fun b hb => ?_, fun _ => ?_⟩
    · have := h3 b (by omega); simpa using this
    · rw [e]; simpa using h1

/-! ### The registers while a packet is written -/

/-- The state machine expects word number `j` for descriptor `d`. -/
structure SinkAt (c : SrcCfg) (s : Sink) (d : SinkDesc) (j : Nat) : Prop where
  lt : j * c.kw < d.len
  len : d.len < 2 ^ c.lenW
  daddr : d.addr < 2 ^ c.ramW
  addr : s.addr = (srcAlign c d.addr + j * c.kw) % 2 ^ c.ramW
  count : s.count = (d.len - 1) / c.kw - j
  off : s.off = d.len % c.kw
  length : s.length = j * c.kw
  tag : s.tag = d.tag
  lastC : s.lastC = (s.count == 0)
  keep : s.keepMask = sinkKeepMask c s.count s.off

theorem sinkAt_last {c : SrcCfg} {s : Sink} {d : SinkDesc} {j : Nat} (h : SinkAt c s d j) :
    s.count = 0 ↔ d.len ≤ (j + 1) * c.kw := by
  have hk := kw_pos c
  have hj := h.lt
  have h2 := h.count
  have h3 : j ≤ (d.len - 1) / c.kw := (Nat.le_div_iff_mul_le hk).mpr (by omega)
  have h4 : (d.len - 1) / c.kw < j + 1 ↔ d.len - 1 < (j + 1) * c.kw := Nat.div_lt_iff_lt_mul hk
  generalize (j + 1) * c.kw = m at *
  generalize j * c.kw = m' at *
  generalize (d.len - 1) / c.kw = q at *
  omega

/-- In the last word, the offset is the number of bytes, or 0 if the word is full. -/
theorem sinkAt_off {c : SrcCfg} {s : Sink} {d : SinkDesc} {j : Nat} (h : SinkAt c s d j) (hz : s.count = 0) :
    d.len = j * c.kw + (if s.off = 0 then c.kw else s.off) ∧ s.off < c.kw := by
  have hk := kw_pos c
  have hj := h.lt
  have h1 := (sinkAt_last h).mp hz
  rw [Nat.add_mul, Nat.one_mul] at h1
  have ho := h.off
  rw [ho]
  refine ⟨?_, Nat.mod_lt _ hk⟩
  obtain ⟨r, hr⟩ : ∃ r, d.len = j * c.kw + r := ⟨d.len - j * c.kw, by omega⟩
  have hm : d.len % c.kw = r % c.kw := by rw [hr, Nat.mul_comm, Nat.mul_add_mod]
  rw [hm]
  by_cases hrk : r = c.kw
  · rw [hrk, Nat.mod_self, if_pos rfl]; omega
  · rw [Nat.mod_eq_of_lt (by omega), if_neg (by omega)]; exact hr

theorem sinkAt_mask {c : SrcCfg} {s : Sink} {d : SinkDesc} {j : Nat} (h : SinkAt c s d j) {b : Nat} (hb : b < c.kw) :
    s.keepMask.testBit b = decide (j * c.kw + b < d.len) := by
  rw [h.keep]
  unfold sinkKeepMask
  by_cases hz : s.count = 0
  · obtain ⟨h1, h2⟩ := sinkAt_off h hz
    by_cases ho : s.off = 0
    · rw [if_pos ho] at h1
      simp only [hz, ho, bne_self_eq_false, Bool.and_false, Bool.false_eq_true, if_false, Nat.testBit_two_pow_sub_one]
      simp only [decide_eq_decide]; omega
    · rw [if_neg ho] at h1
      rw [if_pos (by simp [hz, ho]), ones_shift (by omega), Nat.testBit_two_pow_sub_one]
      simp only [decide_eq_decide]; omega
  · have h1 := mt (sinkAt_last h).mpr hz
    rw [Nat.add_mul, Nat.one_mul] at h1
    rw [if_neg (by simp [hz]), Nat.testBit_two_pow_sub_one]
    simp only [decide_eq_decide]; omega

theorem sinkAt_keep {c : SrcCfg} {s : Sink} {d : SinkDesc} {j : Nat} (h : SinkAt c s d j) (i : SinkIn) {b : Nat}
    (hb : b < c.kw) : (sinkKeep c s i).testBit b = (i.keep.testBit b && decide (j * c.kw + b < d.len)) := by
  unfold sinkKeep
  rw [Nat.testBit_and, Nat.testBit_mod_two_pow, sinkAt_mask h hb]
  simp [hb]

theorem sinkAt_align {c : SrcCfg} (hc : SinkCfgOk c) {s : Sink} {d : SinkDesc} {j : Nat} (h : SinkAt c s d j) :
    s.addr % c.kw = 0 := by
  have hd : c.kw ∣ 2 ^ c.ramW := Nat.pow_dvd_pow 2 (by have := hc.ram; omega)
  rw [h.addr, Nat.mod_mod_of_dvd _ hd, Nat.add_mul_mod_self_right, srcAlign_mod]

/-- The word on the inputs. -/
def sinkWordOf (i : SinkIn) : SinkWord := ⟨i.data, i.keep, i.last, i.ids⟩

/-- The bytes written are those demanded. -/
theorem sinkAt_writes {c : SrcCfg} (hc : SinkCfgOk c) {s : Sink} {d : SinkDesc} {j : Nat} (h : SinkAt c s d j) (i : SinkIn) :
    sinkNowWrites c s i = sinkWordWrites c d j (sinkWordOf i) := by
  unfold sinkNowWrites sinkWordWrites
  apply filterMap_same
  intro b hb
  have hb := List.mem_range.mp hb
  have hal : d.addr - d.addr % c.kw = srcAlign c d.addr := by
    unfold srcAlign
    rw [Nat.mod_eq_of_lt h.daddr]
    have := Nat.div_add_mod d.addr c.kw
    rw [Nat.mul_comm] at this; omega
  rw [sinkAt_keep h i hb, hal, ← Nat.add_assoc,
    ← mod_add_lt (sinkCfg_src hc) (by rw [Nat.add_mul_mod_self_right, srcAlign_mod]) hb, ← h.addr]
  simp only [Bool.and_eq_true, decide_eq_true_eq, sinkWordOf]
  congr

/-- The size of the last word. -/
theorem sinkAt_size {c : SrcCfg} {s : Sink} {d : SinkDesc} {j : Nat} (h : SinkAt c s d j) (i : SinkIn) :
    j * c.kw + sinkCycleSize c (sinkKeep c s i) = min d.len (j * c.kw + sinkLead c (sinkWordOf i)) := by
  obtain ⟨a1, a2, a3⟩ := find_first (fun b => (sinkKeep c s i).testBit b) c.kw
  obtain ⟨b1, b2, b3⟩ := takeWhile_range (fun b => i.keep.testBit b) c.kw
  have hj := h.lt
  have hkey : sinkCycleSize c (sinkKeep c s i) = min (d.len - j * c.kw) (sinkLead c (sinkWordOf i)) := by
    unfold sinkLead sinkWordOf
    simp only
    generalize ((List.range c.kw).takeWhile fun b => i.keep.testBit b).length = L at *
    refine first_unique (p := fun b => (sinkKeep c s i).testBit b) (n := c.kw) a1 (by omega) a2 ?_ a3 ?_
    · intro x hx
      rw [sinkAt_keep h i (by omega), b2 x (by omega)]
      simp only [Bool.true_and, decide_eq_true_eq]; omega
    · intro hlt
      rw [sinkAt_keep h i hlt]
      by_cases hL : L ≤ d.len - j * c.kw
      · rw [Nat.min_eq_right hL] at hlt ⊢
        rw [b3 hlt, Bool.false_and]
      · rw [Nat.min_eq_left (by omega)]
        have : decide (j * c.kw + (d.len - j * c.kw) < d.len) = false := by rw [decide_eq_false_iff_not]; omega
        rw [this, Bool.and_false]
  omega

/-- The length after the word. -/
theorem sinkAt_length {c : SrcCfg} (hc : SinkCfgOk c) {s : Sink} {d : SinkDesc} {j : Nat} (h : SinkAt c s d j) (i : SinkIn) :
    sinkLength c s i =
      if i.last then min d.len (j * c.kw + sinkLead c (sinkWordOf i))
      else if d.len ≤ (j + 1) * c.kw then d.len else (j + 1) * c.kw := by
  have hkb : c.kb > 0 := hc.kb
  have hsz := sinkAt_size h i
  have hl := h.len
  unfold sinkLength
  simp only [hkb, if_true, decide_true, Bool.true_and]
  cases hlast : i.last with
  | true =>
    simp only [if_true]
    have hfin : (s.length + sinkCycleSize c (sinkKeep c s i)) % 2 ^ c.lenW =
        min d.len (j * c.kw + sinkLead c (sinkWordOf i)) := by
      rw [h.length, hsz, Nat.mod_eq_of_lt (by omega)]
    split
    · next hh =>
      simp only [Bool.and_eq_true, decide_eq_true_eq, h.lastC, beq_iff_eq] at hh
      obtain ⟨ho, hlt⟩ := sinkAt_off h hh.1
      rw [if_pos]
      · exact hfin
      · rw [beq_iff_eq]
        apply Nat.eq_of_testBit_eq
        intro b
        rw [Nat.testBit_and, Nat.testBit_xor, ones_shift (by omega), Nat.testBit_two_pow_sub_one,
          Nat.testBit_two_pow_sub_one, Nat.zero_testBit]
        by_cases hb : b < c.kw
        · rw [sinkAt_keep h i hb]
          rw [if_neg (by omega)] at ho
          have : decide (j * c.kw + b < d.len) = decide (b < s.off) := by simp only [decide_eq_decide]; omega
          rw [this]
          cases decide (b < s.off) <;> simp [hb]
        · have h1 : decide (b < c.kw) = false := by simp [hb]
          have h2 : decide (b < s.off) = false := by rw [decide_eq_false_iff_not]; omega
          rw [h1, h2]; simp
    · exact hfin
  | false =>
    simp only [Bool.false_eq_true, if_false]
    rw [h.length]
    by_cases hz : s.count = 0
    · rw [if_pos ((sinkAt_last h).mp hz)]
      obtain ⟨ho, hlt⟩ := sinkAt_off h hz
      have hlc : s.lastC = true := by rw [h.lastC, hz]; rfl
      simp only [hlc, Bool.true_and, decide_eq_true_eq]
      split
      · rw [if_neg (by omega)] at ho
        rw [← ho, Nat.mod_eq_of_lt hl]
      · rw [if_pos (by omega)] at ho
        rw [← ho, Nat.mod_eq_of_lt hl]
    · have hn := mt (sinkAt_last h).mpr hz
      rw [if_neg hn]
      have hlc : s.lastC = false := by rw [h.lastC]; simp [hz]
      simp only [hlc, Bool.false_and, Bool.false_eq_true, if_false]
      rw [Nat.add_mul, Nat.one_mul] at hn ⊢
      rw [Nat.mod_eq_of_lt (by omega)]

/-- The status of an entry, if it has one. -/
def sinkEntryStatus (x : SinkEntry) : Option SinkStatus := if x.last then some ⟨x.tag, x.len, x.ids⟩ else none

/-- The effect of the word on the inputs. -/
def sinkNow (c : SrcCfg) (s : Sink) (i : SinkIn) : SinkEffect :=
  { writes := sinkNowWrites c s i, status := sinkEntryStatus (sinkEntry c s i) }

theorem sinkAt_effect {c : SrcCfg} (hc : SinkCfgOk c) {s : Sink} {d : SinkDesc} {j : Nat} (h : SinkAt c s d j) (i : SinkIn) :
    sinkNow c s i =
      { writes := sinkWordWrites c d j (sinkWordOf i)
        status :=
          if (sinkWordOf i).last then some ⟨d.tag, min d.len (j * c.kw + sinkLead c (sinkWordOf i)), (sinkWordOf i).ids⟩
          else if d.len ≤ (j + 1) * c.kw then some ⟨d.tag, d.len, (sinkWordOf i).ids⟩
          else none } := by
  unfold sinkNow
  rw [sinkAt_writes hc h]
  congr 1
  unfold sinkEntryStatus sinkEntry
  simp only [sinkAt_length hc h, h.tag, h.lastC]
  have hlast : (sinkWordOf i).last = i.last := rfl
  have hids : (sinkWordOf i).ids = i.ids := rfl
  rw [hlast, hids]
  have := sinkAt_last h
  cases i.last with
  | true => simp
  | false =>
    by_cases hz : s.count = 0
    · rw [if_pos (this.mp hz)]; simp [hz, this.mp hz]
    · rw [if_neg (mt this.mpr hz)]; simp [hz]; exact Nat.lt_of_not_le (mt this.mpr hz)

/-! ### The state machine -/

/-- The descriptor in progress, and the number of the next word. -/
def SinkCur (c : SrcCfg) (s : Sink) (ds : List SinkDesc) (j : Nat) : Prop :=
  match s.st with
  | .idle => ds = [] ∧ j = 0
  | .write => ∃ d, ds = [d] ∧ SinkAt c s d j
  | .drop => ∃ d, ds = [d] ∧ d.len ≤ j * c.kw

/-- The descriptor on the inputs. -/
def sinkDescOf (c : SrcCfg) (i : SinkIn) : SinkDesc := ⟨i.ramAddr % 2 ^ c.ramW, i.len % 2 ^ c.lenW, i.tag⟩

theorem sinkFsm_cur {c : SrcCfg} (hc : SinkCfgOk c) {s : Sink} {ds : List SinkDesc} {j : Nat} (h : SinkCur c s ds j)
    (hrdy : s.ready = true → s.st = .idle) (htr : s.tready = true → s.st ≠ .idle) (i : SinkIn)
    (hlen : (s.ready && i.valid) = true → i.len % 2 ^ c.lenW ≠ 0) :
    ∃ ds' j', SinkCur c (sinkFsm c s i) ds' j' ∧ ∀ (D : List SinkDesc) (W : List SinkWord),
      sinkEffects c (ds ++ ((if s.ready && i.valid then [sinkDescOf c i] else []) ++ D))
        ((if s.tready && i.tvalid then [sinkWordOf i] else []) ++ W) j =
      (if sinkTake s i then [sinkNow c s i] else []) ++ sinkEffects c (ds' ++ D) W j' := by
  have hk := kw_pos c
  unfold SinkCur at h
  match hst : s.st with
  | .idle =>
    rw [hst] at h
    obtain ⟨rfl, rfl⟩ := h
    have ht : s.tready = false := by cases h : s.tready; rfl; exact absurd hst (htr h)
    have hacc : sinkAccept s i = (s.ready && i.valid) := by simp [sinkAccept, hst]
    have htake : sinkTake s i = false := by simp [sinkTake, hst]
    cases ha : (s.ready && i.valid) with
    | false =>
      refine ⟨[], 0, ?_, fun D W => by simp [ht, htake]⟩
      unfold SinkCur sinkFsm
      simp [hst, hacc, ha]
    | true =>
      have hlen := hlen ha
      refine ⟨[sinkDescOf c i], 0, ?_, fun D W => by simp [ht, htake]⟩
      unfold SinkCur sinkFsm
      simp only [hst, hacc, ha, if_true]
      refine ⟨_, rfl, ?_⟩
      have hcl : srcCount c i.len = (i.len % 2 ^ c.lenW - 1) / c.kw := by
        rw [← srcCount_mod, count_len (sinkCfg_src hc) (by omega) (Nat.mod_lt _ (Nat.two_pow_pos _))]
      constructor
      · show 0 * c.kw < i.len % 2 ^ c.lenW; omega
      · exact Nat.mod_lt _ (Nat.two_pow_pos _)
      · exact Nat.mod_lt _ (Nat.two_pow_pos _)
      · show srcAlign c i.ramAddr = (srcAlign c (i.ramAddr % 2 ^ c.ramW) + 0 * c.kw) % 2 ^ c.ramW
        rw [srcAlign_mod2, Nat.zero_mul, Nat.add_zero, Nat.mod_eq_of_lt (srcAlign_lt c _)]
      · show srcCount c i.len = (i.len % 2 ^ c.lenW - 1) / c.kw - 0
        rw [hcl, Nat.sub_zero]
      · rfl
      · show 0 = 0 * c.kw; omega
      · rfl
      · rfl
      · rfl
  | .write =>
    rw [hst] at h
    obtain ⟨d, rfl, h⟩ := h
    have hr : s.ready = false := by cases hh : s.ready; rfl; rw [hrdy hh] at hst; cases hst
    have htake : sinkTake s i = (s.tready && i.tvalid) := by simp [sinkTake, hst]
    cases ha : (s.tready && i.tvalid) with
    | false =>
      refine ⟨[d], j, ?_, fun D W => by simp [hr, htake, ha]⟩
      unfold SinkCur sinkFsm
      simp only [hst, htake, ha, Bool.false_eq_true, if_false]
      exact ⟨d, rfl, ⟨h.lt, h.len, h.daddr, h.addr, h.count, h.off, h.length, h.tag, h.lastC, h.keep⟩⟩
    | true =>
      have heff : ∀ D W, sinkEffects c ([d] ++ ((if s.ready && i.valid then [sinkDescOf c i] else []) ++ D))
          ((if true then [sinkWordOf i] else []) ++ W) j =
          [sinkNow c s i] ++ if i.last then sinkEffects c D W 0 else sinkEffects c (d :: D) W (j + 1) := by
        intro D W
        rw [sinkAt_effect hc h]
        simp only [hr, Bool.false_and, Bool.false_eq_true, if_false, List.nil_append, if_true, List.singleton_append]
        conv => lhs; unfold sinkEffects
        rw [if_pos h.lt]
        rfl
      have hlen := sinkAt_length hc h i
      have hlst := sinkAt_last h
      have hstf : (sinkFsm c s i).st = if i.last then .idle else if s.lastC then .drop else .write := by
        unfold sinkFsm; simp only [hst, htake, ha, if_true]
      cases hl : i.last with
      | true =>
        refine ⟨[], 0, ?_, fun D W => ?_⟩
        · unfold SinkCur; rw [hstf, hl]; simp
        · rw [heff, htake, ha, hl]; simp
      | false =>
        refine ⟨[d], j + 1, ?_, fun D W => ?_⟩
        · unfold SinkCur; rw [hstf, hl]
          simp only [Bool.false_eq_true, if_false]
          by_cases hz : s.count = 0
          · have hlc : s.lastC = true := by rw [h.lastC, hz]; rfl
            simp only [hlc, if_true]
            exact ⟨d, rfl, hlst.mp hz⟩
          · have hlc : s.lastC = false := by rw [h.lastC]; simp [hz]
            simp only [hlc, Bool.false_eq_true, if_false]
            have hn := mt hlst.mpr hz
            refine ⟨d, rfl, ?_⟩
            have hcnt : s.count < 2 ^ c.cycW := by
              have h1 := count_len (sinkCfg_src hc) (by have := h.lt; omega) h.len
              have h2 := srcCount_lt c d.len
              have h3 := h.count
              omega
            have hdec := count_dec hcnt hz
            rw [hl] at hlen
            simp only [Bool.false_eq_true, if_false, if_neg hn] at hlen
            unfold sinkFsm
            simp only [hst, htake, ha, if_true, hdec]
            constructor
            · show (j + 1) * c.kw < d.len; omega
            · exact h.len
            · exact h.daddr
            · show (s.addr + c.kw) % 2 ^ c.ramW = _
              rw [h.addr, Nat.mod_add_mod, Nat.add_mul, Nat.one_mul, Nat.add_assoc]
            · show s.count - 1 = _; rw [h.count]; omega
            · exact h.off
            · exact hlen
            · exact h.tag
            · rfl
            · rfl
        · rw [heff, htake, ha, hl]; simp
  | .drop =>
    rw [hst] at h
    obtain ⟨d, rfl, h⟩ := h
    have hr : s.ready = false := by cases hh : s.ready; rfl; rw [hrdy hh] at hst; cases hst
    have htake : sinkTake s i = false := by simp [sinkTake, hst]
    cases ha : (s.tready && i.tvalid) with
    | false =>
      refine ⟨[d], j, ?_, fun D W => by simp [hr, htake]⟩
      unfold SinkCur sinkFsm
      simp only [hst, ha, Bool.false_and, Bool.false_eq_true, if_false]
      exact ⟨d, rfl, h⟩
    | true =>
      have heff : ∀ D W, sinkEffects c ([d] ++ ((if s.ready && i.valid then [sinkDescOf c i] else []) ++ D))
          ((if true then [sinkWordOf i] else []) ++ W) j =
          if i.last then sinkEffects c D W 0 else sinkEffects c (d :: D) W (j + 1) := by
        intro D W
        simp only [hr, Bool.false_and, Bool.false_eq_true, if_false, List.nil_append, if_true, List.singleton_append]
        conv => lhs; unfold sinkEffects
        rw [if_neg (by omega), List.nil_append]
        rfl
      cases hl : i.last with
      | true =>
        refine ⟨[], 0, ?_, fun D W => ?_⟩
        · unfold SinkCur sinkFsm
          simp [hst, ha, hl]
        · rw [heff, htake, hl]; simp
      | false =>
        refine ⟨[d], j + 1, ?_, fun D W => ?_⟩
        · unfold SinkCur sinkFsm
          simp only [hst, ha, hl, Bool.and_false, Bool.false_eq_true, if_false]
          exact ⟨d, rfl, by rw [Nat.add_mul]; omega⟩
        · rw [heff, htake, hl]; simp

end Verif.Proofs
