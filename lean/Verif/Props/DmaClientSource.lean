import Verif.Proofs.DmaClientSourceLive
import Verif.Proofs.DmaClientSourceExample
/-!
Properties C56 and C57: the AXI stream DMA source.
-/
namespace Verif.Props
open Verif Verif.Model Verif.Spec Verif.Proofs

/-- The history starts with a reset, the RAM answers reads correctly, and no descriptor has length 0. -/
structure SrcHistory (c : SrcCfg) (mem : Nat → UInt8) (s : Src) (r : SrcIn) (is : List SrcIn) : Prop where
  rst : r.rst = true
  norst : ∀ i ∈ is, i.rst = false
  ram : SrcRamOk c mem (fun _ => []) (srcStep c s r) is
  len : ∀ i ∈ is, i.len % 2 ^ c.lenW ≠ 0

/-- **C56.** The words sent are, in order and without loss, those of the packets of the descriptors accepted; `rest` is
what has not been sent yet. (Streams of one byte and descriptors of length 0 are excluded.) -/
theorem C56_stream_partial (c : SrcCfg) (hc : SrcCfgOk c) (mem : Nat → UInt8) (s : Src) (r : SrcIn) (is : List SrcIn)
    (h : SrcHistory c mem s r is) :
    ∃ rest, (srcAccepted c (srcStep c s r) is).flatMap (srcPacket c mem) =
      (srcSent c (srcStep c s r) is).map (srcWord c.kw) ++ rest := by
  obtain ⟨hinv, hrest, hq, hp, -⟩ := srcInv_reset (c := c) s r h.rst
  obtain ⟨-, hout, -⟩ := srcRun_inv hc mem is _ _ _ _ hinv hrest h.norst h.ram
  rw [hq, hp, List.map_nil, List.append_nil, List.nil_append] at hout
  have := congrArg (List.map (srcWord c.kw)) hout
  rw [plans_packets hc mem, List.map_append] at this
  · exact ⟨_, this⟩
  · intro d hd
    obtain ⟨i, hi, rfl⟩ := accepted_desc hd
    exact ⟨Nat.mod_lt _ (Nat.two_pow_pos _), Nat.pos_of_ne_zero (h.len i hi), Nat.mod_lt _ (Nat.two_pow_pos _)⟩

/-- **C56**, keep signal: the bytes kept are at the low end of the word, and there is at least one. -/
theorem C56_keep_partial (c : SrcCfg) (hc : SrcCfgOk c) (mem : Nat → UInt8) (s : Src) (r : SrcIn) (is : List SrcIn)
    (h : SrcHistory c mem s r is) :
    ∀ b ∈ srcSent c (srcStep c s r) is, ∃ m, 0 < m ∧ m ≤ c.kw ∧ b.keep = 2 ^ m - 1 := by
  obtain ⟨hinv, hrest, hq, hp, -⟩ := srcInv_reset (c := c) s r h.rst
  obtain ⟨-, hout, -⟩ := srcRun_inv hc mem is _ _ _ _ hinv hrest h.norst h.ram
  rw [hq, hp, List.map_nil, List.append_nil, List.nil_append] at hout
  intro b hb
  have hb : b ∈ ((srcAccepted c (srcStep c s r) is).flatMap (descPlan c)).map (planBeat c mem) := by
    rw [hout]; exact List.mem_append_left _ hb
  obtain ⟨p, hp, rfl⟩ := List.mem_map.mp hb
  obtain ⟨d, -, hp⟩ := List.mem_flatMap.mp hp
  have ho := plan_off hp
  have hk := kw_pos c
  have hlt : p.off < c.kw := by rw [ho]; exact Nat.mod_lt _ hk
  refine ⟨_, ?_, ?_, plan_keep mem p hlt⟩
  · split
    · next hh => simp only [Bool.and_eq_true, decide_eq_true_eq] at hh; exact hh.2
    · exact hk
  · split <;> omega

/-- **C57.** (Same exclusions as C56, in all C57 theorems.) Statuses: one for each descriptor accepted, with its tag, in order; `later` are the tags of the descriptors
whose status is still to come. -/
theorem C57_status_partial (c : SrcCfg) (hc : SrcCfgOk c) (mem : Nat → UInt8) (s : Src) (r : SrcIn) (is : List SrcIn)
    (h : SrcHistory c mem s r is) :
    ∃ later, (srcAccepted c (srcStep c s r) is).map (·.tag) = srcStatus c (srcStep c s r) is ++ later := by
  obtain ⟨hinv, hrest, -, -, hst⟩ := srcInv_reset (c := c) s r h.rst
  obtain ⟨-, -, fin, rest, hf, -, hs⟩ := srcRun_inv hc mem is _ _ _ _ hinv hrest h.norst h.ram
  rw [List.nil_append] at hf
  rw [hst] at hs
  simp only [Bool.false_eq_true, if_false, List.nil_append] at hs
  rw [hf, List.map_append, hs, List.append_assoc]
  exact ⟨_, rfl⟩

/-- **C57**, RAM accesses: a read command on the interface, or one taken by the RAM and not yet answered, is for a row
of a descriptor that has been accepted and has had no status. So when the status has been given, the RAM is free. -/
theorem C57_ram_partial (c : SrcCfg) (hc : SrcCfgOk c) (mem : Nat → UInt8) (s : Src) (r : SrcIn) (is : List SrcIn)
    (h : SrcHistory c mem s r is) (k row : Nat) (hk : k < c.segs)
    (hrow : row ∈ srcPendRun c (fun _ => []) (srcStep c s r) is k ∨
      ((srcRun c (srcStep c s r) is).ramV k = true ∧ row = (srcRun c (srcStep c s r) is).ramAddr k)) :
    ∃ d ∈ (srcAccepted c (srcStep c s r) is).drop (srcStatus c (srcStep c s r) is).length,
      ∃ n < d.len, row = (d.addr - d.addr % c.kw + n) % 2 ^ c.ramW / c.rowBytes := by
  obtain ⟨hinv, hrest, -, -, hst⟩ := srcInv_reset (c := c) s r h.rst
  obtain ⟨⟨G, hG⟩, -, fin, rest, hf, hR, hs⟩ := srcRun_inv hc mem is _ _ _ _ hinv hrest h.norst h.ram
  rw [List.nil_append] at hf
  rw [hst] at hs
  simp only [Bool.false_eq_true, if_false, List.nil_append] at hs
  -- the row is that of a word that is still to be sent
  have hmem : row ∈ (G.filter (srcMask c · k)).map (· / c.rowBytes) := by
    rw [← hG.pipe k hk]
    rcases hrow with h | ⟨h, rfl⟩
    · exact List.mem_append_left _ h
    · rw [if_pos h]; simp
  obtain ⟨a, ha, rfl⟩ := List.mem_map.mp hmem
  have ha : a ∈ (sendPlan c (srcRun c (srcStep c s r) is) ++ cmdPlan c (srcRun c (srcStep c s r) is)).map (·.addr) := by
    rw [← hG.flow]; exact List.mem_append_left _ (List.mem_filter.mp ha).1
  obtain ⟨p, hp, rfl⟩ := List.mem_map.mp ha
  obtain ⟨d, hd, hpd⟩ : ∃ d ∈ rest, p ∈ descPlan c d := by
    obtain ⟨d0, d1, e, h0, h1, -⟩ := hR
    rcases List.mem_append.mp hp with hp | hp
    · have hs : (srcRun c (srcStep c s r) is).sending = true := by
        unfold sendPlan at hp; split at hp
        · assumption
        · simp at hp
      refine ⟨d0, by rw [e, if_pos hs]; simp, (h0 hs).2.subset hp⟩
    · have hv : (srcRun c (srcStep c s r) is).cmdV = true := by
        unfold cmdPlan at hp; split at hp
        · assumption
        · simp at hp
      refine ⟨d1, by rw [e, if_pos hv]; simp, ?_⟩
      rw [← (h1 hv).2]; exact hp
  have hdrop : rest <:+ (srcAccepted c (srcStep c s r) is).drop (srcStatus c (srcStep c s r) is).length := by
    have hl : (srcStatus c (srcStep c s r) is).length ≤ fin.length := by
      have := congrArg List.length hs
      simp only [List.length_map, List.length_append] at this; omega
    rw [hf, List.drop_append_of_le_length hl]
    exact List.suffix_append _ _
  have hacc : d ∈ srcAccepted c (srcStep c s r) is := by rw [hf]; exact List.mem_append_right _ hd
  obtain ⟨i, hi, rfl⟩ := accepted_desc hacc
  obtain ⟨n, hn, e⟩ := descPlan_addr hc (Nat.mod_lt _ (Nat.two_pow_pos _)) (Nat.pos_of_ne_zero (h.len i hi))
    (Nat.mod_lt _ (Nat.two_pow_pos _)) hpd
  exact ⟨_, hdrop.subset hd, n, hn, by rw [e]⟩

/-- **C57**, progress: if the RAM and the receiver stop delaying and no more descriptors come, then after a bounded
number of cycles everything accepted has been sent, and every status has been given. -/
theorem C57_drain_partial (c : SrcCfg) (hc : SrcCfgOk c) (mem : Nat → UInt8) (s : Src) (r : SrcIn) (is quiet : List SrcIn)
    (h : SrcHistory c mem s r (is ++ quiet))
    (hq : SrcQuiet c (srcPendRun c (fun _ => []) (srcStep c s r) is) (srcRun c (srcStep c s r) is) quiet)
    (hl : (c.segs + 11) * 2 ^ c.cycW + c.segs + 72 < quiet.length) :
    (srcSent c (srcStep c s r) (is ++ quiet)).map (srcWord c.kw) =
      (srcAccepted c (srcStep c s r) (is ++ quiet)).flatMap (srcPacket c mem) ∧
    srcStatus c (srcStep c s r) (is ++ quiet) = (srcAccepted c (srcStep c s r) (is ++ quiet)).map (·.tag) := by
  obtain ⟨hinv, hrest, hq0, hp0, hst0⟩ := srcInv_reset (c := c) s r h.rst
  have hram := (srcRamOk_append c mem is quiet _ _).mp h.ram
  obtain ⟨⟨G, hG⟩, -⟩ := srcRun_inv hc mem is _ _ _ _ hinv hrest
    (fun i hi => h.norst i (List.mem_append_left _ hi)) hram.1
  obtain ⟨hw, hst⟩ := srcWork_run hc mem quiet _ _ _ hG (fun i hi => h.norst i (List.mem_append_right _ hi)) hram.2 hq
  have hle := srcWork_le hG
  rw [← srcRun_append] at hw hst
  have hst := hst (by omega)
  obtain ⟨z1, z2, z3, z4⟩ := srcWork_zero (by omega : srcWork c (srcRun c (srcStep c s r) (is ++ quiet)) = 0)
  obtain ⟨-, hout, fin, rest, hf, ⟨d0, d1, hR, -⟩, hs⟩ := srcRun_inv hc mem _ _ _ _ _ hinv hrest h.norst h.ram
  constructor
  · rw [hq0, hp0, z1, z2, List.map_nil, List.append_nil, List.nil_append, List.append_nil] at hout
    rw [← hout, plans_packets hc mem]
    intro d hd
    obtain ⟨i, hi, rfl⟩ := accepted_desc hd
    exact ⟨Nat.mod_lt _ (Nat.two_pow_pos _), Nat.pos_of_ne_zero (h.len i hi), Nat.mod_lt _ (Nat.two_pow_pos _)⟩
  · rw [z3, z4] at hR
    rw [List.nil_append, hR] at hf
    rw [hst0, hst] at hs
    simp only [Bool.false_eq_true, if_false, List.nil_append, List.append_nil] at hs hf
    rw [hf, hs]

/-! ### A history -/

/-- A stream of four bytes, RAM rows of 16 bytes in two segments. -/
def srcExCfg : SrcCfg := { kb := 2, pb := 2, sc := 1, ramW := 12, lenW := 6 }

/-- Two descriptors, the first for 10 bytes from address 12, the second for 8 bytes from address 64. -/
def srcExIns : List SrcIn :=
  List.replicate 2 (srcExIn true 12 10 1) ++ List.replicate 4 (srcExIn true 64 8 2) ++
    List.replicate 20 (srcExIn false 0 1 0)

def srcExMem (a : Nat) : UInt8 := UInt8.ofNat (a + 100)

def srcExReset : SrcIn := { srcExIn false 0 1 0 with rst := true }

def srcExHistory (n : Nat) : List SrcIn :=
  srcRamHistory srcExCfg srcExMem (fun _ => []) (srcStep srcExCfg srcState0 srcExReset)
    (srcExIns ++ List.replicate n (srcExIn false 0 1 0))

theorem srcEx_cfg : SrcCfgOk srcExCfg := ⟨by decide, by decide, by decide, by decide⟩

theorem srcEx_history (n : Nat) : SrcHistory srcExCfg srcExMem srcState0 srcExReset (srcExHistory n) := by
  refine ⟨rfl, ?_, srcRamHistory_ok _ _ _ _ _, ?_⟩
  · refine srcRamHistory_inputs _ _ _ (P := fun i => i.rst = false) (fun _ _ h => h) ?_
    intro i hi
    simp [srcExIns] at hi
    rcases hi with h | h | h | ⟨-, h⟩ <;> rw [h] <;> rfl
  · refine srcRamHistory_inputs _ _ _ (P := fun i => i.len % 2 ^ srcExCfg.lenW ≠ 0) (fun _ _ h => h) ?_
    intro i hi
    simp [srcExIns] at hi
    rcases hi with h | h | h | ⟨-, h⟩ <;> rw [h] <;> decide

/-- Non-vacuity: two descriptors are accepted, and their packets of three and two words are sent. -/
example : (srcAccepted srcExCfg (srcStep srcExCfg srcState0 srcExReset) (srcExHistory 0)).map (fun d => (d.addr, d.len, d.tag)) =
      [(12, 10, 1), (64, 8, 2)] ∧
    (srcSent srcExCfg (srcStep srcExCfg srcState0 srcExReset) (srcExHistory 0)).map (fun b => ((srcWord 4 b).bytes, b.last)) =
      [([112, 113, 114, 115], false), ([116, 117, 118, 119], false), ([120, 121], true),
       ([164, 165, 166, 167], false), ([168, 169, 170, 171], true)] ∧
    srcStatus srcExCfg (srcStep srcExCfg srcState0 srcExReset) (srcExHistory 0) = [1, 2] := by
  decide +kernel

/-- Non-vacuity of `C57_drain_partial`: the same history, continued for 500 cycles. -/
example : ∃ is quiet, SrcHistory srcExCfg srcExMem srcState0 srcExReset (is ++ quiet) ∧
    SrcQuiet srcExCfg (srcPendRun srcExCfg (fun _ => []) (srcStep srcExCfg srcState0 srcExReset) is)
      (srcRun srcExCfg (srcStep srcExCfg srcState0 srcExReset) is) quiet ∧
    (srcExCfg.segs + 11) * 2 ^ srcExCfg.cycW + srcExCfg.segs + 72 < quiet.length ∧
    (srcAccepted srcExCfg (srcStep srcExCfg srcState0 srcExReset) is).length = 2 := by
  refine ⟨srcExHistory 0, _, ?_, srcRamHistory_quiet _ srcExMem (List.replicate 500 (srcExIn false 0 1 0)) _ _ ?_, ?_, ?_⟩
  · rw [show srcExHistory 0 = srcRamHistory srcExCfg srcExMem (fun _ => []) (srcStep srcExCfg srcState0 srcExReset) srcExIns by
      unfold srcExHistory; simp, ← srcRamHistory_append]
    exact srcEx_history 500
  · intro i hi
    rw [(List.mem_replicate.mp hi).2]
    exact ⟨rfl, rfl, fun _ => rfl⟩
  · rw [srcRamHistory_length, List.length_replicate]; decide
  · decide +kernel

/-! ### Where it fails -/

/-- A stream of one byte, RAM rows of four bytes in one segment. -/
def srcExByteCfg : SrcCfg := { kb := 0, pb := 2, sc := 0, ramW := 12, lenW := 6 }

def srcExByte : List SrcIn :=
  srcRamHistory srcExByteCfg srcExMem (fun _ => []) (srcStep srcExByteCfg srcState0 srcExReset)
    (List.replicate 2 (srcExIn true 0 4 1) ++ List.replicate 14 (srcExIn false 0 1 0))

/-- **C56** is false for a stream of one byte: the byte is selected by address bits 2 and 1 instead of 1 and 0, so a
descriptor for four bytes from address 0 gives bytes 0, 0, 1, 1. -/
theorem C56_byte_stream_fails :
    SrcRamOk srcExByteCfg srcExMem (fun _ => []) (srcStep srcExByteCfg srcState0 srcExReset) srcExByte ∧
    (srcAccepted srcExByteCfg (srcStep srcExByteCfg srcState0 srcExReset) srcExByte).flatMap
        (fun d => (srcPacket srcExByteCfg srcExMem d).map (·.bytes)) = [[100], [101], [102], [103]] ∧
    (srcSent srcExByteCfg (srcStep srcExByteCfg srcState0 srcExReset) srcExByte).map (fun b => (srcWord 1 b).bytes) =
      [[100], [100], [101], [101]] :=
  ⟨srcRamHistory_ok _ _ _ _ _, by decide +kernel, by decide +kernel⟩

def srcExZero : List SrcIn :=
  srcRamHistory srcExCfg srcExMem (fun _ => []) (srcStep srcExCfg srcState0 srcExReset)
    (List.replicate 2 (srcExIn true 0 0 1) ++ List.replicate 60 (srcExIn false 0 1 0))

/-- **C56** is false for a descriptor of length 0: the word count wraps round, and a packet of `2^cycW` words is sent
(here 32 words of four bytes). -/
theorem C56_zero_length_fails :
    SrcRamOk srcExCfg srcExMem (fun _ => []) (srcStep srcExCfg srcState0 srcExReset) srcExZero ∧
    (srcAccepted srcExCfg (srcStep srcExCfg srcState0 srcExReset) srcExZero).map (fun d => (d.len, d.tag)) = [(0, 1)] ∧
    (srcSent srcExCfg (srcStep srcExCfg srcState0 srcExReset) srcExZero).map (·.last) =
      List.replicate 31 false ++ [true] :=
  ⟨srcRamHistory_ok _ _ _ _ _, by decide +kernel, by decide +kernel⟩

end Verif.Props
