import Verif.Proofs.DmaClientSinkLive
import Verif.Proofs.DmaClientSinkExample
/-!
Properties C58 and C59: the AXI stream DMA sink.
-/
namespace Verif.Props
open Verif Verif.Model Verif.Spec Verif.Proofs

/-- The history starts with a reset, the RAM reports no write that it has not taken, and no descriptor has length 0. -/
structure SinkHistory (c : SrcCfg) (s : Sink) (r : SinkIn) (is : List SinkIn) : Prop where
  rst : r.rst = true
  norst : ∀ i ∈ is, i.rst = false
  ram : SinkRamOk c (fun _ => 0) (sinkStep c s r) is
  len : ∀ d ∈ sinkAccepted c (sinkStep c s r) is, d.len ≠ 0

/-- **C58.** On each segment of the RAM, the bytes of the write commands taken are, in order and without loss, the bytes
that the descriptors and the words of the stream demand in this segment; `rest` is what has not been taken yet. (Streams
of one byte and descriptors of length 0 are excluded, in all C58 and C59 theorems.) -/
theorem C58_writes_partial (c : SrcCfg) (hc : SinkCfgOk c) (s : Sink) (r : SinkIn) (is : List SinkIn)
    (h : SinkHistory c s r is) (k : Nat) (hk : k < c.segs) :
    ∃ rest, (sinkWrites c (sinkAccepted c (sinkStep c s r) is) (sinkWords c (sinkStep c s r) is)).filter (sinkInSeg c k) =
      (sinkTaken c k (sinkStep c s r) is).flatMap (sinkCmdWrites c k) ++ rest := by
  have hrun := sinkRun_reset hc s r is h.rst h.norst h.ram h.len
  have hout := hrun.out k hk
  rw [(sinkInv_reset (c := c) s r h.rst).2.2.1, List.map_nil, List.nil_append] at hout
  have heff := hrun.effects
  rw [List.nil_append] at heff
  unfold sinkWrites
  rw [heff, ← sinkTook_bytes fun x hx => hrun.nomask x hx k hk, hout, List.flatten_append, List.flatMap_def]
  exact ⟨_, rfl⟩

/-- **C59.** Statuses: those that the descriptors and the words of the stream demand, in order; `later` are those still
to come. -/
theorem C59_status_partial (c : SrcCfg) (hc : SinkCfgOk c) (s : Sink) (r : SinkIn) (is : List SinkIn)
    (h : SinkHistory c s r is) :
    ∃ later, sinkStatuses c (sinkAccepted c (sinkStep c s r) is) (sinkWords c (sinkStep c s r) is) =
      sinkStatusOut c (sinkStep c s r) is ++ later := by
  have hrun := sinkRun_reset hc s r is h.rst h.norst h.ram h.len
  obtain ⟨-, -, -, hf, hs, -⟩ := sinkInv_reset (c := c) s r h.rst
  have heff := hrun.effects
  rw [List.nil_append] at heff
  have hfifo := hrun.fifo
  rw [hf, List.nil_append] at hfifo
  have hgiven := hrun.given
  rw [sinkStatusNow, hs] at hgiven
  simp only [Bool.false_eq_true, if_false, List.nil_append] at hgiven
  unfold sinkStatuses
  have e : ((sinkTook c (sinkStep c s r) is).map (·.2)).filterMap (·.status) =
      ((sinkTook c (sinkStep c s r) is).map (·.1)).filterMap sinkEntryStatus := by
    rw [List.filterMap_map, List.filterMap_map]
    exact filterMap_same _ fun x hx => hrun.status x hx
  rw [heff, e, hfifo, List.filterMap_append, hgiven, List.append_assoc]
  exact ⟨_, rfl⟩

/-- **C59**, completion: when `n` statuses have been given, all bytes that the first `n` descriptors demand in a segment
have been written there, by commands that the RAM has reported as done. -/
theorem C59_done_partial (c : SrcCfg) (hc : SinkCfgOk c) (s : Sink) (r : SinkIn) (is : List SinkIn)
    (h : SinkHistory c s r is) (k : Nat) (hk : k < c.segs) :
    (sinkWrites c ((sinkAccepted c (sinkStep c s r) is).take (sinkStatusOut c (sinkStep c s r) is).length)
        (sinkWords c (sinkStep c s r) is)).filter (sinkInSeg c k) <+:
      ((sinkTaken c k (sinkStep c s r) is).take (sinkDoneCount k is)).flatMap (sinkCmdWrites c k) := by
  obtain ⟨-, -, ho, hf, hs, hd⟩ := sinkInv_reset (c := c) s r h.rst
  exact sinkRun_done (sinkRun_reset hc s r is h.rst h.norst h.ram h.len) hf hs ho hd hk

/-- **C59**, progress: if the RAM stops delaying and no more descriptors and words come, then after a bounded number of
cycles everything taken has been written, every status has been given, and the module offers to take what comes next: a
word if the last packet has not ended, or else a descriptor. -/
theorem C59_drain_partial (c : SrcCfg) (hc : SinkCfgOk c) (s : Sink) (r : SinkIn) (is quiet : List SinkIn)
    (h : SinkHistory c s r (is ++ quiet))
    (hq : SinkQuiet c (sinkPendRun c (fun _ => 0) (sinkStep c s r) is) (sinkRun c (sinkStep c s r) is) quiet)
    (hl : 93 * c.segs + 40 ≤ quiet.length) :
    (∀ k < c.segs, (sinkTaken c k (sinkStep c s r) (is ++ quiet)).flatMap (sinkCmdWrites c k) =
      (sinkWrites c (sinkAccepted c (sinkStep c s r) (is ++ quiet)) (sinkWords c (sinkStep c s r) (is ++ quiet))).filter
        (sinkInSeg c k)) ∧
    sinkStatusOut c (sinkStep c s r) (is ++ quiet) =
      sinkStatuses c (sinkAccepted c (sinkStep c s r) (is ++ quiet)) (sinkWords c (sinkStep c s r) (is ++ quiet)) ∧
    (if (sinkWords c (sinkStep c s r) (is ++ quiet)).countP (·.last) < (sinkAccepted c (sinkStep c s r) (is ++ quiet)).length
      then (sinkRun c (sinkStep c s r) (is ++ quiet)).tready = true
      else (sinkRun c (sinkStep c s r) (is ++ quiet)).ready = true) := by
  obtain ⟨hinv, hcur, ho, hf, hs, hd⟩ := sinkInv_reset (c := c) s r h.rst
  have hram := (sinkRamOk_append c is quiet _ _).mp h.ram
  have hlen := h.len
  rw [sinkAccepted_append] at hlen
  have hrun0 := sinkRun_ok hc is _ _ _ _ hinv hcur (fun i hi => h.norst i (List.mem_append_left _ hi)) hram.1
    (fun d hd => hlen d (List.mem_append_left _ hd))
  obtain ⟨-, hw, -, hn⟩ := sinkWork_run quiet _ _ hrun0.inv (fun i hi => h.norst i (List.mem_append_right _ hi)) hram.2 hq
  have hle := sinkWork_le hrun0.inv
  have hn := hn (Or.inl (by omega))
  rw [← sinkRun_append] at hw hn
  obtain ⟨z1, z2, z3⟩ := sinkWork_zero (Nat.le_zero.mp (Nat.le_trans hw (by omega)))
  have hrun := sinkRun_reset hc s r (is ++ quiet) h.rst h.norst h.ram h.len
  have heff := hrun.effects
  rw [List.nil_append] at heff
  refine ⟨fun k hk => ?_, ?_, ?_⟩
  · have hout := hrun.out k hk
    rw [ho, z1 k hk, List.map_nil, List.nil_append, List.append_nil] at hout
    unfold sinkWrites
    rw [heff, ← sinkTook_bytes fun x hx => hrun.nomask x hx k hk, hout, List.flatMap_def]
  · have hfifo := hrun.fifo
    rw [hf, z2, List.nil_append, List.append_nil] at hfifo
    have hgiven := hrun.given
    rw [sinkStatusNow, hs, z3] at hgiven
    simp only [Bool.false_eq_true, if_false, List.nil_append, List.append_nil] at hgiven
    unfold sinkStatuses
    have e : ((sinkTook c (sinkStep c s r) (is ++ quiet)).map (·.2)).filterMap (·.status) =
        ((sinkTook c (sinkStep c s r) (is ++ quiet)).map (·.1)).filterMap sinkEntryStatus := by
      rw [List.filterMap_map, List.filterMap_map]
      exact filterMap_same _ fun x hx => hrun.status x hx
    rw [heff, e, hfifo, hgiven]
  · have hopen := sinkOpen_run (is ++ quiet) _ _ hinv h.norst h.ram
    have hidle : (sinkStep c s r).st = .idle := by unfold sinkStep; simp [h.rst]
    rw [hidle] at hopen
    unfold sinkNext at hn
    by_cases hst : (sinkRun c (sinkStep c s r) (is ++ quiet)).st = .idle
    · rw [if_pos hst] at hn
      rw [hst] at hopen
      simp only [ne_eq, not_true_eq_false, decide_false, Bool.toNat_false, Nat.add_zero] at hopen
      rw [if_neg (by omega)]; exact hn
    · rw [if_neg hst] at hn
      simp only [ne_eq, hst, not_false_eq_true, decide_true, Bool.toNat_true, not_true_eq_false, decide_false, Bool.toNat_false,
        Nat.add_zero] at hopen
      rw [if_pos (by omega)]; exact hn

/-- What the demand on statuses says for an ordinary packet, of `n` full words and a last word: there is one status, and
its length is that of the packet or, if this is less, of the buffer. -/
theorem C59_packet_length (c : SrcCfg) (d : SinkDesc) (w : SinkWord) (hw : w.last = true) (hd : d.len ≠ 0) :
    ∀ (full : List SinkWord), (∀ x ∈ full, x.last = false) →
      (sinkStatuses c [d] (full ++ [w])).map (·.len) = [min d.len (full.length * c.kw + sinkLead c w)] := by
  suffices key : ∀ (full : List SinkWord) (j : Nat), (∀ x ∈ full, x.last = false) →
      ((sinkEffects c [d] (full ++ [w]) j).filterMap (·.status)).map (·.len) =
        if j * c.kw < d.len then [min d.len ((j + full.length) * c.kw + sinkLead c w)] else [] by
    intro full h
    have := key full 0 h
    rw [Nat.zero_mul, if_pos (by omega), Nat.zero_add] at this
    exact this
  intro full
  induction full with
  | nil =>
    intro j _
    rw [List.nil_append, sinkEffects]
    simp only [hw, if_true, sinkEffects_nil, List.append_nil, List.length_nil, Nat.add_zero]
    split <;> simp
  | cons x full ih =>
    intro j h
    have hx := h x (List.mem_cons_self ..)
    have IH := ih (j + 1) fun y hy => h y (List.mem_cons_of_mem _ hy)
    rw [List.cons_append, sinkEffects]
    simp only [hx, Bool.false_eq_true, if_false, List.filterMap_append, List.map_append]
    rw [IH, List.length_cons, show j + 1 + full.length = j + (full.length + 1) by omega]
    have hm : (j + 1) * c.kw = j * c.kw + c.kw := by rw [Nat.add_mul, Nat.one_mul]
    have hm2 : (j + 1) * c.kw ≤ (j + (full.length + 1)) * c.kw := Nat.mul_le_mul_right _ (by omega)
    by_cases hj : j * c.kw < d.len
    · rw [if_pos hj, if_pos hj]
      by_cases hf : d.len ≤ (j + 1) * c.kw
      · rw [if_neg (by omega : ¬(j + 1) * c.kw < d.len)]
        simp [hf]
        omega
      · rw [if_pos (by omega : (j + 1) * c.kw < d.len)]
        simp [hf]
    · rw [if_neg hj, if_neg hj, if_neg (by omega : ¬(j + 1) * c.kw < d.len)]; rfl

/-! ### A history -/

/-- A stream of four bytes, RAM rows of 16 bytes in two segments. -/
def sinkExCfg : SrcCfg := { kb := 2, pb := 2, sc := 1, ramW := 12, lenW := 6 }

/-- A packet of 11 bytes for a buffer of 20 bytes at address 20, and a packet of 12 bytes for a buffer of 6 bytes at
address 64. -/
def sinkExIns : List SinkIn :=
  List.replicate 2 (sinkExIn true 20 20 1 false 0 0 false) ++ [sinkExIn false 0 0 0 false 0 0 false,
    sinkExIn false 0 0 1 true 1 15 false, sinkExIn false 0 0 1 true 5 15 false, sinkExIn false 0 0 1 true 9 7 true] ++
  List.replicate 2 (sinkExIn true 64 6 2 false 0 0 false) ++ [sinkExIn false 0 0 2 true 21 15 false,
    sinkExIn false 0 0 2 true 25 15 false, sinkExIn false 0 0 2 true 29 15 true] ++
  List.replicate 8 (sinkExIn false 0 0 0 false 0 0 false)

def sinkExReset : SinkIn := { sinkExIn false 0 0 0 false 0 0 false with rst := true }

def sinkExHistory (n : Nat) : List SinkIn :=
  sinkRamHistory sinkExCfg (fun _ => 0) (sinkStep sinkExCfg sinkState0 sinkExReset)
    (sinkExIns ++ List.replicate n (sinkExIn false 0 0 0 false 0 0 false))

theorem sinkEx_cfg : SinkCfgOk sinkExCfg := ⟨by decide, by decide, by decide, by decide⟩

/-- Non-vacuity: two descriptors and six words are taken; 11 and 6 bytes are written, and the statuses say so. -/
example : (sinkAccepted sinkExCfg (sinkStep sinkExCfg sinkState0 sinkExReset) (sinkExHistory 0)) =
      [⟨20, 20, 1⟩, ⟨64, 6, 2⟩] ∧
    (sinkWords sinkExCfg (sinkStep sinkExCfg sinkState0 sinkExReset) (sinkExHistory 0)).map (·.last) =
      [false, false, true, false, false, true] ∧
    (sinkTaken sinkExCfg 0 (sinkStep sinkExCfg sinkState0 sinkExReset) (sinkExHistory 0)).map (sinkCmdWrites sinkExCfg 0) =
      [[(20, 1), (21, 2), (22, 3), (23, 4)], [(64, 21), (65, 22), (66, 23), (67, 24)], [(68, 25), (69, 26)]] ∧
    (sinkTaken sinkExCfg 1 (sinkStep sinkExCfg sinkState0 sinkExReset) (sinkExHistory 0)).map (sinkCmdWrites sinkExCfg 1) =
      [[(24, 5), (25, 6), (26, 7), (27, 8)], [(28, 9), (29, 10), (30, 11)]] ∧
    sinkStatusOut sinkExCfg (sinkStep sinkExCfg sinkState0 sinkExReset) (sinkExHistory 0) = [⟨1, 11, 11⟩, ⟨2, 6, 12⟩] := by
  decide +kernel

/-- Non-vacuity of the hypotheses, with `C59_drain_partial`: the same history, continued for 300 cycles. -/
example : ∃ is quiet, SinkHistory sinkExCfg sinkState0 sinkExReset (is ++ quiet) ∧
    SinkQuiet sinkExCfg (sinkPendRun sinkExCfg (fun _ => 0) (sinkStep sinkExCfg sinkState0 sinkExReset) is)
      (sinkRun sinkExCfg (sinkStep sinkExCfg sinkState0 sinkExReset) is) quiet ∧
    93 * sinkExCfg.segs + 40 ≤ quiet.length ∧
    (sinkAccepted sinkExCfg (sinkStep sinkExCfg sinkState0 sinkExReset) is).length = 2 := by
  have hquiet : ∀ i ∈ List.replicate 300 (sinkExIn false 0 0 0 false 0 0 false),
      i.enable = true ∧ i.valid = false ∧ i.tvalid = false ∧ ∀ k, i.cmdReady k = true := by
    intro i hi
    rw [(List.mem_replicate.mp hi).2]
    exact ⟨rfl, rfl, rfl, fun _ => rfl⟩
  have hval : ∀ (is : List SinkIn) (pend : Nat → Nat) (s : Sink), (∀ i ∈ is, i.valid = false) →
      sinkAccepted sinkExCfg s (sinkRamHistory sinkExCfg pend s is) = [] := by
    intro is
    induction is with
    | nil => intro _ _ _; rfl
    | cons i is ih =>
      intro pend s h
      rw [sinkRamHistory, sinkAccepted_cons]
      rw [ih _ _ fun x hx => h x (List.mem_cons_of_mem _ hx)]
      simp [h i List.mem_cons_self]
  have e0 : sinkExHistory 0 =
      sinkRamHistory sinkExCfg (fun _ => 0) (sinkStep sinkExCfg sinkState0 sinkExReset) sinkExIns := by
    unfold sinkExHistory; simp
  have e1 : sinkAccepted sinkExCfg (sinkStep sinkExCfg sinkState0 sinkExReset) (sinkExHistory 0) = [⟨20, 20, 1⟩, ⟨64, 6, 2⟩] := by
    decide +kernel
  refine ⟨sinkExHistory 0, _, ⟨rfl, ?_, ?_, ?_⟩,
    sinkRamHistory_quiet _ (List.replicate 300 (sinkExIn false 0 0 0 false 0 0 false)) _ _ hquiet, ?_, ?_⟩
  · rw [e0, ← sinkRamHistory_append]
    refine sinkRamHistory_rst _ _ _ _ ?_
    have h0 : sinkExIns.all (fun i => !i.rst) = true := by decide
    intro i hi
    rcases List.mem_append.mp hi with hi | hi
    · simpa using List.all_eq_true.mp h0 i hi
    · rw [(List.mem_replicate.mp hi).2]; rfl
  · rw [e0, ← sinkRamHistory_append]
    exact sinkRamHistory_ok _ _ _ _
  · rw [sinkAccepted_append, e1, hval _ _ _ fun i hi => (hquiet i hi).2.1]
    intro d hd
    simp at hd
    rcases hd with rfl | rfl <;> decide
  · rw [sinkRamHistory_length, List.length_replicate]; decide
  · rw [e1]; rfl

/-- Non-vacuity of `C59_packet_length`: a packet of 2 words of 4 bytes and 3 bytes. -/
example : (sinkStatuses sinkExCfg [⟨0, 20, 5⟩] ([⟨fun _ => 0, 15, false, 0⟩, ⟨fun _ => 0, 15, false, 0⟩] ++ [⟨fun _ => 0, 7, true, 0⟩])).map
    (·.len) = [11] := by
  decide +kernel

/-! ### Where it fails -/

/-- A stream of one byte, RAM rows of four bytes in one segment. -/
def sinkExByteCfg : SrcCfg := { kb := 0, pb := 2, sc := 0, ramW := 12, lenW := 6 }

def sinkExByte : List SinkIn :=
  sinkRamHistory sinkExByteCfg (fun _ => 0) (sinkStep sinkExByteCfg sinkState0 sinkExReset)
    (List.replicate 2 (sinkExIn true 0 4 1 false 0 1 false) ++ [sinkExIn false 0 0 1 false 0 1 false,
      sinkExIn false 0 0 1 true 1 1 false, sinkExIn false 0 0 1 true 2 1 false,
      sinkExIn false 0 0 1 true 3 1 false, sinkExIn false 0 0 1 true 4 1 true] ++
      List.replicate 8 (sinkExIn false 0 0 0 false 0 1 false))

/-- **C58** is false for a stream of one byte: the byte lane is taken from address bits 2 and 1 and shifted by one, so a
packet of four bytes for address 0 writes bytes 0, 0, 2, 2. -/
theorem C58_byte_stream_fails :
    SinkRamOk sinkExByteCfg (fun _ => 0) (sinkStep sinkExByteCfg sinkState0 sinkExReset) sinkExByte ∧
    sinkWrites sinkExByteCfg (sinkAccepted sinkExByteCfg (sinkStep sinkExByteCfg sinkState0 sinkExReset) sinkExByte)
        (sinkWords sinkExByteCfg (sinkStep sinkExByteCfg sinkState0 sinkExReset) sinkExByte) =
      [(0, 1), (1, 2), (2, 3), (3, 4)] ∧
    (sinkTaken sinkExByteCfg 0 (sinkStep sinkExByteCfg sinkState0 sinkExReset) sinkExByte).flatMap (sinkCmdWrites sinkExByteCfg 0) =
      [(0, 1), (0, 2), (2, 3), (2, 4)] :=
  ⟨sinkRamHistory_ok _ _ _ _, by decide +kernel, by decide +kernel⟩

def sinkExZero : List SinkIn :=
  sinkRamHistory sinkExCfg (fun _ => 0) (sinkStep sinkExCfg sinkState0 sinkExReset)
    (List.replicate 2 (sinkExIn true 0 0 1 false 0 15 false) ++ [sinkExIn false 0 0 1 false 0 15 false,
      sinkExIn false 0 0 1 true 1 15 false, sinkExIn false 0 0 1 true 5 15 true] ++
      List.replicate 8 (sinkExIn false 0 0 0 false 0 1 false))

/-- **C58** is false for a descriptor of length 0: the word count wraps round, and the whole packet is written (here 8
bytes), beyond the buffer. -/
theorem C58_zero_length_fails :
    SinkRamOk sinkExCfg (fun _ => 0) (sinkStep sinkExCfg sinkState0 sinkExReset) sinkExZero ∧
    (sinkAccepted sinkExCfg (sinkStep sinkExCfg sinkState0 sinkExReset) sinkExZero) = [⟨0, 0, 1⟩] ∧
    sinkWrites sinkExCfg (sinkAccepted sinkExCfg (sinkStep sinkExCfg sinkState0 sinkExReset) sinkExZero)
      (sinkWords sinkExCfg (sinkStep sinkExCfg sinkState0 sinkExReset) sinkExZero) = [] ∧
    (sinkTaken sinkExCfg 0 (sinkStep sinkExCfg sinkState0 sinkExReset) sinkExZero).flatMap (sinkCmdWrites sinkExCfg 0) =
      [(0, 1), (1, 2), (2, 3), (3, 4), (4, 5), (5, 6), (6, 7), (7, 8)] :=
  ⟨sinkRamHistory_ok _ _ _ _, by decide +kernel, by decide +kernel, by decide +kernel⟩

end Verif.Props
