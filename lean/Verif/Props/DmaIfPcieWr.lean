import Verif.Proofs.DwrFinal
import Verif.Proofs.DwrExample
/-!
C40, C41: the PCIe DMA write interface generates exactly the memory writes that its descriptors ask for, and reports
each descriptor once, in order.
-/
namespace Verif.Props
open Verif Verif.Model Verif.Spec Verif.Proofs

/-- C40. After reset, with a fixed requester ID and a maximum payload size of at most 2048 bytes (`mps ≤ 4`), and with
RAMs that answer reads as they should: whatever the descriptors and the timing of all handshakes, the TLPs sent are
well-formed memory writes, none with a payload above the maximum or across a 4 KB boundary, and they write, in order,
the bytes that the accepted descriptors ask for, descriptor by descriptor: each descriptor gives some TLPs that write
its bytes in order, each once; a descriptor of length 0 gives one TLP without enabled bytes. A prefix of the TLPs of
all accepted descriptors has been sent.

Missing from the property: `mps = 5`, see `C40_mps4096_fails`. -/
theorem C40_exact_partial (c : DwrCfg) (hc : DwrCfgOk c) (mem : Nat → Nat → UInt8) (mps rid : Nat) (hm : mps ≤ 4)
    (hrid : rid < 2 ^ 16) (s : Dwr) (r : DwrIn) (is : List DwrIn)
    (hr : r.rst = true) (his : ∀ i ∈ is, i.rst = false) (hin : ∀ i ∈ r :: is, i.mps = mps ∧ i.requesterId = rid)
    (hram : RamOk c mem (fun _ => []) (dwrStep c s r) is) :
    Framed true (dwrSent c (dwrStep c s r) is) ∧
    (∀ f ∈ frames (dwrSent c (dwrStep c s r) is), WriteTlpOk c rid (128 * 2 ^ mps) f) ∧
    ∃ parts : WrDesc → List (List (Nat × UInt8)),
      (∀ d ∈ dwrAccepted c (dwrStep c s r) is, SplitOf c mem d (parts d)) ∧
      (frames (dwrSent c (dwrStep c s r) is)).map (frameWrites c) <+: (dwrAccepted c (dwrStep c s r) is).flatMap parts := by
  obtain ⟨h1, h2, parts, n, h3, h4, _⟩ := dwr_main hc hm hrid s r is hr his hin hram
  have hp : frames (dwrSent c (dwrStep c s r) is) <+: frames (dwrPresented c (dwrStep c s r) is) :=
    framesAux_prefix [] _ _
  exact ⟨framed_prefix true _ _ h1, fun f hf => h2 f (hp.subset hf), parts, h3, (hp.map _).trans h4⟩

/-- C41. Under the same conditions, the statuses given so far are those of the first `n` accepted descriptors, once
each and in order, and all TLPs of these descriptors have been put on the transmit interface completely (the last
transfer may still be waiting for `tx_wr_req_tlp_ready`). -/
theorem C41_status_partial (c : DwrCfg) (hc : DwrCfgOk c) (mem : Nat → Nat → UInt8) (mps rid : Nat) (hm : mps ≤ 4)
    (hrid : rid < 2 ^ 16) (s : Dwr) (r : DwrIn) (is : List DwrIn)
    (hr : r.rst = true) (his : ∀ i ∈ is, i.rst = false) (hin : ∀ i ∈ r :: is, i.mps = mps ∧ i.requesterId = rid)
    (hram : RamOk c mem (fun _ => []) (dwrStep c s r) is) :
    ∃ parts : WrDesc → List (List (Nat × UInt8)), ∃ n,
      (∀ d ∈ dwrAccepted c (dwrStep c s r) is, SplitOf c mem d (parts d)) ∧
      n ≤ (dwrAccepted c (dwrStep c s r) is).length ∧
      dwrStatusNow c (dwrStep c s r) is = ((dwrAccepted c (dwrStep c s r) is).take n).map (·.tag) ∧
      ((dwrAccepted c (dwrStep c s r) is).take n).flatMap parts <+:
        (frames (dwrPresented c (dwrStep c s r) is)).map (frameWrites c) := by
  obtain ⟨_, _, parts, n, h3, _, h5, h6, h7⟩ := dwr_main hc hm hrid s r is hr his hin hram
  exact ⟨parts, n, h3, h5, h6, h7⟩

/-- C41 with sequence numbers. When `TX_SEQ_NUM_ENABLE` is set and sequence numbers come back only for TLPs that have
been sent, the TLPs of the descriptors whose status has been given have been transferred completely, and the sequence
numbers of all of them have come back: every TLP still waiting for its sequence number is a later one. -/
theorem C41_acknowledged_partial (c : DwrCfg) (hc : DwrCfgOk c) (hs : c.seqEn = true) (mem : Nat → Nat → UInt8)
    (mps rid : Nat) (hm : mps ≤ 4) (hrid : rid < 2 ^ 16) (s : Dwr) (r : DwrIn) (is : List DwrIn)
    (hr : r.rst = true) (his : ∀ i ∈ is, i.rst = false) (hin : ∀ i ∈ r :: is, i.mps = mps ∧ i.requesterId = rid)
    (hram : RamOk c mem (fun _ => []) (dwrStep c s r) is) (hseq : SeqOk c ⟨0, []⟩ (dwrStep c s r) is) :
    ∃ parts : WrDesc → List (List (Nat × UInt8)), ∃ n,
      (∀ d ∈ dwrAccepted c (dwrStep c s r) is, SplitOf c mem d (parts d)) ∧
      n ≤ (dwrAccepted c (dwrStep c s r) is).length ∧
      dwrStatusNow c (dwrStep c s r) is = ((dwrAccepted c (dwrStep c s r) is).take n).map (·.tag) ∧
      ((dwrAccepted c (dwrStep c s r) is).take n).flatMap parts <+:
        (frames (dwrSent c (dwrStep c s r) is)).map (frameWrites c) ∧
      ∀ k ∈ (seqRun c ⟨0, []⟩ (dwrStep c s r) is).out,
        (((dwrAccepted c (dwrStep c s r) is).take n).flatMap parts).length ≤ k :=
  dwr_ack hc hs hm hrid s r is hr his hin hram hseq

/-- C50. Sequence numbers: all transfers of TLP number `n` carry `n mod 2^opW`, and the TLPs that wait for their
sequence number have different ones, so that a number that comes back identifies its TLP. -/
theorem C50_sequence (c : DwrCfg) (mem : Nat → Nat → UInt8)
    (mps rid : Nat) (s : Dwr) (r : DwrIn) (is : List DwrIn)
    (hr : r.rst = true) (his : ∀ i ∈ is, i.rst = false) (hin : ∀ i ∈ r :: is, i.mps = mps ∧ i.requesterId = rid)
    (hram : RamOk c mem (fun _ => []) (dwrStep c s r) is) :
    SeqNumbered c 0 (dwrSent c (dwrStep c s r) is) ∧
    (c.seqEn = true → SeqOk c ⟨0, []⟩ (dwrStep c s r) is →
      ((seqRun c ⟨0, []⟩ (dwrStep c s r) is).out.map (· % 2 ^ c.opW)).Nodup) :=
  dwr_numbers s r is hr his hin hram

/-- C51. With sequence numbers enabled and a `TX_LIMIT` that is not one less than a power of two, at most `TX_LIMIT + 1`
TLPs have been started whose sequence number has not come back.

Missing from the property: the bound `TX_LIMIT` itself, see `C51_limit_fails`, and `TX_LIMIT = 2^k - 1`, see
`C51_saturation_fails`. -/
theorem C51_inflight_partial (c : DwrCfg) (hs : c.seqEn = true) (h0 : 1 ≤ c.txLimit)
    (hl : ∀ k, c.txLimit + 1 ≠ 2 ^ k) (mem : Nat → Nat → UInt8)
    (mps rid : Nat) (s : Dwr) (r : DwrIn) (is : List DwrIn)
    (hr : r.rst = true) (his : ∀ i ∈ is, i.rst = false) (hin : ∀ i ∈ r :: is, i.mps = mps ∧ i.requesterId = rid)
    (hram : RamOk c mem (fun _ => []) (dwrStep c s r) is) (hseq : SeqOk c ⟨0, []⟩ (dwrStep c s r) is) :
    (dwrPresented c (dwrStep c s r) is).countP (·.sop) ≤ (is.map (·.seqs.length)).sum + c.txLimit + 1 :=
  dwr_inflight hs h0 hl s r is hr his hin hram hseq

/-! ### Examples -/

/-- 4-byte transfers, two RAM segments of 4 bytes, 64-byte RAMs, 4 operations. -/
def dwrC : DwrCfg :=
  { tb := 2, sc := 1, ramW := 6, lenW := 12, opW := 2, immEn := true, seqEn := false, txLimit := 4, force64 := false }

/-- The RAM contents. -/
def dwrMem : Nat → Nat → UInt8 := fun sel a => UInt8.ofNat (a + 16 * sel)

/-- The reset input. -/
def dwrR : DwrIn := { rst := true, requesterId := 0x123 }

/-- An idle input. -/
def dwrIdle : DwrIn := { requesterId := 0x123 }

/-- Seven unaligned bytes, then a descriptor of length 0. -/
def dwrEx : List DwrIn :=
  [dwrIdle, { dwrIdle with addr := 0x1002, sel := 1, ram := 5, len := 7, tag := 9, valid := true }, dwrIdle,
   { dwrIdle with addr := 0x100, sel := 1, ram := 5, len := 0, tag := 3, valid := true }] ++ List.replicate 9 dwrIdle

/-- The history with a RAM that answers. -/
def dwrExHist : List DwrIn := ramHistory dwrC dwrMem (fun _ => []) (dwrStep dwrC dwrState0 dwrR) dwrEx

/-- The hypotheses hold in this history, in which both descriptors are accepted, completed, and sent as two TLPs. -/
example : DwrCfgOk dwrC ∧ dwrR.rst = true ∧ (∀ i ∈ dwrExHist, i.rst = false) ∧
    (∀ i ∈ dwrR :: dwrExHist, i.mps = 0 ∧ i.requesterId = 0x123) ∧
    RamOk dwrC dwrMem (fun _ => []) (dwrStep dwrC dwrState0 dwrR) dwrExHist := by
  refine ⟨⟨by decide, by decide, by decide⟩, rfl, ?_, ?_, ramHistory_ok ..⟩
  · exact ramHistory_inputs (P := fun i => i.rst = false) _ _ _ (fun _ _ h => h) (by decide)
  · intro i hi
    rcases List.mem_cons.mp hi with rfl | hi
    · exact ⟨rfl, rfl⟩
    · exact ramHistory_inputs (P := fun i => i.mps = 0 ∧ i.requesterId = 0x123) _ _ _ (fun _ _ h => h) (by decide) i hi

example : (dwrAccepted dwrC (dwrStep dwrC dwrState0 dwrR) dwrExHist).map (·.len) = [7, 0] ∧
    (frames (dwrSent dwrC (dwrStep dwrC dwrState0 dwrR) dwrExHist)).map (frameWrites dwrC) =
      [[(0x1002, 21), (0x1003, 22), (0x1004, 23), (0x1005, 24), (0x1006, 25), (0x1007, 26), (0x1008, 27)], []] ∧
    dwrStatusNow dwrC (dwrStep dwrC dwrState0 dwrR) dwrExHist = [9, 3] := by
  decide +kernel

/-- 128-byte transfers, and sequence numbers with `TX_LIMIT = l`. -/
def dwrCS (l : Nat) : DwrCfg :=
  { tb := 7, sc := 1, ramW := 16, lenW := 16, opW := 3, immEn := false, seqEn := true, txLimit := l, force64 := false }

/-- One descriptor of six TLPs of one transfer; a sequence number comes back in the cycles in `acks`. -/
def dwrExS (n : Nat) (acks : List Nat) : List (DwrIn × Bool) :=
  ({}, false) :: ({ addr := 0x10000, len := 768, tag := 5, valid := true }, false) ::
    (List.range n).map fun t => ({}, acks.contains t)

/-- The state after reset. -/
def dwrS0 (l : Nat) : Dwr := dwrStep (dwrCS l) dwrState0 { rst := true }

/-- The history with a RAM that answers. -/
def dwrHistS (l n : Nat) (acks : List Nat) : List DwrIn :=
  seqHistory (dwrCS l) dwrMem (fun _ => []) ⟨0, []⟩ (dwrS0 l) (dwrExS n acks)

/-- All hypotheses about the environment hold in such a history. -/
theorem dwrHistS_ok (l n : Nat) (acks : List Nat) :
    DwrCfgOk (dwrCS l) ∧ (dwrCS l).seqEn = true ∧ (∀ i ∈ dwrHistS l n acks, i.rst = false) ∧
    (∀ i ∈ ({ rst := true } : DwrIn) :: dwrHistS l n acks, i.mps = 0 ∧ i.requesterId = 0) ∧
    RamOk (dwrCS l) dwrMem (fun _ => []) (dwrS0 l) (dwrHistS l n acks) ∧
    SeqOk (dwrCS l) ⟨0, []⟩ (dwrS0 l) (dwrHistS l n acks) := by
  have hin : ∀ i ∈ dwrExS n acks, i.1.rst = false ∧ i.1.mps = 0 ∧ i.1.requesterId = 0 := by
    intro i hi
    simp only [dwrExS, List.mem_cons, List.mem_map] at hi
    rcases hi with rfl | rfl | ⟨_, _, rfl⟩ <;> exact ⟨rfl, rfl, rfl⟩
  have h := seqHistory_inputs (c := dwrCS l) (mem := dwrMem) (P := fun i => i.rst = false ∧ i.mps = 0 ∧ i.requesterId = 0)
    (dwrExS n acks) (fun _ => []) ⟨0, []⟩ (dwrS0 l) (fun _ _ _ h => h) hin
  refine ⟨⟨by simp [dwrCS], by simp [dwrCS], by simp [dwrCS]⟩, rfl, fun i hi => (h i hi).1, ?_,
    (seqHistory_ok ..).1, (seqHistory_ok ..).2⟩
  intro i hi
  rcases List.mem_cons.mp hi with rfl | hi
  · exact ⟨rfl, rfl⟩
  · exact (h i hi).2

/-- With `TX_LIMIT = 2` all six TLPs are sent, their sequence numbers come back, and the status is given. -/
example : (∀ k, (dwrCS 2).txLimit + 1 ≠ 2 ^ k) ∧
    (dwrPresented (dwrCS 2) (dwrS0 2) (dwrHistS 2 20 [6, 7, 8, 9, 11, 12, 14, 16, 17, 18])).countP (·.sop) = 6 ∧
    ((dwrHistS 2 20 [6, 7, 8, 9, 11, 12, 14, 16, 17, 18]).map (·.seqs.length)).sum = 6 ∧
    dwrStatusNow (dwrCS 2) (dwrS0 2) (dwrHistS 2 20 [6, 7, 8, 9, 11, 12, 14, 16, 17, 18]) = [5] := by
  refine ⟨?_, by decide +kernel, by decide +kernel, by decide +kernel⟩
  intro k hk
  match k, hk with
  | 0, hk => simp [dwrCS] at hk
  | 1, hk => simp [dwrCS] at hk
  | k + 2, hk => simp only [dwrCS, Nat.pow_succ] at hk; omega

/-! ### Where the property fails -/

/-- C51 fails for the bound `TX_LIMIT`: with `TX_LIMIT = 2` three TLPs are in flight although no sequence number has
come back, because a TLP is started together with the last transfer of the one before it, which is not counted yet
(`rtl/dma_if_pcie_wr.v` line 955). -/
theorem C51_limit_fails :
    ((dwrHistS 2 8 []).map (·.seqs.length)).sum + (dwrCS 2).txLimit <
      (dwrPresented (dwrCS 2) (dwrS0 2) (dwrHistS 2 8 [])).countP (·.sop) := by decide +kernel

/-- C51 fails for `TX_LIMIT = 2^k - 1` even by more than one: the counter then saturates at `TX_LIMIT`
(`rtl/dma_if_pcie_wr.v` lines 1010-1016), so that the TLPs in excess are forgotten. With `TX_LIMIT = 1` three TLPs are
in flight. -/
theorem C51_saturation_fails :
    ((dwrHistS 1 14 [9]).map (·.seqs.length)).sum + (dwrCS 1).txLimit + 1 <
      (dwrPresented (dwrCS 1) (dwrS0 1) (dwrHistS 1 14 [9])).countP (·.sop) := by decide +kernel

/-- A short descriptor with a stalled transmit interface. -/
def dwrExStall : List DwrIn :=
  [dwrIdle, { dwrIdle with addr := 0x100, len := 1, tag := 9, valid := true }] ++
    List.replicate 9 { dwrIdle with tlpReady := false }

/-- The history with a RAM that answers. -/
def dwrHistStall : List DwrIn := ramHistory dwrC dwrMem (fun _ => []) (dwrStep dwrC dwrState0 dwrR) dwrExStall

/-- C41 in its strict reading fails without sequence numbers: the status of a descriptor is given although its TLP has
not been accepted by the transmit interface, and may never be. -/
theorem C41_transferred_fails :
    RamOk dwrC dwrMem (fun _ => []) (dwrStep dwrC dwrState0 dwrR) dwrHistStall ∧
    dwrStatus dwrC (dwrStep dwrC dwrState0 dwrR) dwrHistStall = [9] ∧
    (dwrSent dwrC (dwrStep dwrC dwrState0 dwrR) dwrHistStall).length = 0 :=
  ⟨ramHistory_ok .., by decide +kernel, by decide +kernel⟩

/-- Transfers of 2048 bytes. -/
def dwrC5 : DwrCfg :=
  { tb := 11, sc := 1, ramW := 16, lenW := 16, opW := 2, immEn := false, seqEn := false, txLimit := 4, force64 := false }

/-- A descriptor of 4096 bytes with a maximum payload size of 4096 bytes. -/
def dwrEx5 : List DwrIn :=
  [{ mps := 5 }, { addr := 0x1000, len := 4096, tag := 9, valid := true, mps := 5 }] ++ List.replicate 9 { mps := 5 }

/-- The history with a RAM that answers. -/
def dwrHist5 : List DwrIn := ramHistory dwrC5 dwrMem (fun _ => []) (dwrStep dwrC5 dwrState0 { rst := true, mps := 5 }) dwrEx5

/-- C40 fails with a maximum payload size of 4096 bytes: a TLP of 4096 bytes is sent whose header gives a length of 1024
DWORDs and whose first transfer has no strobe, because the DWORD count and the length are held in registers of 10 and
12 bits (`rtl/dma_if_pcie_wr.v` lines 300-316). -/
theorem C40_mps4096_fails : DwrCfgOk dwrC5 ∧
    RamOk dwrC5 dwrMem (fun _ => []) (dwrStep dwrC5 dwrState0 { rst := true, mps := 5 }) dwrHist5 ∧
    (∀ i ∈ dwrHist5, i.rst = false ∧ i.mps = 5 ∧ i.requesterId = 0) ∧
    ∃ f ∈ frames (dwrSent dwrC5 (dwrStep dwrC5 dwrState0 { rst := true, mps := 5 }) dwrHist5), ¬ WriteTlpOk dwrC5 0 4096 f := by
  refine ⟨⟨by decide, by decide, by decide⟩, ramHistory_ok .., ?_, ?_⟩
  · exact ramHistory_inputs (P := fun i => i.rst = false ∧ i.mps = 5 ∧ i.requesterId = 0) _ _ _ (fun _ _ h => h) (by decide)
  · have h : (frames (dwrSent dwrC5 (dwrStep dwrC5 dwrState0 { rst := true, mps := 5 }) dwrHist5)).any (fun f =>
        f.head?.any fun b => hdrLen b.hdr == 1024 && f.length == 2 && b.strb == 0) = true := by decide +kernel
    rw [List.any_eq_true] at h
    obtain ⟨f, hf, h⟩ := h
    refine ⟨f, hf, fun hw => ?_⟩
    match f, h with
    | [b, b'], h =>
      simp only [List.head?_cons, Option.any_some, Bool.and_eq_true, beq_iff_eq] at h
      have h1 := hw.payload b rfl
      have h2 : beatBytes dwrC5 b = [] := by unfold beatBytes; rw [h.2]; simp
      have h3 : (beatBytes dwrC5 b').length ≤ 2048 := by
        unfold beatBytes
        refine Nat.le_trans (List.length_filterMap_le _ _) ?_
        rw [List.length_range]; decide
      simp [framePayload, h2, h.1] at h1
      omega
    | [], h => simp at h
    | [_], h => simp at h
    | _ :: _ :: _ :: _, h => simp at h

end Verif.Props
