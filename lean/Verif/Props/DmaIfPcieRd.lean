import Verif.Proofs.DrdReqRun
/-!
C60: the PCIe DMA read interface asks for exactly the bytes of its descriptors.
-/
namespace Verif.Props
open Verif Verif.Model Verif.Spec Verif.Proofs

/-- C60. After reset, with a fixed requester ID and a maximum read request size of at most 2048 bytes (`mrrs ≤ 4`), and with
descriptors for which the sum of length and offset in the first DWORD fits in `max(LEN_WIDTH, 13)` bits: whatever the
descriptors, the completions and the timing of all handshakes, the requests put on the interface are well-formed memory
reads, none for more bytes than the maximum or across a 4 KB boundary, and they ask, in order, for the bytes of the accepted
descriptors: each descriptor gives some requests for its bytes in order, each once; a descriptor of length 0 gives one
request without enabled bytes. A prefix of the requests of all accepted descriptors has been put on the interface.

Missing from the property: `mrrs = 5`, see `C60_mrrs4096_fails`, and longer descriptors, see `C60_length_fails`. -/
theorem C60_requests_partial (c : DrdCfg) (hc : DrdCfgOk c) (mrrs rid : Nat) (hm : mrrs ≤ 4) (hrid : rid < 2 ^ 16) (s : Drd)
    (r : DrdIn) (is : List DrdIn) (hr : r.rst = true) (his : ∀ i ∈ is, i.rst = false)
    (hin : ∀ i ∈ r :: is, i.mrrs = mrrs ∧ i.requesterId = rid)
    (hd : ∀ d ∈ drdAccepted c (drdStep c s r) is, d.addr % 4 + d.len < 2 ^ max c.lenW 13) :
    (∀ h ∈ drdPresented c (drdStep c s r) is, ReadTlpOk c rid (128 * 2 ^ mrrs) h) ∧
    ∃ parts : RdDesc → List (List Nat),
      (∀ d ∈ drdAccepted c (drdStep c s r) is, RdSplitOf d (parts d)) ∧
      (drdPresented c (drdStep c s r) is).map rdHdrBytes <+: (drdAccepted c (drdStep c s r) is).flatMap parts :=
  drd_requests hc hm hrid s r is hr his hin hd

/-! ### Examples -/

/-- No tag table entry. -/
def drdTag0 : DrdTag := ⟨0, 0, 0, 0, 0, false⟩

/-- Cleared completion state. -/
def drdRx0 : DrdRx where
  st := .idle
  ready := false
  sel := 0
  addr := 0
  addrD := 0
  count := 0
  mask _ := false
  mask1 _ := false
  wrap := false
  startOff := 0
  endOff := 0
  tag := 0
  op := 0
  final := false
  finish := false
  offset := 0
  data _ := 0
  dataV := false
  stMask := false
  stFinish := false
  stError := 0
  stWr := false
  errCor := false
  errUncor := false

/-- Some state before reset. -/
def drdState0 : Drd where
  init := ⟨0, false, true, true⟩
  req := ⟨false, 0, 0, 0, 0, false, false⟩
  opTag := 0
  opTagV := false
  tag := 0
  tagV := false
  opFifo := ⟨0, 0, fun _ => 0⟩
  fifo1 := ⟨0, 0, fun _ => 0⟩
  fifo2 := ⟨0, 0, fun _ => 0⟩
  startEn := false
  startPtr := 0
  startE := drdTag0
  tags _ := drdTag0
  actA _ := false
  actB _ := false
  ops := ⟨fun _ => 0, fun _ => false, fun _ => false, fun _ => false, fun _ => 0, fun _ => 0, fun _ => false, fun _ => false, fun _ => 0⟩
  tx := ⟨0, 0, 0, 0⟩
  txV := false
  txCount := 0
  txAv := true
  cplh := 0
  cplhAv := true
  cpld := 0
  cpldAv := true
  mrrsDw := 32
  rcb := false
  rx := drdRx0
  pipe := ⟨0, fun _ => false, fun _ => 0, fun _ => 0, fun _ => false⟩
  fifo := ⟨0, 0, fun _ => ⟨0, fun _ => false, false, 0⟩⟩
  full := false
  cur := ⟨0, fun _ => false, false, 0⟩
  curV := false
  stTag := 0
  stErr := 0
  stV := false
  out _ := ⟨⟨0, 0, fun _ => ⟨0, fun _ => false, 0, fun _ => 0⟩⟩, false, false, ⟨0, fun _ => false, 0, fun _ => 0⟩⟩
  doneC _ := 0
  doneR _ := false

/-- 4-byte transfers, two RAM segments of 4 bytes, 8 KB RAMs, 4 tags and 2 operations. -/
def drdC (lenW : Nat) : DrdCfg :=
  { tb := 2, sc := 1, ramW := 13, lenW := lenW, tagW := 2, opW := 1, seqEn := false, txLimit := 4, cplhLimit := 0, cpldLimit := 0,
    force64 := false, checkBus := true }

/-- The reset input. -/
def drdR : DrdIn := { rst := true, requesterId := 0x123 }

/-- An idle input. -/
def drdIdle : DrdIn := { requesterId := 0x123 }

/-- A descriptor of 140 bytes at an odd address, and one of length 0. -/
def drdReqEx : List DrdIn :=
  List.replicate 6 drdIdle ++ [{ drdIdle with addr := 0xff1, len := 140, tag := 1, valid := true }] ++ List.replicate 3 drdIdle ++
    List.replicate 2 { drdIdle with addr := 0x123456780, len := 0, tag := 2, valid := true } ++ List.replicate 2 drdIdle

/-- The hypotheses of C60 hold in this history, in which both descriptors are accepted and requested. -/
example : DrdCfgOk (drdC 13) ∧ (∀ i ∈ drdReqEx, i.rst = false) ∧ (∀ i ∈ drdR :: drdReqEx, i.mrrs = 0 ∧ i.requesterId = 0x123) ∧
    (∀ d ∈ drdAccepted (drdC 13) (drdStep (drdC 13) drdState0 drdR) drdReqEx, d.addr % 4 + d.len < 2 ^ max (drdC 13).lenW 13) := by
  refine ⟨⟨by decide, by decide, by decide, by decide, by decide, by decide⟩, by decide, by decide, by decide +kernel⟩

example : (drdAccepted (drdC 13) (drdStep (drdC 13) drdState0 drdR) drdReqEx).map (·.len) = [140, 0] ∧
    (drdPresented (drdC 13) (drdStep (drdC 13) drdState0 drdR) drdReqEx).map (fun h => (rdHdrAddr h, hdrLen h, (rdHdrBytes h).length)) =
      [(0xff0, 4, 15), (0x1000, 32, 125), (0x123456780, 1, 0)] := by
  decide +kernel

/-- One descriptor, with maximum read request size `m`. -/
def drdOneEx (m addr len : Nat) : List DrdIn :=
  List.replicate 6 { drdIdle with mrrs := m } ++ [{ drdIdle with addr := addr, len := len, valid := true, mrrs := m }] ++
    List.replicate 2 { drdIdle with mrrs := m }

/-- C60 fails for a maximum read request size of 4096 bytes: after a descriptor for an aligned 4 KB page, the next page is
requested as well. -/
theorem C60_mrrs4096_fails : ∃ (c : DrdCfg) (s : Drd) (r : DrdIn) (is : List DrdIn), DrdCfgOk c ∧ r.rst = true ∧
    (∀ i ∈ is, i.rst = false) ∧ (∀ i ∈ r :: is, i.mrrs = 5 ∧ i.requesterId = 0x123) ∧
    (∀ d ∈ drdAccepted c (drdStep c s r) is, d.addr % 4 + d.len < 2 ^ max c.lenW 13) ∧
    ¬ ∃ parts : RdDesc → List (List Nat),
      (∀ d ∈ drdAccepted c (drdStep c s r) is, RdSplitOf d (parts d)) ∧
      (drdPresented c (drdStep c s r) is).map rdHdrBytes <+: (drdAccepted c (drdStep c s r) is).flatMap parts := by
  refine ⟨drdC 13, drdState0, { drdR with mrrs := 5 }, drdOneEx 5 0x1000 4096,
    ⟨by decide, by decide, by decide, by decide, by decide, by decide⟩, rfl, by decide, by decide, by decide +kernel, ?_⟩
  intro ⟨parts, h1, h2⟩
  have ha : drdAccepted (drdC 13) (drdStep (drdC 13) drdState0 { drdR with mrrs := 5 }) (drdOneEx 5 0x1000 4096) =
      [⟨0x1000, 0, 0, 4096, 0⟩] := by decide +kernel
  rw [ha] at h1 h2
  have h3 := (h1 _ (List.mem_singleton.mpr rfl)).1
  have h4 : ((drdPresented (drdC 13) (drdStep (drdC 13) drdState0 { drdR with mrrs := 5 }) (drdOneEx 5 0x1000 4096)).map
      rdHdrBytes).flatten.length = 8192 := by decide +kernel
  obtain ⟨t, ht⟩ := h2
  have h5 := congrArg (fun l => l.flatten.length) ht
  simp only [List.flatten_append, List.length_append, h4] at h5
  simp only [List.flatMap_cons, List.flatMap_nil, List.append_nil, h3, rdDescBytes, List.length_map, List.length_range] at h5
  omega

/-- C60 fails for descriptors longer than assumed: with `LEN_WIDTH = 16`, 65535 bytes at an odd address and a maximum read
request size of 128 bytes, the first request is for 4 KB. -/
theorem C60_length_fails : ∃ (c : DrdCfg) (s : Drd) (r : DrdIn) (is : List DrdIn), DrdCfgOk c ∧ r.rst = true ∧
    (∀ i ∈ is, i.rst = false) ∧ (∀ i ∈ r :: is, i.mrrs = 0 ∧ i.requesterId = 0x123) ∧
    ∃ h ∈ drdPresented c (drdStep c s r) is, ¬ ReadTlpOk c 0x123 128 h := by
  refine ⟨drdC 16, drdState0, drdR, drdOneEx 0 0x1001 65535,
    ⟨by decide, by decide, by decide, by decide, by decide, by decide⟩, rfl, by decide, by decide, ?_⟩
  have h : (drdPresented (drdC 16) (drdStep (drdC 16) drdState0 drdR) (drdOneEx 0 0x1001 65535)).any
      (fun h => decide (4 * hdrLen h = 4096)) = true := by decide +kernel
  obtain ⟨x, h1, h2⟩ := List.any_eq_true.mp h
  refine ⟨x, h1, fun h3 => ?_⟩
  have := h3.mrrs
  have := of_decide_eq_true h2
  omega

end Verif.Props
