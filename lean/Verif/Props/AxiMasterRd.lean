import Verif.Proofs.AxiMasterRdLegal
/-!
C74-C77: the AXI master for reads. The histories start with a reset in any state. `AxrHist` says for which histories the module is
meant: the settings are constant, the AXI slave answers bursts in order, the requests are no messages and no reads that cross a 4 KB
boundary, and unsupported requests come alone. The theorems with the suffix `_partial` are for these histories; with messages, with
unsupported requests among reads, and with bursts of more than 256 transfers the properties do not hold.
-/
namespace Verif.Props
open Verif Verif.Model Verif.Spec Verif.Proofs

/-! ### C74: completions -/

/-- **C74** (partial: histories `AxrHist`). At any time the words sent are the first of those of the completions that the requests
received need, in order: header fields, data read for the request, strobes and ends. -/
theorem C74_data_partial (c : AxrCfg) (hc : AxrCfgOk c) (m cid : Nat) (hm : m < 8) (hcid : cid < 2 ^ 16) (mem : Nat → Nat → UInt8) (s : Axr) (r : AxrIn)
    (hr : r.rst = true) (is : List AxrIn) (hh : AxrHist c m cid mem (axrStep c s r) is) :
    (axrSent c (axrStep c s r) is).map (axrView (2 ^ c.tb)) <+:
      jobsWords (2 ^ c.tb) mem 0 ((axrReqs c (axrStep c s r) is).flatMap fun i => axrJobs c m cid i.hdr) := by
  obtain ⟨done, cu, cm, re, h⟩ := axr_run c hc m cid hm hcid mem s r hr is hh
  unfold AxrAt at h
  refine (List.prefix_append _ _).trans (l₂ := _ ++ (skidQ (axrRun c (axrStep c s r) is).out).map (axrView (2 ^ c.tb))) ?_
  rw [h.T.ws, h.jobs]
  simp only [List.append_assoc]
  rw [jobsWords_append]
  refine (List.prefix_append_right_inj _).2 ?_
  rw [Nat.zero_add]
  cases cu with
  | none => exact List.nil_prefix
  | some x =>
    obtain ⟨j, ni, no⟩ := x
    simp only [cuJ, Option.map_some, Option.toList_some, List.cons_append, List.nil_append, jobsWords, cuWords]
    exact (List.take_prefix _ _).trans (List.prefix_append _ _)

/-- **C74**. The completions for a read bring all its bytes once and in order. Each has between one byte and the maximum payload, and
all but the first start at multiples of 128 bytes. -/
theorem C74_parts (c : AxrCfg) (hc : AxrCfgOk c) (m cid : Nat) (h : TlpHdr) (hr : tlpIsRead h = true) :
    (∃ j, (axrJobs c m cid h).head? = some j ∧ j.addr = axrTlpAddr c h) ∧
    (∀ k x y, (axrJobs c m cid h)[k]? = some x → (axrJobs c m cid h)[k + 1]? = some y → y.addr = x.addr + x.bytes ∧ y.addr % 128 = 0) ∧
    ((axrJobs c m cid h).map (·.bytes)).sum = 4 * hdrLen h ∧
    (∀ x ∈ axrJobs c m cid h, 0 < x.bytes ∧ x.bytes ≤ 128 * 2 ^ m ∧ x.cpl.len = x.bytes / 4 % 1024) := by
  obtain ⟨m1, m2, m3, _⟩ := axrMax_rng c hc m
  obtain ⟨e1, e2, e3, e4, e5, e6⟩ := readEnd_rng h
  have ha4 := (axrTlpAddr_mod4 c hc h).1
  obtain ⟨p1, p2, p3⟩ := parts_chain _ m1 m3 (4 * hdrLen h) (axrTlpAddr c h) (4 * hdrLen h) (by omega) (by omega) ha4 (by omega)
  obtain ⟨q1, _⟩ := parts_sum _ m1 m3 (4 * hdrLen h) (axrTlpAddr c h) (4 * hdrLen h) (by omega) ha4 (by omega)
  unfold axrJobs
  rw [if_pos hr]
  have hle : axrMax c m ≤ 128 * 2 ^ m := Nat.mul_le_mul_left _ (Nat.pow_le_pow_right (by decide) (Nat.min_le_left _ _))
  generalize readParts (axrMax c m) (4 * hdrLen h) (axrTlpAddr c h) (4 * hdrLen h) = l at *
  refine ⟨?_, ?_, ?_, ?_⟩
  · cases l with
    | nil => cases p1
    | cons x xs => exact ⟨_, rfl, by show x.1 = _; simpa using p1⟩
  · intro k x y hx hy
    simp only [List.getElem?_map, Option.map_eq_some_iff] at hx hy
    obtain ⟨x, hx, rfl⟩ := hx
    obtain ⟨y, hy, rfl⟩ := hy
    exact p2 k x y hx hy
  · rw [List.map_map]; exact q1
  · intro x hx
    obtain ⟨y, hy, rfl⟩ := List.mem_map.1 hx
    have := p3 y hy
    exact ⟨this.2.2.1, Nat.le_trans this.2.2.2 hle, rfl⟩

/-! ### C75: the AXI channels -/

/-- **C75** (partial: histories `AxrHist`). The bursts are the first of those that the completions need, one for each completion with
data and in order; the last one may wait to be accepted. -/
theorem C75_bursts_partial (c : AxrCfg) (hc : AxrCfgOk c) (m cid : Nat) (hm : m < 8) (hcid : cid < 2 ^ 16) (mem : Nat → Nat → UInt8) (s : Axr) (r : AxrIn)
    (hr : r.rst = true) (is : List AxrIn) (hh : AxrHist c m cid mem (axrStep c s r) is) :
    axrArs c (axrStep c s r) is ++
        (if (axrRun c (axrStep c s r) is).arV then [((axrRun c (axrStep c s r) is).araddr, (axrRun c (axrStep c s r) is).arlen)] else []) <+:
      ((axrReqs c (axrStep c s r) is).flatMap fun i => axrJobs c m cid i.hdr).filterMap (jobBurst (2 ^ c.tb)) := by
  obtain ⟨done, cu, cm, re, h⟩ := axr_run c hc m cid hm hcid mem s r hr is hh
  unfold AxrAt at h
  rw [h.ars, h.jobs, List.filterMap_append (l := done ++ cuJ cu ++ cm.toList)]
  exact List.prefix_append _ _

/-- **C75** (partial: histories `AxrHist`). No burst crosses a 4 KB boundary or has more than 256 transfers. If the maximum burst
length is a power of two, a burst that starts in the first DWORD of the bus has at most that length, and any other one transfer more. -/
theorem C75_legal_partial (c : AxrCfg) (hc : AxrCfgOk c) (m cid : Nat) (hm : m < 8) (hcid : cid < 2 ^ 16) (mem : Nat → Nat → UInt8) (s : Axr) (r : AxrIn)
    (hr : r.rst = true) (is : List AxrIn) (hh : AxrHist c m cid mem (axrStep c s r) is) :
    ∀ b ∈ axrArs c (axrStep c s r) is, (b.1 / 2 ^ c.tb * 2 ^ c.tb) % 4096 + (b.2 + 1) * 2 ^ c.tb ≤ 4096 ∧ b.2 + 1 ≤ 256 ∧
      (∀ k, c.burst = 2 ^ k → b.2 + 1 ≤ c.burst + 1 ∧ (b.1 % 2 ^ c.tb < 4 → b.2 + 1 ≤ c.burst)) := by
  intro b hb
  obtain ⟨done, cu, cm, re, h⟩ := axr_run c hc m cid hm hcid mem s r hr is hh
  unfold AxrAt at h
  have hb2 : b ∈ (done ++ cuJ cu ++ cm.toList).filterMap (jobBurst (2 ^ c.tb)) := by
    rw [← h.ars]; exact List.mem_append_left _ hb
  obtain ⟨j, hj, hjb⟩ := List.mem_filterMap.1 hb2
  unfold jobBurst at hjb
  split at hjb
  · cases hjb
  · rename_i hj0
    cases hjb
    obtain ⟨hk, hf⟩ := (h.ok j hj).resolve_left hj0
    have hjm : j ∈ (axrReqs c (axrStep c s r) is).flatMap fun i => axrJobs c m cid i.hdr := by
      rw [h.jobs]; exact List.mem_append_left _ hj
    obtain ⟨x, hx, hjx⟩ := List.mem_flatMap.1 hjm
    obtain ⟨hrd, _⟩ := job_of_read c m cid x.hdr j hjx hj0
    obtain ⟨_, hpg, _⟩ := (hh.reqs x hx).2 hrd
    obtain ⟨l1, l2, l3⟩ := burst_legal c hc m cid x.hdr j hjx hj0 hk hf hpg
    have hnb := (jobN_rel c hc j hk)
    have e : (j.addr % 2 ^ c.tb + j.bytes + 2 ^ c.tb - 1) / 2 ^ c.tb - 1 + 1 = jobNb c j := by
      show jobNb c j - 1 + 1 = jobNb c j; omega
    simp only [e]
    refine ⟨l1, l2, fun k hk2 => ⟨(l3 k hk2).1, fun h4 => (l3 k hk2).2 ?_⟩⟩
    obtain ⟨y, hy, hjy⟩ := (job_of_read c m cid x.hdr j hjx hj0).2
    have hle : j.addr ≤ j.first := by rw [hjy]; exact Nat.le_max_left _ _
    have d1 := Nat.div_add_mod j.addr (2 ^ c.tb)
    have d2 := Nat.div_add_mod j.first (2 ^ c.tb)
    rw [hf] at d2
    have ha := (job_rel c hc j hk).2.1
    omega

/-- **C75**. What is presented on the read address channel and at the completion output does not change until it is accepted, in any
state. -/
theorem C75_stable (c : AxrCfg) (p : Axr) (i : AxrIn) (hi : i.rst = false) :
    (p.arV = true → i.arReady = false → (axrStep c p i).arV = true ∧ (axrStep c p i).araddr = p.araddr ∧ (axrStep c p i).arlen = p.arlen) ∧
    (p.out.outV = true → i.txReady = false → (axrStep c p i).out.outV = true ∧ (axrStep c p i).out.out = p.out.out) := by
  rw [axrStep_norst c p i hi]
  constructor
  · intro hv ha
    have hq : axrIssue p = false := by unfold axrIssue; rw [hv]; simp
    refine ⟨?_, ?_, ?_⟩
    · show (axrIssue p || (p.arV && !i.arReady)) = true
      rw [hv, ha]; simp
    · show (if axrIssue p then _ else p.araddr) = p.araddr
      rw [hq]; rfl
    · show (if axrIssue p then _ else p.arlen) = p.arlen
      rw [hq]; rfl
  · intro hv ha
    show (skidStep false p.out _ _ i.txReady).outV = true ∧ (skidStep false p.out _ _ i.txReady).out = p.out.out
    rw [ha]
    unfold skidStep
    cases p.out.ready <;> simp [hv]

/-! ### C76: errors -/

/-- **C76** (partial: no messages; reads of one word). The error outputs are active in the cycles that follow the first word of a
request, as the request asks for, and in no other cycle. -/
theorem C76_errors_partial (c : AxrCfg) (s : Axr) (r : AxrIn) (hr : r.rst = true) (is : List AxrIn) (i : AxrIn) (hn : ∀ j ∈ is ++ [i], j.rst = false)
    (hq : ∀ x ∈ axrReqs c (axrStep c s r) (is ++ [i]), AxReqOk x.hdr ∧ (tlpIsRead x.hdr = true → x.eop = true)) :
    ((axrStep c s r).errCor, (axrStep c s r).errUncor) = (false, false) ∧
    ((axrRun c (axrStep c s r) (is ++ [i])).errCor, (axrRun c (axrStep c s r) (is ++ [i])).errUncor) =
      if (axrReqs c (axrStep c s r) (is ++ [i])).length = (axrReqs c (axrStep c s r) is).length then (false, false) else axrPulse i.hdr :=
  ⟨by unfold axrStep; rw [hr]; rfl, axr_err c s r hr is i hn hq⟩

/-! ### C77: progress -/

/-- **C77** (partial: histories `AxrHist`). If completions and read addresses are accepted and data is there, within 2294 cycles as many
completions have been sent as the requests received before need. -/
theorem C77_done_partial (c : AxrCfg) (hc : AxrCfgOk c) (m cid : Nat) (hm : m < 8) (hcid : cid < 2 ^ 16) (mem : Nat → Nat → UInt8) (s : Axr) (r : AxrIn)
    (hr : r.rst = true) (is js : List AxrIn) (hh : AxrHist c m cid mem (axrStep c s r) (is ++ js)) (hg : AxrGood c mem (axrStep c s r) is js)
    (hl : 2294 ≤ js.length) : ((axrReqs c (axrStep c s r) is).flatMap fun i => axrJobs c m cid i.hdr).length ≤
      ((axrSent c (axrStep c s r) (is ++ js)).filter (·.eop)).length :=
  axr_done c hc m cid hm hcid mem s r hr is js hh hg hl

/-- **C77** (partial: histories `AxrHist`). If completions and read addresses are accepted and data is there, within 2294 cycles the
module is ready for a request. -/
theorem C77_ready_partial (c : AxrCfg) (hc : AxrCfgOk c) (m cid : Nat) (hm : m < 8) (hcid : cid < 2 ^ 16) (mem : Nat → Nat → UInt8) (s : Axr) (r : AxrIn)
    (hr : r.rst = true) (is js : List AxrIn) (hh : AxrHist c m cid mem (axrStep c s r) (is ++ js)) (hg : AxrGood c mem (axrStep c s r) is js)
    (hl : 2294 ≤ js.length) : ∃ n, n ≤ js.length ∧ (axrRun c (axrStep c s r) (is ++ js.take n)).rxReady = true :=
  axr_ready c hc m cid hm hcid mem s r hr is js hh hg hl

/-! ### Concrete cases -/

/-- What the AXI slave reads. -/
def axrExMem (n a : Nat) : UInt8 := UInt8.ofNat (a + 16 * n)

/-- The inputs in one cycle; data is that of a burst at an address. -/
def axrEx (h : TlpHdr) (valid tx ar : Bool) (beat : Option (Nat × Nat)) : AxrIn :=
  { hdr := h, valid := valid, sop := true, eop := true, txReady := tx, arReady := ar,
    rData := fun k => (beat.map fun x => axrExMem x.1 (x.2 + k)).getD 0xee, rValid := beat.isSome, cid := 0x1234, mps := 0 }

/-- A reset. -/
def axrExRst : AxrIn := { axrEx ⟨0, 0, 0, 0⟩ true true true none with rst := true }

/-- A word without content. -/
def axrExWord : AxrWord := ⟨fun _ => 0, fun _ => false, ⟨0, 0, 0, 0⟩, false, false⟩

/-- A state in the middle of a transfer. -/
def axrExState : Axr :=
  { st := .start, ts := .transfer, addr := 5, op := 7, dw := 3, cmd := ⟨1, 2, 3, 4, 5, 6, 7, 8, 9, 10, 11, true⟩, cmdV := true, lower := 4,
    len := 3, off := 1, dws := 9, inC := 3, outC := 5, inA := true, bubble := true, lastC := false, status := 3, rid := 3, tag := 3, tc := 4,
    attr := 1, mps := 77, rxReady := true, araddr := 9, arlen := 9, arV := true, rReady := true, save := fun _ => 9, errCor := true,
    errUncor := true, out := ⟨true, true, axrExWord, true, axrExWord⟩ }

/-- A 64-bit bus and bursts of 16 transfers. -/
def axrExC : AxrCfg := { tb := 3, addrW := 32, burst := 16, force64 := false }

theorem axrExC_ok : AxrCfgOk axrExC := ⟨by decide, by decide, by decide, by decide⟩

/-- The state after the reset. -/
def axrEx0 : Axr := axrStep axrExC axrExState axrExRst

/-- A read of 3 DWORDs from 0x104 with byte enables 1110 and 0011 and tag 1. -/
def axrExR : TlpHdr := ⟨0x00000003, 0xab00013e, 0x104, 0⟩

/-- An IO read with tag 2. -/
def axrExU : TlpHdr := ⟨0x02000001, 0xab00020f, 0x40, 0⟩

/-- A read of one DWORD from 0x200 with tag 3. -/
def axrExR1 : TlpHdr := ⟨0x00000001, 0xab00030f, 0x200, 0⟩

/-- A cycle without request. -/
def axrExI (beat : Option (Nat × Nat)) : AxrIn := axrEx ⟨0, 0, 0, 0⟩ false true true beat

/-- A read, an IO read and another read, with pauses at all interfaces. -/
def axrExIs : List AxrIn :=
  [axrEx axrExR true true true none, axrEx axrExR true true true none, axrEx axrExU false true true none, axrEx axrExU false true false none,
   axrEx axrExU false true true none, axrExI (some (0, 256)), axrExI none, axrExI (some (0, 264)), axrEx axrExU false false true none,
   axrEx axrExU false false true none, axrExI none, axrExI none, axrExI none, axrEx axrExU true true true none, axrExI none, axrExI none,
   axrExI none, axrExI none, axrEx axrExR1 true true true none, axrExI none, axrExI none, axrExI (some (1, 512)), axrExI none, axrExI none]

/-- The conditions on a history, by its prefixes. -/
def axrHistB (c : AxrCfg) (m cid : Nat) (mem : Nat → Nat → UInt8) (s : Axr) (is : List AxrIn) : Bool :=
  (is.all fun i => !i.rst && i.mps == m && i.cid == cid) &&
  ((List.range (is.length + 1)).all fun n =>
    ((axrRs c s (is.take n)).map fun d => (List.range (2 ^ c.tb)).map d).isPrefixOf (burstData (2 ^ c.tb) mem 0 (axrArs c s (is.take n)))) &&
  ((List.range is.length).all fun n =>
    (axrReqs c s (is.take (n + 1))).length == (axrReqs c s (is.take n)).length ||
    (!((axrReqs c s (is.take (n + 1))).getLast?.any fun x => tlpIsUr x.hdr) && !((axrReqs c s (is.take n)).getLast?.any fun x => tlpIsUr x.hdr)) ||
    ((axrSent c s (is.take n)).filter (·.eop)).length == ((axrReqs c s (is.take n)).flatMap fun i => axrJobs c m cid i.hdr).length) &&
  ((axrReqs c s is).all fun i => !tlpIsMsg i.hdr && !tlpIsPrefix i.hdr && (!tlpIsRead i.hdr || (i.eop &&
    decide (axrTlpAddr c i.hdr % 4096 + 4 * hdrLen i.hdr ≤ 4096 ∧
      (4 * hdrLen i.hdr ≤ axrMax c m → axrTlpAddr c i.hdr % 2 ^ c.tb + 4 * hdrLen i.hdr ≤ 256 * 2 ^ c.tb)))))

theorem axrHistB_spec (c : AxrCfg) (m cid : Nat) (mem : Nat → Nat → UInt8) (s : Axr) (is : List AxrIn) (h : axrHistB c m cid mem s is = true) :
    AxrHist c m cid mem s is := by
  unfold axrHistB at h
  simp only [Bool.and_eq_true] at h
  obtain ⟨⟨⟨h1, h2⟩, h3⟩, h4⟩ := h
  rw [List.all_eq_true] at h1 h2 h3 h4
  refine ⟨?_, ?_, ?_, ?_⟩
  · intro i hi
    have := h1 i hi
    simp only [Bool.and_eq_true, Bool.not_eq_true', beq_iff_eq] at this
    exact ⟨this.1.1, this.1.2, this.2⟩
  · intro pre hp
    have e := List.prefix_iff_eq_take.1 hp
    have := h2 pre.length (List.mem_range.2 (by have := hp.length_le; omega))
    rw [← e] at this
    exact List.isPrefixOf_iff_prefix.1 this
  · intro pre i x hp hx hu
    have hlen := hp.length_le
    simp only [List.length_append, List.length_cons, List.length_nil] at hlen
    have e1 : is.take pre.length = pre := (List.prefix_iff_eq_take.1 ((List.prefix_append _ _).trans hp)).symm
    have e2 : is.take (pre.length + 1) = pre ++ [i] := by
      have := List.prefix_iff_eq_take.1 hp
      simpa using this.symm
    have := h3 pre.length (List.mem_range.2 (by omega))
    rw [e1, e2, hx] at this
    simp only [List.length_append, List.length_cons, List.length_nil, List.getLast?_append, List.getLast?_singleton, Option.some_or, Option.any_some] at this
    unfold AxrQuiet
    simp only [Bool.or_eq_true, beq_iff_eq] at this
    rcases this with (this | this) | this
    · omega
    · exfalso
      simp only [Bool.and_eq_true, Bool.not_eq_true'] at this
      rcases hu with hu | ⟨y, hy, hu⟩
      · rw [this.1] at hu; cases hu
      · rw [hy, Option.any_some, hu] at this; cases this.2
    · exact this
  · intro x hx
    have := h4 x hx
    simp only [Bool.and_eq_true, Bool.not_eq_true', Bool.or_eq_true, decide_eq_true_eq] at this
    refine ⟨⟨this.1.1, this.1.2⟩, fun hr => ?_⟩
    rcases this.2 with h | h
    · rw [hr] at h; cases h
    · exact ⟨h.1, h.2.1, h.2.2⟩

/-- The hypotheses of the theorems hold for the example. -/
theorem axrEx_hist : AxrHist axrExC 0 0x1234 axrExMem axrEx0 axrExIs := axrHistB_spec _ _ _ _ _ _ (by decide +kernel)

/-- All three requests have been received, and their completions have been sent. -/
example : (axrReqs axrExC axrEx0 axrExIs).map (·.hdr.dw0) = [3, 0x02000001, 1] ∧
    (axrSent axrExC axrEx0 axrExIs).map (fun w => ((cplRec w.hdr).status, (cplRec w.hdr).count, (cplRec w.hdr).lower, (axrView 8 w).2.1)) =
      [(0, 9, 5, [some 4, some 5, some 6, some 7, some 8, some 9, some 10, some 11]),
       (0, 9, 5, [some 12, some 13, some 14, some 15, none, none, none, none]),
       (1, 0, 5, [none, none, none, none, none, none, none, none]),
       (0, 4, 0, [some 16, some 17, some 18, some 19, none, none, none, none])] ∧
    axrArs axrExC axrEx0 axrExIs = [(0x105, 1), (0x200, 0)] := ⟨by decide +kernel, by decide +kernel, by decide +kernel⟩

/-- A read of 96 DWORDs from 0x104 is answered with four completions. -/
example : (axrJobs axrExC 0 0x1234 ⟨0x00000060, 0xab00013e, 0x104, 0⟩).map (fun j => (j.addr, j.bytes, j.cpl.len, j.cpl.count, j.cpl.lower)) =
    [(0x104, 124, 31, 381, 5), (0x180, 128, 32, 258, 0), (0x200, 128, 32, 130, 0), (0x280, 4, 1, 2, 0)] := by decide +kernel

/-- A state in which nothing is going on. -/
structure AxrRest (e : Axr) : Prop where
  st : e.st = .idle
  ts : e.ts = .idle
  cmdV : e.cmdV = false
  arV : e.arV = false
  rReady : e.rReady = false

theorem axrRest_step (c : AxrCfg) (e : Axr) (h : AxrRest e) (i : AxrIn) (hr : i.rst = false) (hv : i.valid = false) : AxrRest (axrStep c e i) := by
  have hh : axrHead e i = false := by unfold axrHead; rw [hv]; simp
  have hi : axrIssue e = false := by unfold axrIssue; rw [h.st]; rfl
  rw [axrStep_norst c e i hr]
  refine ⟨?_, ?_, ?_, ?_, ?_⟩
  · show axrStNext e i = .idle
    unfold axrStNext; rw [h.st, hh]; rfl
  · show axrTsNext e i = .idle
    unfold axrTsNext; rw [h.ts, h.cmdV]; rfl
  · show ((axrHead e i && axrIsUr i.hdr) || axrIssue e || (e.cmdV && !axrLoad e i)) = false
    rw [hh, hi, h.cmdV]; rfl
  · show (axrIssue e || (e.arV && !i.arReady)) = false
    rw [hi, h.arV]; rfl
  · show axrRNext e i = false
    unfold axrRNext; rw [h.ts, h.cmdV]; rfl

/-- After a history with all data read, in a state in which nothing is going on, cycles without request meet the hypotheses of the
theorems about progress. -/
theorem axrRest_ext (c : AxrCfg) (m cid : Nat) (mem : Nat → Nat → UInt8) (s : Axr) (is : List AxrIn) (hh : AxrHist c m cid mem s is)
    (he : AxrRest (axrRun c s is)) (hd : (axrRs c s is).length = (burstData (2 ^ c.tb) mem 0 (axrArs c s is)).length) (i : AxrIn) (hr : i.rst = false)
    (hm : i.mps = m) (hc : i.cid = cid) (hv : i.valid = false) (ht : i.txReady = true) (ha : i.arReady = true) (n : Nat) :
    AxrHist c m cid mem s (is ++ List.replicate n i) ∧ AxrGood c mem s is (List.replicate n i) := by
  have key : ∀ k, AxrRest (axrRun c s (is ++ List.replicate k i)) ∧ axrReqs c s (is ++ List.replicate k i) = axrReqs c s is ∧
      axrRs c s (is ++ List.replicate k i) = axrRs c s is ∧ axrArs c s (is ++ List.replicate k i) = axrArs c s is := by
    intro k
    induction k with
    | zero => simp [he]
    | succ k ih =>
      obtain ⟨h1, h2, h3, h4⟩ := ih
      rw [List.replicate_succ', ← List.append_assoc, axrRun_snoc, axrRs_snoc, axrArs_snoc, h1.rReady, h1.arV, h3, h4]
      refine ⟨axrRest_step c _ h1 i hr hv, ?_, by simp, by simp⟩
      unfold axrReqs at h2 ⊢
      rw [axrTaken_snoc, hv, Bool.and_false]
      simpa using h2
  have split : ∀ pre, pre <+: is ++ List.replicate n i → pre <+: is ∨ ∃ k, pre = is ++ List.replicate k i := by
    intro pre hp
    rcases List.prefix_or_prefix_of_prefix hp (List.prefix_append is _) with h | ⟨t, rfl⟩
    · exact Or.inl h
    · refine Or.inr ⟨t.length, ?_⟩
      have ht := (List.prefix_append_right_inj is).1 hp
      have h1 := List.prefix_iff_eq_take.1 ht
      have h2 := ht.length_le
      rw [List.take_replicate] at h1
      rw [List.length_replicate] at h2
      rw [Nat.min_eq_left h2] at h1
      rw [← h1]
  refine ⟨⟨?_, ?_, ?_, ?_⟩, ?_⟩
  · intro x hx
    rcases List.mem_append.1 hx with hx | hx
    · exact hh.set x hx
    · rw [List.eq_of_mem_replicate hx]; exact ⟨hr, hm, hc⟩
  · intro pre hp
    rcases split pre hp with h | ⟨k, rfl⟩
    · exact hh.slave pre h
    · rw [(key k).2.2.1, (key k).2.2.2]; exact hh.slave is (List.prefix_refl _)
  · intro pre j x hp hx hu
    rcases split _ hp with h | ⟨k, hk⟩
    · exact hh.alone pre j x h hx hu
    · cases k with
      | zero => simp only [List.replicate_zero, List.append_nil] at hk; exact hh.alone pre j x (by rw [hk]; exact List.prefix_refl _) hx hu
      | succ k =>
        exfalso
        have e : pre ++ [j] = (is ++ List.replicate k i) ++ [i] := by rw [hk, List.replicate_succ', List.append_assoc]
        obtain ⟨e1, _⟩ := List.append_inj' e rfl
        rw [hk, (key (k + 1)).2.1, e1, (key k).2.1] at hx
        have := congrArg List.length hx
        simp at this
  · intro x hx
    rw [(key n).2.1] at hx
    exact hh.reqs x hx
  · intro pre j hp hp2
    obtain ⟨t, rfl⟩ := hp
    rcases split _ hp2 with h | ⟨k, hk⟩
    · have := h.length_le; simp at this; omega
    · have e := hk
      rw [List.append_assoc] at e
      have e := List.append_cancel_left e
      have hj : j = i := List.eq_of_mem_replicate (n := k) (by rw [← e]; simp)
      have hk1 : t = List.replicate (k - 1) i := by
        cases k with
        | zero => simp at e
        | succ k => rw [List.replicate_succ'] at e; exact (List.append_inj' e rfl).1
      refine ⟨by rw [hj, ht], by rw [hj, ha], ?_⟩
      rw [hk1, (key (k - 1)).2.2.1, (key (k - 1)).2.2.2]
      intro hlt; omega

/-- The hypotheses of the theorems about progress hold for the example and 2294 more cycles. -/
example : AxrHist axrExC 0 0x1234 axrExMem axrEx0 (axrExIs ++ List.replicate 2294 (axrExI none)) ∧
    AxrGood axrExC axrExMem axrEx0 axrExIs (List.replicate 2294 (axrExI none)) :=
  axrRest_ext _ _ _ _ _ _ axrEx_hist ⟨by decide +kernel, by decide +kernel, by decide +kernel, by decide +kernel, by decide +kernel⟩
    (by decide +kernel) (axrExI none) rfl rfl rfl rfl rfl rfl _

/-! ### Histories for which the properties do not hold -/

/-- A read, an IO read when the completion for the read is in progress, and another read. -/
def axrExBusy : List AxrIn :=
  [axrEx axrExR true true true none, axrEx axrExR true true true none, axrExI none, axrExI none, axrExI (some (0, 256)),
   axrEx axrExU true true true (some (0, 264)), axrEx axrExR1 true true true none, axrExI none, axrExI none, axrExI (some (1, 512)),
   axrExI none]

/-- The completion side waits for data that does not come. -/
structure AxrStuck (e : Axr) : Prop where
  st : e.st = .idle
  ts : e.ts = .header
  inA : e.inA = true
  cmdV : e.cmdV = true
  arV : e.arV = false
  rx : e.rxReady = false
  outV : e.out.outV = false
  tempV : e.out.tempV = false

theorem axrStuck_step (c : AxrCfg) (e : Axr) (h : AxrStuck e) (i : AxrIn) (hr : i.rst = false) (hv : i.rValid = false) : AxrStuck (axrStep c e i) := by
  have hh : axrHead e i = false := by unfold axrHead; rw [h.rx]; simp
  have hi : axrIssue e = false := by unfold axrIssue; rw [h.st]; rfl
  have hgo : axrGo e i = false := by unfold axrGo; rw [hv, h.inA]; simp
  have hf : axrFire e i = false := by unfold axrFire; rw [hgo]; rfl
  have hen : axrEnd e i = false := by unfold axrEnd; rw [hf, h.ts]; rfl
  have hl : axrLoad e i = false := by unfold axrLoad; rw [hen, h.ts]; rfl
  have hout : ∀ w, (skidStep false e.out (axrFire e i || (e.ts == .cpl && e.out.ready)) w i.txReady).outV = false ∧
      (skidStep false e.out (axrFire e i || (e.ts == .cpl && e.out.ready)) w i.txReady).tempV = false := by
    intro w
    rw [hf, h.ts]
    unfold skidStep
    cases e.out.ready <;> cases i.txReady <;> simp [h.outV, h.tempV]
  rw [axrStep_norst c e i hr]
  refine ⟨?_, ?_, ?_, ?_, ?_, ?_, (hout _).1, (hout _).2⟩
  · show axrStNext e i = .idle
    unfold axrStNext; rw [h.st, hh]; rfl
  · show axrTsNext e i = .header
    unfold axrTsNext; rw [h.ts, hf]; rfl
  · show axrActNext e i = true
    unfold axrActNext; rw [hl, hgo, h.inA]; rfl
  · show ((axrHead e i && axrIsUr i.hdr) || axrIssue e || (e.cmdV && !axrLoad e i)) = true
    rw [hl, h.cmdV]; simp
  · show (axrIssue e || (e.arV && !i.arReady)) = false
    rw [hi, h.arV]; rfl
  · show axrRxNext e i = false
    unfold axrRxNext axrRxSpace; rw [h.st, hh, h.cmdV]; simp

/-- **C74** and **C77** fail: the completion side takes an unsupported request that waits behind another completion for a read. It takes
the data of the next read for it, and then waits for data forever: the slave has answered all bursts, two of three completions are
missing, and whatever comes at the other inputs, no request is accepted and nothing is sent. -/
theorem C77_unsupported_fails : AxrCfgOk axrExC ∧ (∀ x ∈ axrReqs axrExC axrEx0 axrExBusy, AxReqOk x.hdr) ∧
    ((axrReqs axrExC axrEx0 axrExBusy).flatMap fun i => axrJobs axrExC 0 0x1234 i.hdr).length = 3 ∧
    ((axrRs axrExC axrEx0 axrExBusy).map fun d => (List.range 8).map d) = burstData 8 axrExMem 0 (axrArs axrExC axrEx0 axrExBusy) ∧
    ∀ js : List AxrIn, (∀ i ∈ js, i.rst = false ∧ i.rValid = false) →
      ((axrSent axrExC axrEx0 (axrExBusy ++ js)).filter (·.eop)).length = 1 ∧ (axrRun axrExC axrEx0 (axrExBusy ++ js)).rxReady = false := by
  refine ⟨axrExC_ok, ?_, by decide +kernel, by decide +kernel, ?_⟩
  · have h : (axrReqs axrExC axrEx0 axrExBusy).all (fun x => !tlpIsMsg x.hdr && !tlpIsPrefix x.hdr) = true := by decide +kernel
    intro x hx
    have := List.all_eq_true.1 h x hx
    simp only [Bool.and_eq_true, Bool.not_eq_true'] at this
    exact this
  · have key : ∀ js : List AxrIn, (∀ i ∈ js, i.rst = false ∧ i.rValid = false) →
        ((axrSent axrExC axrEx0 (axrExBusy ++ js)).filter (·.eop)).length = 1 ∧ AxrStuck (axrRun axrExC axrEx0 (axrExBusy ++ js)) := by
      refine axr_snoc_ind ?_ ?_
      · intro _
        exact ⟨by decide +kernel, by decide +kernel, by decide +kernel, by decide +kernel, by decide +kernel, by decide +kernel, by decide +kernel,
          by decide +kernel, by decide +kernel⟩
      · intro js i ih hj
        obtain ⟨h1, h2⟩ := ih (fun x hx => hj x (by simp [hx]))
        obtain ⟨h3, h4⟩ := hj i (by simp)
        rw [← List.append_assoc, axrRun_snoc, axrSent_snoc, h2.outV]
        exact ⟨by simpa using h1, axrStuck_step _ _ h2 i h3 h4⟩
    exact fun js hj => ⟨(key js hj).1, (key js hj).2.rx⟩

/-- A read of one DWORD from 0x300 with tag 1. -/
def axrExR0 : TlpHdr := ⟨0x00000001, 0xab00010f, 0x300, 0⟩

/-- A read; when its data is waited for an IO read and, at once, another read. -/
def axrExLost : List AxrIn :=
  [axrEx axrExR0 true true true none, axrEx axrExR0 true true true none, axrExI none, axrExI none, axrExI none,
   axrEx axrExU true true true none, axrEx axrExR1 true true true none, axrExI (some (0, 768)), axrExI none, axrExI none, axrExI none,
   axrExI none, axrExI (some (1, 512)), axrExI none, axrExI none]

/-- **C74** fails: a request that follows an unsupported one at once replaces its tag and status when it still waits. A completion
without data but with status 0 is sent for the tag of the next read, 3, and none for tag 2. -/
theorem C74_replaced_fails : (axrReqs axrExC axrEx0 axrExLost).map (fun x => (x.hdr.dw0, x.hdr.dw1 / 256 % 256)) = [(1, 1), (0x02000001, 2), (1, 3)] ∧
    (∀ x ∈ axrReqs axrExC axrEx0 axrExLost, AxReqOk x.hdr) ∧
    ((axrSent axrExC axrEx0 axrExLost).filter (·.eop)).map (fun w => ((cplRec w.hdr).tag, (cplRec w.hdr).status, (cplRec w.hdr).len)) =
      [(1, 0, 1), (3, 0, 0)] := by
  refine ⟨by decide +kernel, ?_, by decide +kernel⟩
  have h : (axrReqs axrExC axrEx0 axrExLost).all (fun x => !tlpIsMsg x.hdr && !tlpIsPrefix x.hdr) = true := by decide +kernel
  intro x hx
  have := List.all_eq_true.1 h x hx
  simp only [Bool.and_eq_true, Bool.not_eq_true'] at this
  exact this

/-- **C74** fails: the completion for an unsupported request has the lower address of the read before it; it is to be 0. -/
theorem C74_lower_fails : AxrHist axrExC 0 0x1234 axrExMem axrEx0 axrExIs ∧
    ∃ w ∈ axrSent axrExC axrEx0 axrExIs, (cplRec w.hdr).tag = 2 ∧ (cplRec w.hdr).status = 1 ∧ (cplRec w.hdr).lower = 5 := by
  refine ⟨axrEx_hist, ?_⟩
  have h : (axrSent axrExC axrEx0 axrExIs).any (fun w => (cplRec w.hdr).tag == 2 && (cplRec w.hdr).status == 1 && (cplRec w.hdr).lower == 5) = true := by
    decide +kernel
  obtain ⟨w, hw, h⟩ := List.any_eq_true.1 h
  simp only [Bool.and_eq_true, beq_iff_eq] at h
  exact ⟨w, hw, h.1.1, h.1.2, h.2⟩

/-- A 64-bit bus and the default burst length. -/
def axrExC256 : AxrCfg := { tb := 3, addrW := 32, burst := 256, force64 := false }

/-- A read of 512 DWORDs from 0x104 with a maximum payload of 2048 bytes. -/
def axrExWrap : List AxrIn :=
  [axrEx ⟨0x00000200, 0xab0001ff, 0x104, 0⟩ true true true none, axrEx ⟨0x00000200, 0xab0001ff, 0x104, 0⟩ true true true none,
   axrExI none, axrExI none].map fun i => { i with mps := 4 }

/-- **C75** fails: with the default burst length of 256 on a 64-bit bus and a maximum payload of 2048 bytes, a read of 512 DWORDs from an
address that is not aligned gets a burst with one data transfer, whose length has wrapped. -/
theorem C75_wrap_fails : AxrCfgOk axrExC256 ∧
    (axrReqs axrExC256 (axrStep axrExC256 axrExState axrExRst) axrExWrap).map (fun x => (hdrLen x.hdr, axrTlpAddr axrExC256 x.hdr)) = [(512, 0x104)] ∧
    axrArs axrExC256 (axrStep axrExC256 axrExState axrExRst) axrExWrap = [(0x104, 0)] ∧
    ((axrReqs axrExC256 (axrStep axrExC256 axrExState axrExRst) axrExWrap).flatMap fun i => axrJobs axrExC256 4 0x1234 i.hdr).filterMap (jobBurst 8) =
      [(0x104, 256)] :=
  ⟨⟨by decide, by decide, by decide, by decide⟩, by decide +kernel, by decide +kernel, by decide +kernel⟩

/-- A read of 32 DWORDs from 0x104. -/
def axrExLong : List AxrIn :=
  [axrEx ⟨0x00000020, 0xab0001ff, 0x104, 0⟩ true true true none, axrEx ⟨0x00000020, 0xab0001ff, 0x104, 0⟩ true true true none,
   axrExI none, axrExI none]

/-- **C75** fails: a burst for an address that is not aligned is longer than the maximum, 16 transfers. -/
theorem C75_length_fails : ¬ ∀ (c : AxrCfg) (m cid : Nat) (mem : Nat → Nat → UInt8) (s : Axr) (r : AxrIn) (is : List AxrIn), AxrCfgOk c → m < 8 →
    cid < 2 ^ 16 → r.rst = true → AxrHist c m cid mem (axrStep c s r) is → ∀ b ∈ axrArs c (axrStep c s r) is, b.2 + 1 ≤ c.burst := by
  intro h
  have := h axrExC 0 0x1234 axrExMem axrExState axrExRst axrExLong axrExC_ok (by decide) (by decide) rfl
    (axrHistB_spec _ _ _ _ _ _ (by decide +kernel)) (0x104, 16)
    (by rw [show axrArs axrExC (axrStep axrExC axrExState axrExRst) axrExLong = [(0x104, 16)] by decide +kernel]; simp)
  exact absurd this (by decide)

/-- A 256-bit bus and bursts of 12 transfers. -/
def axrExC12 : AxrCfg := { tb := 5, addrW := 32, burst := 12, force64 := false }

/-- A read of 128 DWORDs from 0x200 with a maximum payload of 512 bytes. -/
def axrExTwelve : List AxrIn :=
  [axrEx ⟨0x00000080, 0xab0001ff, 0x200, 0⟩ true true true none, axrEx ⟨0x00000080, 0xab0001ff, 0x200, 0⟩ true true true none,
   axrExI none, axrExI none].map fun i => { i with mps := 2 }

/-- **C75** fails: if the maximum burst length is no power of two, also bursts for aligned addresses are longer. -/
theorem C75_power_fails : ¬ ∀ (c : AxrCfg) (m cid : Nat) (mem : Nat → Nat → UInt8) (s : Axr) (r : AxrIn) (is : List AxrIn), AxrCfgOk c → m < 8 →
    cid < 2 ^ 16 → r.rst = true → AxrHist c m cid mem (axrStep c s r) is → ∀ b ∈ axrArs c (axrStep c s r) is, b.1 % 2 ^ c.tb = 0 → b.2 + 1 ≤ c.burst := by
  intro h
  have := h axrExC12 2 0x1234 axrExMem axrExState axrExRst axrExTwelve ⟨by decide, by decide, by decide, by decide⟩ (by decide) (by decide) rfl
    (axrHistB_spec _ _ _ _ _ _ (by decide +kernel)) (0x200, 15)
    (by rw [show axrArs axrExC12 (axrStep axrExC12 axrExState axrExRst) axrExTwelve = [(0x200, 15)] by decide +kernel]; simp) (by decide)
  exact absurd this (by decide)

/-- A message. -/
def axrExM : TlpHdr := ⟨0x34000000, 0xab000420, 0, 0⟩

/-- A message. -/
def axrExMsg : List AxrIn :=
  [axrEx axrExM true true true none, axrEx axrExM true true true none, axrExI none, axrExI none, axrExI none, axrExI none]

/-- **C76** fails: a message is reported as a correctable error, and it gets a completion although it is posted. -/
theorem C76_message_fails : tlpIsMsg axrExM = true ∧ axrPulse axrExM = (false, true) ∧ axrJobs axrExC 0 0x1234 axrExM = [] ∧
    (axrTrace axrExC axrEx0 axrExMsg).map (fun x => (x.1.errCor, x.1.errUncor)) =
      [(false, false), (false, false), (true, false), (false, false), (false, false), (false, false)] ∧
    (axrSent axrExC axrEx0 axrExMsg).map (fun w => ((cplRec w.hdr).tag, (cplRec w.hdr).status)) = [(4, 1)] := by decide +kernel

end Verif.Props
