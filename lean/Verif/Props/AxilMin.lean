import Verif.Proofs.AxilMinLive
/-!
C66, C67, C68 and C69: the minimal AXI lite master, `rtl/pcie_axil_master_minimal.v`.
-/
namespace Verif.Props
open Verif Verif.Model Verif.Spec Verif.Proofs

/-- C66. After a reset, at any time: the write addresses, the write data with strobes and the read addresses that have been
transferred, followed by what is on offer, are exactly those of the one DWORD memory writes and reads received, in order. -/
theorem C66_transfers (c : AxmCfg) (s : Axm) (r : AxmIn) (is : List AxmIn) (hr : r.rst = true) (h1 : ∀ i ∈ is, i.rst = false)
    (hp : ∀ i ∈ axmReqs c (axmStep c s r) is, tlpIsPrefix i.rxHdr = false) :
    let s0 := axmStep c s r
    let e := axmRun c s0 is
    axmAws c s0 is ++ (if e.awV then [e.addr] else []) =
      ((axmReqs c s0 is).filter fun i => tlpIsWrite i.rxHdr && hdrLen i.rxHdr == 1).map (fun i => tlpAddr c.force64 i.rxHdr % 2 ^ c.addrW) ∧
    axmWs c s0 is ++ (if e.wV then [(e.wdata, e.wstrb)] else []) =
      ((axmReqs c s0 is).filter fun i => tlpIsWrite i.rxHdr && hdrLen i.rxHdr == 1).map (fun i => (i.rxData, tlpFirstBe i.rxHdr)) ∧
    axmArs c s0 is ++ (if e.arV then [e.addr] else []) =
      ((axmReqs c s0 is).filter fun i => tlpIsRead i.rxHdr && hdrLen i.rxHdr == 1).map (fun i => tlpAddr c.force64 i.rxHdr % 2 ^ c.addrW) := by
  intro s0 e
  obtain ⟨h2, h3, h4⟩ := axm_transfers c s r is hr h1
  refine ⟨h2.trans ?_, h3.trans ?_, h4.trans ?_⟩ <;> rw [← List.filterMap_eq_map, List.filterMap_filter] <;>
    refine axm_filterMap_congr fun i hi => ?_
  · have := axmKind_write i.rxHdr (hp i hi)
    by_cases hk : axmKind i.rxHdr = .write
    · have h := this.mp hk; simp [axmAwOf, hk, h, axmAddr_spec]
    · have h := fun g => hk (this.mpr g); simp only [axmAwOf, hk, if_false]
      rw [if_neg]; simpa using h
  · have := axmKind_write i.rxHdr (hp i hi)
    by_cases hk : axmKind i.rxHdr = .write
    · have h := this.mp hk; simp [axmWOf, hk, h, axmBe, tlpFirstBe, bits]
    · have h := fun g => hk (this.mpr g); simp only [axmWOf, hk, if_false]
      rw [if_neg]; simpa using h
  · have := axmKind_read i.rxHdr (hp i hi)
    by_cases hk : axmKind i.rxHdr = .read
    · have h := this.mp hk; simp [axmArOf, hk, h, axmAddr_spec]
    · have h := fun g => hk (this.mpr g); simp only [axmArOf, hk, if_false]
      rw [if_neg]; simpa using h

/-- C66. A read address is offered only when address and data of all earlier writes have been transferred, and a write only
when the addresses of all earlier reads have been. -/
theorem C66_order (c : AxmCfg) (s : Axm) (r : AxmIn) (is : List AxmIn) (hr : r.rst = true) (h1 : ∀ i ∈ is, i.rst = false)
    (hp : ∀ i ∈ axmReqs c (axmStep c s r) is, tlpIsPrefix i.rxHdr = false) :
    let s0 := axmStep c s r
    let e := axmRun c s0 is
    let writes := ((axmReqs c s0 is).filter fun i => tlpIsWrite i.rxHdr && hdrLen i.rxHdr == 1).length
    let reads := ((axmReqs c s0 is).filter fun i => tlpIsRead i.rxHdr && hdrLen i.rxHdr == 1).length
    (e.arV = true → (axmAws c s0 is).length = writes ∧ (axmWs c s0 is).length = writes) ∧
    (e.awV = true ∨ e.wV = true → (axmArs c s0 is).length = reads) := by
  intro s0 e
  obtain ⟨h2, h3, h4⟩ := C66_transfers c s r is hr h1 hp
  have hx := axm_excl c s r is hr h1
  dsimp only at h2 h3 h4 ⊢
  constructor
  · intro ha
    obtain ⟨x1, x2⟩ := hx ha
    rw [x1] at h2; rw [x2] at h3
    simp only [Bool.false_eq_true, if_false, List.append_nil] at h2 h3
    exact ⟨by rw [h2, List.length_map], by rw [h3, List.length_map]⟩
  · intro ha
    have x3 : e.arV = false := by
      cases hv : e.arV with
      | false => rfl
      | true =>
        obtain ⟨x1, x2⟩ := hx hv
        rcases ha with ha | ha
        · exact absurd ha (by rw [show e.awV = false from x1]; decide)
        · exact absurd ha (by rw [show e.wV = false from x2]; decide)
    rw [show (axmRun c (axmStep c s r) is).arV = false from x3] at h4
    simp only [Bool.false_eq_true, if_false, List.append_nil] at h4
    rw [h4, List.length_map]

/-- C66. What is offered stays on offer, unchanged, until it is taken: on the three AXI channels and the completion interface. -/
theorem C66_stable (c : AxmCfg) (s : Axm) (r : AxmIn) (is : List AxmIn) (i : AxmIn) (hr : r.rst = true) (h1 : ∀ j ∈ is ++ [i], j.rst = false) :
    let e := axmRun c (axmStep c s r) is
    let f := axmRun c (axmStep c s r) (is ++ [i])
    (e.awV = true → i.awReady = false → f.awV = true ∧ f.addr = e.addr) ∧
    (e.wV = true → i.wReady = false → f.wV = true ∧ f.wdata = e.wdata ∧ f.wstrb = e.wstrb) ∧
    (e.arV = true → i.arReady = false → f.arV = true ∧ f.addr = e.addr) ∧
    (e.txV = true → i.txReady = false → f.txV = true ∧ f.tx = e.tx ∧ f.txStrb = e.txStrb ∧ f.txData = e.txData) :=
  axm_stable c s r is i hr h1

/-- C67. After a reset, with a constant completer ID, the completions put on the interface are those for the requests received,
in order: one with the data for each read of one DWORD, one with completer abort for other reads, and one with unsupported
request for what is neither a memory request nor a completion; none for writes. The data is that of the AXI read responses, in
order, and no completion overtakes the response to an earlier write.

Missing from the property: messages, see `C67_message_fails`. -/
theorem C67_completions_partial (c : AxmCfg) (cid : Nat) (hcid : cid < 2 ^ 16) (s : Axm) (r : AxmIn) (is : List AxmIn) (hr : r.rst = true)
    (h1 : ∀ i ∈ is, i.rst = false) (h2 : ∀ i ∈ is, i.cid = cid) (hk : ∀ i ∈ axmReqs c (axmStep c s r) is, AxReqOk i.rxHdr) :
    let s0 := axmStep c s r
    (axmPresented c s0 is).map cplDec <+:
      axCpls c.force64 cid ((axmReqs c s0 is).map (·.rxHdr)) (axmRs c s0 is) (axmBs c s0 is) := by
  intro s0
  obtain ⟨done, h⟩ := axm_inv (P := (· = cid)) s r is hr h1 h2
  have h3 := axCpls_done (c := c) hcid _ done _ hk h.cids ((List.append_assoc ..).symm.trans h.resp)
  rw [← h.rs, ← h.nb, ← h.out] at h3
  exact h3

/-- C68. After a reset, the error outputs are pulses of one cycle for the requests received, as their kind demands.

Missing from the property: messages, see `C68_message_fails`. -/
theorem C68_errors_partial (c : AxmCfg) (s : Axm) (r : AxmIn) (is : List AxmIn) (i : AxmIn) (hr : r.rst = true)
    (h1 : ∀ j ∈ is ++ [i], j.rst = false) (hk : ∀ j ∈ axmReqs c (axmStep c s r) (is ++ [i]), AxReqOk j.rxHdr) :
    let s0 := axmStep c s r
    ∃ q, axmReqs c s0 (is ++ [i]) = axmReqs c s0 is ++ q ∧ (q = [] ∨ q = [i]) ∧
      ((axmRun c s0 (is ++ [i])).errCor, (axmRun c s0 (is ++ [i])).errUncor) =
        match q with | [] => (false, false) | j :: _ => axPulse j.rxHdr :=
  axm_errors c s r is i hr h1 hk

/-- C69. After a reset and any history: when the other sides are not waited for, then within 39 cycles completions have been
sent for all requests received before that need one, in addition to those for requests received in the meantime. By C67 they are
the right ones.

Missing from the property: messages, as in C67. -/
theorem C69_completed_partial (c : AxmCfg) (s : Axm) (r : AxmIn) (is1 is2 : List AxmIn) (hr : r.rst = true) (h1 : ∀ i ∈ is1, i.rst = false)
    (h2 : ∀ i ∈ is2, AxmGood i) (hlen : 39 ≤ is2.length) (hk : ∀ i ∈ axmReqs c (axmStep c s r) is1, AxReqOk i.rxHdr) :
    ((axmReqs c (axmStep c s r) is1).filter fun i => axNeed i.rxHdr != .write && axNeed i.rxHdr != .nothing).length ≤
      (axmSent c (axmStep c s r) (is1 ++ is2)).length := by
  rw [← List.countP_eq_length_filter]
  exact axm_completed c s r is1 is2 hr h1 h2 hlen hk

/-- C69. After a reset and any history: when the other sides are not waited for, the module is ready to take a part of a request
within 40 cycles. -/
theorem C69_ready (c : AxmCfg) (s : Axm) (r : AxmIn) (is1 is2 : List AxmIn) (hr : r.rst = true) (h1 : ∀ i ∈ is1, i.rst = false)
    (h2 : ∀ i ∈ is2, AxmGood i) (hlen : 40 ≤ is2.length) :
    ∃ k ≤ 40, (axmRun c (axmStep c s r) (is1 ++ is2.take k)).rxReady = true :=
  axm_ready c s r is1 is2 hr h1 h2 hlen

/-! ### Examples -/

/-- The configuration: 16 bit addresses. -/
def axmC : AxmCfg := { addrW := 16, force64 := false }

/-- A state before reset. -/
def axmS : Axm :=
  { wait := true, rxReady := true, addr := 0, awV := true, wdata := 0, wstrb := 0, wV := false, arV := true, errCor := false
    errUncor := false, fifo := ⟨3, 1, fun _ => ⟨false, false, 0, 0, 0, 0, 0, 0, 0⟩⟩, half := true, rd := ⟨false, false, 0, 0, 0, 0, 0, 0, 0⟩
    rdV := true, st := .cpl, tx := ⟨0, 0, 0, 0⟩, txData := 0, txStrb := 0, txV := true, bReady := false, rReady := false }

/-- A cycle of reset. -/
def axmR : AxmIn := { rst := true, cid := 0x1234 }

/-- An idle cycle with responses of the AXI slave. -/
def axmI : AxmIn := { bValid := true, rValid := true, rData := 0xcafe, cid := 0x1234 }

/-- A request with this header. -/
def axmQ (dw0 dw1 dw2 dw3 : Nat) : AxmIn :=
  { axmI with rxHdr := ⟨dw0, dw1, dw2, dw3⟩, rxValid := true, rxSop := true, rxEop := true, rxData := 0xabcd }

/-- A write, a read with four DWORDs of header, a read that is too long, a write that is too long, an I/O read, a completion. -/
def axmEx : List AxmIn :=
  [axmI, axmQ 0x40000001 0x00a1010f 0x12345678 0, axmI, { axmI with arReady := false }, axmQ 0x20000001 0x00a1020c 0x1 0x12340,
    { axmI with arReady := false }, axmI, axmI, axmQ 0x00000002 0x00a103ff 0x200 0, axmQ 0x40000002 0x00a104ff 0x200 0,
    axmQ 0x02000001 0x00a1050f 0x100 0, axmQ 0x0a000000 0x00a10000 0x01000000 0] ++ List.replicate 5 axmI ++
    [{ axmI with txReady := false }] ++ List.replicate 6 axmI

theorem axmEx_ok : (∀ i ∈ axmEx, i.rst = false) ∧ (∀ i ∈ axmEx, i.cid = 0x1234) ∧
    ∀ i ∈ axmReqs axmC (axmStep axmC axmS axmR) axmEx, tlpIsMsg i.rxHdr = false ∧ tlpIsPrefix i.rxHdr = false := by
  refine ⟨by decide, by decide, by decide +kernel⟩

/-- All six requests are taken; a write and a read are done, and the three completions are sent. -/
example : let s := axmStep axmC axmS axmR
    (axmReqs axmC s axmEx).length = 6 ∧ axmAws axmC s axmEx = [0x5678] ∧ axmWs axmC s axmEx = [(0xabcd, 0xf)] ∧
    axmArs axmC s axmEx = [0x2340] ∧ axmRs axmC s axmEx = [0xcafe] ∧ axmBs axmC s axmEx = 1 ∧
    axmSent axmC s axmEx = [(⟨0x4a000001, 0x12340002, 0x00a10242, 0⟩, 1, 0xcafe), (⟨0x0a000000, 0x12348000, 0x00a10300, 0⟩, 0, 0),
      (⟨0x0a000000, 0x12342000, 0x00a10500, 0⟩, 0, 0)] ∧
    (axmSent axmC s axmEx).map cplDec =
      axCpls false 0x1234 ((axmReqs axmC s axmEx).map (·.rxHdr)) (axmRs axmC s axmEx) (axmBs axmC s axmEx) := by
  decide +kernel

/-- The hypotheses of the theorems are met. -/
example := C66_transfers axmC axmS axmR axmEx rfl axmEx_ok.1 (fun i hi => (axmEx_ok.2.2 i hi).2)
example := C66_order axmC axmS axmR axmEx rfl axmEx_ok.1 (fun i hi => (axmEx_ok.2.2 i hi).2)
example := C67_completions_partial axmC 0x1234 (by decide) axmS axmR axmEx rfl axmEx_ok.1 axmEx_ok.2.1 axmEx_ok.2.2

/-- The read address is on offer and not taken. -/
example : let e := axmRun axmC (axmStep axmC axmS axmR) (axmEx.take 5)
    e.arV = true ∧ (axmEx[5]?.map (·.arReady)) = some false ∧ e.addr = 0x2340 := by decide +kernel

/-- The error outputs in each cycle after the first request: those for the long read, the long write, the I/O read and the
completion. -/
example : ((axmTrace axmC (axmStep axmC axmS axmR) axmEx).map fun x => (x.1.errCor, x.1.errUncor)).drop 8 =
    [(false, false), (true, false), (false, true), (true, false), (true, false)] ++ List.replicate 11 (false, false) := by decide +kernel

/-- Twenty-two reads, none of which is answered. -/
def axmFull : List AxmIn :=
  axmI :: (List.replicate 22 [{ axmQ 0x00000001 0x00a1010f 0x100 0 with rValid := false }, { axmI with rValid := false }]).flatten ++
    List.replicate 3 { axmI with rValid := false }

theorem axmFull_ok : (∀ i ∈ axmFull, i.rst = false) ∧ ∀ i ∈ axmReqs axmC (axmStep axmC axmS axmR) axmFull, AxReqOk i.rxHdr := by
  refine ⟨by decide, ?_⟩
  unfold AxReqOk
  decide +kernel

/-- Eighteen are taken, then the module is not ready. 39 cycles later all are completed. -/
example : let s := axmStep axmC axmS axmR
    (axmReqs axmC s axmFull).length = 18 ∧ axmSent axmC s axmFull = [] ∧ (axmRun axmC s axmFull).rxReady = false ∧
    (axmSent axmC s (axmFull ++ List.replicate 39 axmI)).length = 18 := by decide +kernel

example := C69_completed_partial axmC axmS axmR axmFull (List.replicate 39 axmI) rfl axmFull_ok.1
  (fun i hi => by rw [List.eq_of_mem_replicate hi]; exact ⟨rfl, rfl, rfl, rfl, rfl, rfl, rfl⟩) (by simp) axmFull_ok.2
example := C69_ready axmC axmS axmR axmFull (List.replicate 40 axmI) rfl axmFull_ok.1
  (fun i hi => by rw [List.eq_of_mem_replicate hi]; exact ⟨rfl, rfl, rfl, rfl, rfl, rfl, rfl⟩) (by simp)

/-- A message. -/
def axmMsg : List AxmIn := [axmI, axmQ 0x34000000 0x00a10118 0 0] ++ List.replicate 8 axmI

/-- C67 does not hold with messages: a message, which is posted, gets a completion. In line 442 `==` binds tighter than `&`, so
that messages are not recognised. -/
theorem C67_message_fails : ∃ is : List AxmIn, (∀ i ∈ is, i.rst = false) ∧ (∀ i ∈ is, i.cid = 0x1234) ∧
    (∀ i ∈ axmReqs axmC (axmStep axmC axmS axmR) is, tlpIsMsg i.rxHdr = true) ∧
    axCpls false 0x1234 ((axmReqs axmC (axmStep axmC axmS axmR) is).map (·.rxHdr)) (axmRs axmC (axmStep axmC axmS axmR) is)
      (axmBs axmC (axmStep axmC axmS axmR) is) = [] ∧
    axmSent axmC (axmStep axmC axmS axmR) is = [(⟨0x0a000000, 0x12342000, 0x00a10100, 0⟩, 0, 0)] :=
  ⟨axmMsg, by decide +kernel⟩

/-- C68 does not hold with messages: a message is reported as a correctable error, and not as an uncorrectable one. -/
theorem C68_message_fails : ∃ (is : List AxmIn) (i : AxmIn), (∀ j ∈ is ++ [i], j.rst = false) ∧ tlpIsMsg i.rxHdr = true ∧
    axPulse i.rxHdr = (false, true) ∧
    (axmReqs axmC (axmStep axmC axmS axmR) (is ++ [i])).map (·.rxHdr) = (axmReqs axmC (axmStep axmC axmS axmR) is).map (·.rxHdr) ++ [i.rxHdr] ∧
    ((axmRun axmC (axmStep axmC axmS axmR) (is ++ [i])).errCor, (axmRun axmC (axmStep axmC axmS axmR) (is ++ [i])).errUncor) = (true, false) :=
  ⟨[axmI], axmQ 0x34000000 0x00a10118 0 0, by decide +kernel⟩

end Verif.Props
