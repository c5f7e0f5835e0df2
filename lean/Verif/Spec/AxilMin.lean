import Verif.Model.AxilMin
import Verif.Spec.DmaIfPcieWr
/-!
Specification of the minimal AXI lite master: what requests ask for, which completions they get, and which transfers are made
on the interfaces in a history. Headers are decoded by bit positions of the PCIe specification.
-/
namespace Verif.Spec
open Verif.Model

/-! ### Requests and completions -/

/-- A memory read: type 00000, format without data. -/
def tlpIsRead (h : TlpHdr) : Bool := bits h.dw0 28 24 == 0 && (bits h.dw0 31 29 == 0 || bits h.dw0 31 29 == 1)

/-- A memory write: type 00000, format with data. -/
def tlpIsWrite (h : TlpHdr) : Bool := bits h.dw0 28 24 == 0 && (bits h.dw0 31 29 == 2 || bits h.dw0 31 29 == 3)

/-- A message: type 10xxx and a header of four DWORDs. -/
def tlpIsMsg (h : TlpHdr) : Bool := bits h.dw0 28 27 == 2 && (bits h.dw0 31 29 == 1 || bits h.dw0 31 29 == 3)

/-- A completion, also one of a locked read: types 01010 and 01011, and a header of three DWORDs. -/
def tlpIsCpl (h : TlpHdr) : Bool :=
  (bits h.dw0 28 24 == 10 || bits h.dw0 28 24 == 11) && (bits h.dw0 31 29 == 0 || bits h.dw0 31 29 == 2)

/-- A TLP prefix. -/
def tlpIsPrefix (h : TlpHdr) : Bool := decide (4 ≤ bits h.dw0 31 29)

/-- The address of a memory request. If the interface always has 64-bit addresses, it is in the third and fourth DWORD. -/
def tlpAddr (force64 : Bool) (h : TlpHdr) : Nat :=
  if bits h.dw0 29 29 = 1 ∨ force64 = true then bits h.dw2 31 0 * 2 ^ 32 + bits h.dw3 31 2 * 4 else bits h.dw2 31 2 * 4

/-- The first byte enables. -/
def tlpFirstBe (h : TlpHdr) : Nat := bits h.dw1 3 0

/-- What has to be done for a request: a read or write of one DWORD, a completion with this status and no data, or nothing.
Only memory writes and messages are posted. A read that is not of one DWORD is aborted (4), other requests are not
supported (1). -/
inductive AxNeed where
  | read
  | write
  | cpl (status : Nat)
  | nothing
deriving DecidableEq

/-- What has to be done for a request. -/
def axNeed (h : TlpHdr) : AxNeed :=
  if tlpIsRead h then if hdrLen h = 1 then .read else .cpl 4
  else if tlpIsWrite h then if hdrLen h = 1 then .write else .nothing
  else if tlpIsMsg h || tlpIsCpl h then .nothing
  else .cpl 1

/-- The enabled bytes of a DWORD. -/
def beLanes (be : Nat) : List Nat := (List.range 4).filter be.testBit

/-- The number of bytes from the first to the last enabled one; 1 if none is enabled. -/
def beSpan (be : Nat) : Nat := (beLanes be).getLast?.getD 0 + 1 - (beLanes be).head?.getD 0

/-- The first enabled byte, or 0. -/
def beFirst (be : Nat) : Nat := (beLanes be).head?.getD 0

/-- The fields of a completion header; `zero` are the bits LN, TH, TD, EP, AT, BCM, the reserved one and the fourth DWORD. -/
structure CplRec where
  fmt : Nat
  type : Nat
  tag : Nat
  tc : Nat
  attr : Nat
  len : Nat
  completer : Nat
  status : Nat
  count : Nat
  requester : Nat
  lower : Nat
  zero : List Nat
deriving DecidableEq, Repr

/-- The fields by position. -/
def cplRec (h : TlpHdr) : CplRec :=
  { fmt := bits h.dw0 31 29
    type := bits h.dw0 28 24
    tag := bits h.dw0 23 23 * 512 + bits h.dw0 19 19 * 256 + bits h.dw2 15 8
    tc := bits h.dw0 22 20
    attr := bits h.dw0 18 18 * 4 + bits h.dw0 13 12
    len := bits h.dw0 9 0
    completer := bits h.dw1 31 16
    status := bits h.dw1 15 13
    count := bits h.dw1 11 0
    requester := bits h.dw2 31 16
    lower := bits h.dw2 6 0
    zero := [bits h.dw0 17 14, bits h.dw0 11 10, bits h.dw1 12 12, bits h.dw2 7 7, h.dw3] }

/-- A completion for a request: tag, traffic class, attributes and requester ID are those of the request. One with data has
one DWORD; its byte count and lower address are those of the enabled bytes. In one without data these are 0. -/
def cplFor (force64 : Bool) (cid : Nat) (h : TlpHdr) (status : Nat) (data : Bool) : CplRec :=
  { fmt := if data then 2 else 0
    type := 10
    tag := bits h.dw0 23 23 * 512 + bits h.dw0 19 19 * 256 + bits h.dw1 15 8
    tc := bits h.dw0 22 20
    attr := bits h.dw0 18 18 * 4 + bits h.dw0 13 12
    len := if data then 1 else 0
    completer := cid
    status := status
    count := if data then beSpan (tlpFirstBe h) else 0
    requester := bits h.dw1 31 16
    lower := if data then (tlpAddr force64 h + beFirst (tlpFirstBe h)) % 128 else 0
    zero := [0, 0, 0, 0, 0] }

/-- The completions for requests (fields, strobe and data) when the AXI read responses are `ds` and there have been `nb` write
responses: in the order of the requests, and none before the responses for all earlier requests. -/
def axCpls (force64 : Bool) (cid : Nat) : List TlpHdr → List Nat → Nat → List (CplRec × Nat × Nat)
  | [], _, _ => []
  | h :: hs, ds, nb =>
    match axNeed h with
    | .read =>
      match ds with
      | [] => []
      | d :: ds => (cplFor force64 cid h 0 true, 1, d) :: axCpls force64 cid hs ds nb
    | .write =>
      match nb with
      | 0 => []
      | nb + 1 => axCpls force64 cid hs ds nb
    | .cpl status => (cplFor force64 cid h status false, 0, 0) :: axCpls force64 cid hs ds nb
    | .nothing => axCpls force64 cid hs ds nb

/-! ### Histories -/

/-- States and inputs of a history, cycle by cycle. -/
def axmTrace (c : AxmCfg) : Axm → List AxmIn → List (Axm × AxmIn)
  | _, [] => []
  | s, i :: is => (s, i) :: axmTrace c (axmStep c s i) is

/-- Of these transfers those that start a TLP; at the beginning a TLP is in progress or not. -/
def axmHeads : Bool → List AxmIn → List AxmIn
  | _, [] => []
  | true, i :: is => axmHeads (!i.rxEop) is
  | false, i :: is => if i.rxSop then i :: axmHeads (!i.rxEop) is else axmHeads false is

/-- The requests taken in a history. -/
def axmReqs (c : AxmCfg) (s : Axm) (is : List AxmIn) : List AxmIn :=
  axmHeads false ((axmTrace c s is).filterMap fun x => if x.1.rxReady && x.2.rxValid then some x.2 else none)

/-- The write addresses taken in a history. -/
def axmAws (c : AxmCfg) (s : Axm) (is : List AxmIn) : List Nat :=
  (axmTrace c s is).filterMap fun x => if x.1.awV && x.2.awReady then some x.1.addr else none

/-- The write data (data and strobe) taken in a history. -/
def axmWs (c : AxmCfg) (s : Axm) (is : List AxmIn) : List (Nat × Nat) :=
  (axmTrace c s is).filterMap fun x => if x.1.wV && x.2.wReady then some (x.1.wdata, x.1.wstrb) else none

/-- The read addresses taken in a history. -/
def axmArs (c : AxmCfg) (s : Axm) (is : List AxmIn) : List Nat :=
  (axmTrace c s is).filterMap fun x => if x.1.arV && x.2.arReady then some x.1.addr else none

/-- The read responses taken in a history. -/
def axmRs (c : AxmCfg) (s : Axm) (is : List AxmIn) : List Nat :=
  (axmTrace c s is).filterMap fun x => if x.1.rReady && x.2.rValid then some x.2.rData else none

/-- The number of write responses taken in a history. -/
def axmBs (c : AxmCfg) (s : Axm) (is : List AxmIn) : Nat := (axmTrace c s is).countP fun x => x.1.bReady && x.2.bValid

/-- The completions sent in a history. -/
def axmSent (c : AxmCfg) (s : Axm) (is : List AxmIn) : List (TlpHdr × Nat × Nat) :=
  (axmTrace c s is).filterMap fun x => if x.1.txV && x.2.txReady then some (x.1.tx, x.1.txStrb, x.1.txData) else none

/-- The completions put on the interface in a history: those sent, and the one that is offered at its end. -/
def axmPresented (c : AxmCfg) (s : Axm) (is : List AxmIn) : List (TlpHdr × Nat × Nat) :=
  axmSent c s is ++ if (axmRun c s is).txV then [((axmRun c s is).tx, (axmRun c s is).txStrb, (axmRun c s is).txData)] else []

/-- A completion with its header decoded. -/
def cplDec (x : TlpHdr × Nat × Nat) : CplRec × Nat × Nat := (cplRec x.1, x.2)

/-- The requests are memory reads and writes, completions, or requests that are not supported; no messages, and no prefixes. -/
def AxReqOk (h : TlpHdr) : Prop := tlpIsMsg h = false ∧ tlpIsPrefix h = false

/-- The error outputs (correctable, uncorrectable) for a request that starts: an uncorrectable error for a write that is not of
one DWORD and for a message, a correctable one for a read that is not of one DWORD, a completion or an unsupported request. -/
def axPulse (h : TlpHdr) : Bool × Bool :=
  if tlpIsRead h then (hdrLen h != 1, false)
  else if tlpIsWrite h then (false, hdrLen h != 1)
  else if tlpIsMsg h then (false, true)
  else (true, false)

/-- A cycle without reset in which the other sides are not waited for: all that is offered is taken, and the responses are there
when the module is ready for them. -/
def AxmGood (i : AxmIn) : Prop :=
  i.rst = false ∧ i.txReady = true ∧ i.rValid = true ∧ i.bValid = true ∧ i.awReady = true ∧ i.wReady = true ∧ i.arReady = true

end Verif.Spec
