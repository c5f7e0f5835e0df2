import Verif.Model.DmaIfPcieWr
import Verif.Spec.Header
/-!
Specification of the PCIe DMA write interface: what a memory write TLP does, what a descriptor asks for, and how a
RAM answers reads.
-/
namespace Verif.Spec
open Verif.Model

/-- The parameter combinations that the module accepts (`rtl/dma_if_pcie_wr.v` lines 191-247). -/
structure DwrCfgOk (c : DwrCfg) : Prop where
  tb : 2 ≤ c.tb ∧ c.tb ≤ 11
  sc : 1 ≤ c.sc ∧ c.sc ≤ c.tb + 1
  ram : c.tb + 1 ≤ c.ramW

/-- The address of a memory request. -/
def hdrAddr (h : TlpHdr) : Nat := if bits h.dw0 31 29 = 3 then h.dw2 * 2 ^ 32 + h.dw3 else h.dw2

/-- The payload length in DWORDs: 0 encodes 1024. -/
def hdrLen (h : TlpHdr) : Nat := if bits h.dw0 9 0 = 0 then 1024 else bits h.dw0 9 0

/-- Whether byte `k` of the payload is enabled: the first byte enables are for the first DWORD, the last byte
enables for the last of several, and the bytes between are enabled. -/
def hdrEnables (h : TlpHdr) (k : Nat) : Bool :=
  if k / 4 = 0 then (bits h.dw1 3 0).testBit (k % 4)
  else if k / 4 = hdrLen h - 1 then (bits h.dw1 7 4).testBit (k % 4)
  else true

/-- The bytes written by a memory write, with their addresses. -/
def hdrWrites (h : TlpHdr) (payload : List UInt8) : List (Nat × UInt8) :=
  (List.range payload.length).filterMap fun k => if hdrEnables h k then payload[k]?.map (hdrAddr h + k, ·) else none

/-- The payload bytes of a transfer: those of the DWORDs with strobe. -/
def beatBytes (c : DwrCfg) (b : DwrBeat) : List UInt8 :=
  (List.range c.tlpBytes).filterMap fun k => if b.strb.testBit (k / 4) then some (b.data k) else none

/-- The complete TLPs in a sequence of transfers, `cur` being the transfers of the current one. -/
def framesAux (cur : List DwrBeat) : List DwrBeat → List (List DwrBeat)
  | [] => []
  | b :: bs => if b.eop then (cur ++ [b]) :: framesAux [] bs else framesAux (cur ++ [b]) bs

/-- The complete TLPs in a sequence of transfers: each ends with the transfer marked `eop`. -/
def frames (bs : List DwrBeat) : List (List DwrBeat) := framesAux [] bs

/-- `sop` marks exactly the transfers that start a TLP. -/
def Framed : Bool → List DwrBeat → Prop
  | _, [] => True
  | first, b :: bs => b.sop = first ∧ Framed b.eop bs

/-- The payload of a TLP. -/
def framePayload (c : DwrCfg) (f : List DwrBeat) : List UInt8 := f.flatMap (beatBytes c)

/-- The bytes that a TLP writes. The header comes with the first transfer. -/
def frameWrites (c : DwrCfg) (f : List DwrBeat) : List (Nat × UInt8) :=
  match f with
  | [] => []
  | b :: _ => hdrWrites b.hdr (framePayload c f)

/-- A TLP is a well-formed memory write with requester ID `rid`, tag 0, and a payload of at most `mps` bytes that does
not cross a 4 KB boundary. -/
structure WriteTlpOk (c : DwrCfg) (rid mps : Nat) (f : List DwrBeat) : Prop where
  /-- Memory write; 64-bit address exactly when needed or forced; TC, attributes and so on are 0. -/
  dw0 : ∀ b ∈ f.head?, b.hdr.dw0 < 2 ^ 32 ∧ bits b.hdr.dw0 28 10 = 0 ∧
    bits b.hdr.dw0 31 29 = if 2 ^ 32 ≤ hdrAddr b.hdr ∨ c.force64 = true then 3 else 2
  dw1 : ∀ b ∈ f.head?, b.hdr.dw1 < 2 ^ 32 ∧ bits b.hdr.dw1 31 16 = rid ∧ bits b.hdr.dw1 15 8 = 0
  addr : ∀ b ∈ f.head?, hdrAddr b.hdr % 4 = 0 ∧ hdrAddr b.hdr < 2 ^ 64 ∧ b.hdr.dw2 < 2 ^ 32 ∧ b.hdr.dw3 < 2 ^ 32 ∧
    (bits b.hdr.dw0 31 29 = 2 → b.hdr.dw3 = 0)
  /-- The last byte enables are 0 exactly in a TLP of one DWORD. -/
  be : ∀ b ∈ f.head?, bits b.hdr.dw1 7 4 = 0 ↔ hdrLen b.hdr = 1
  payload : ∀ b ∈ f.head?, (framePayload c f).length = 4 * hdrLen b.hdr
  mps : ∀ b ∈ f.head?, 4 * hdrLen b.hdr ≤ mps
  page : ∀ b ∈ f.head?, hdrAddr b.hdr % 4096 + 4 * hdrLen b.hdr ≤ 4096
  nonempty : f ≠ []

/-- A write descriptor. -/
structure WrDesc where
  addr : Nat
  sel : Nat
  ram : Nat
  imm : Nat → UInt8
  immEn : Bool
  len : Nat
  tag : Nat

/-- The descriptor on the inputs; the buses have finite widths. -/
def descOf (c : DwrCfg) (i : DwrIn) : WrDesc :=
  { addr := i.addr % 2 ^ 64, sel := i.sel, ram := i.ram % 2 ^ c.ramW, imm := i.imm, immEn := c.immEn && i.immEn,
    len := i.len % 2 ^ c.lenW, tag := i.tag }

/-- The bytes that a descriptor asks to write, where `mem sel a` is the byte at address `a` of RAM `sel`. An immediate
is repeated in each RAM row. -/
def descWrites (c : DwrCfg) (mem : Nat → Nat → UInt8) (d : WrDesc) : List (Nat × UInt8) :=
  (List.range d.len).map fun n =>
    ((d.addr + n) % 2 ^ 64, if d.immEn then d.imm (n % c.rowBytes) else mem d.sel ((d.ram + n) % 2 ^ c.ramW))

/-- `ps` are the writes of the TLPs for a descriptor: together they do what the descriptor asks for, and none is
superfluous; a descriptor of length 0 has one TLP that writes nothing. -/
def SplitOf (c : DwrCfg) (mem : Nat → Nat → UInt8) (d : WrDesc) (ps : List (List (Nat × UInt8))) : Prop :=
  ps.flatten = descWrites c mem d ∧ (d.len = 0 → ps = [[]]) ∧ (d.len ≠ 0 → [] ∉ ps)

/-- States and inputs of a history, cycle by cycle. -/
def dwrTrace (c : DwrCfg) : Dwr → List DwrIn → List (Dwr × DwrIn)
  | _, [] => []
  | s, i :: is => (s, i) :: dwrTrace c (dwrStep c s i) is

/-- The descriptors accepted in a history. -/
def dwrAccepted (c : DwrCfg) (s : Dwr) (is : List DwrIn) : List WrDesc :=
  (dwrTrace c s is).filterMap fun x => if x.1.req.ready && x.2.valid then some (descOf c x.2) else none

/-- The transfers on the TLP interface in a history. -/
def dwrSent (c : DwrCfg) (s : Dwr) (is : List DwrIn) : List DwrBeat :=
  (dwrTrace c s is).filterMap fun x => if x.1.outV && x.2.tlpReady then some x.1.out else none

/-- The tags of the statuses given in a history. -/
def dwrStatus (c : DwrCfg) (s : Dwr) (is : List DwrIn) : List Nat :=
  (dwrTrace c s is).filterMap fun x => if x.1.stV then some x.1.stTag else none

/-- The transfers put on the TLP interface in a history: those made, and the one that is offered at its end. -/
def dwrPresented (c : DwrCfg) (s : Dwr) (is : List DwrIn) : List DwrBeat :=
  dwrSent c s is ++ if (dwrRun c s is).outV then [(dwrRun c s is).out] else []

/-- The tags of the statuses given in a history and at its end. -/
def dwrStatusNow (c : DwrCfg) (s : Dwr) (is : List DwrIn) : List Nat :=
  dwrStatus c s is ++ if (dwrRun c s is).stV then [(dwrRun c s is).stTag] else []

/-- In this cycle the RAM gives a response only for a command it has accepted before, in order, and with the contents
of the addressed row. `pend k` are the commands of segment `k` that wait for a response. -/
def RamAnswers (c : DwrCfg) (mem : Nat → Nat → UInt8) (pend : Nat → List (Nat × Nat)) (i : DwrIn) : Prop :=
  ∀ k, k < c.segs → i.respValid k = true → ∃ q, (pend k).head? = some q ∧
    ∀ b, b < c.segBytes → i.respData (k * c.segBytes + b) = mem q.1 (q.2 * c.rowBytes + (k * c.segBytes + b))

/-- The waiting commands after a cycle. -/
def pendNext (c : DwrCfg) (s : Dwr) (i : DwrIn) (pend : Nat → List (Nat × Nat)) : Nat → List (Nat × Nat) := fun k =>
  (if i.respValid k && dwrRespReady c s i k then (pend k).tail else pend k) ++
  (if s.cmdValid k && i.cmdReady k then [(s.cmdSel k, s.cmdAddr k)] else [])

/-- A history in which the RAM answers as it should. -/
def RamOk (c : DwrCfg) (mem : Nat → Nat → UInt8) : (Nat → List (Nat × Nat)) → Dwr → List DwrIn → Prop
  | _, _, [] => True
  | pend, s, i :: is => RamAnswers c mem pend i ∧ RamOk c mem (pendNext c s i pend) (dwrStep c s i) is

/-- Each transfer carries the number of its TLP, counted from `k`, modulo `2^opW`. -/
def SeqNumbered (c : DwrCfg) : Nat → List DwrBeat → Prop
  | _, [] => True
  | k, b :: bs => b.seq = k % 2 ^ c.opW ∧ SeqNumbered c (if b.eop then k + 1 else k) bs

/-- The TLPs sent: their number, and which of them (numbered from 0) wait for their sequence number to come back. -/
structure SeqState where
  sent : Nat
  out : List Nat

/-- Sequence numbers come back only for TLPs that have been sent completely and wait for it, once each. TLP `n` has
sequence number `n mod 2^opW`. -/
def SeqAnswers (c : DwrCfg) (q : SeqState) (i : DwrIn) : Prop :=
  i.seqs.Nodup ∧ ∀ x ∈ i.seqs, ∃ n ∈ q.out, n % 2 ^ c.opW = x

/-- The TLPs sent and waiting after a cycle. -/
def seqNext (c : DwrCfg) (s : Dwr) (i : DwrIn) (q : SeqState) : SeqState :=
  let out := q.out.filter fun n => !i.seqs.contains (n % 2 ^ c.opW)
  if s.outV && i.tlpReady && s.out.eop then { sent := q.sent + 1, out := out ++ [q.sent] } else { q with out := out }

/-- The TLPs sent and waiting after a history. -/
def seqRun (c : DwrCfg) : SeqState → Dwr → List DwrIn → SeqState
  | q, _, [] => q
  | q, s, i :: is => seqRun c (seqNext c s i q) (dwrStep c s i) is

/-- A history in which sequence numbers come back as they should. -/
def SeqOk (c : DwrCfg) : SeqState → Dwr → List DwrIn → Prop
  | _, _, [] => True
  | q, s, i :: is => SeqAnswers c q i ∧ SeqOk c (seqNext c s i q) (dwrStep c s i) is

end Verif.Spec
