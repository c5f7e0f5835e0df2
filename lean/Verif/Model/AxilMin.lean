import Verif.Model.DmaIfPcieWr
import Verif.Model.DmaIfPcieRd
/-!
Model of `rtl/pcie_axil_master_minimal.v`: memory requests of one DWORD are done on an AXI lite interface, and completions
are returned. One step is one clock edge.

Simplifications: of the TLP data bus only the lowest DWORD is modelled, since only it is read, and the others of the
completion are 0; a DWORD is a number. The responses `bresp` and `rresp` are ignored, as in the code, and `awprot`, `arprot`,
`tx_cpl_tlp_sop` and `tx_cpl_tlp_eop` are constants.
-/
namespace Verif.Model

/-- `rtl/pcie_axil_master_minimal.v` lines 46 and 50: `AXIL_ADDR_WIDTH` and `TLP_FORCE_64_BIT_ADDR`. -/
structure AxmCfg where
  addrW : Nat
  force64 : Bool

/-- `rtl/pcie_axil_master_minimal.v` lines 195-235: an entry of the response FIFO. -/
structure AxmResp where
  read : Bool
  write : Bool
  status : Nat
  count : Nat
  lower : Nat
  rid : Nat
  tag : Nat
  tc : Nat
  attr : Nat
deriving DecidableEq, Repr

/-- `rtl/pcie_axil_master_minimal.v` lines 165-169: states of the response state machine. -/
inductive AxmSt where
  | idle
  | read
  | write
  | cpl
deriving DecidableEq, Repr

/-- `rtl/pcie_axil_master_minimal.v` lines 159-254: the registers. `wait` is `REQ_STATE_WAIT_END`. -/
structure Axm where
  wait : Bool
  rxReady : Bool
  addr : Nat
  awV : Bool
  wdata : Nat
  wstrb : Nat
  wV : Bool
  arV : Bool
  errCor : Bool
  errUncor : Bool
  fifo : Ring AxmResp
  half : Bool
  rd : AxmResp
  rdV : Bool
  st : AxmSt
  tx : TlpHdr
  txData : Nat
  txStrb : Nat
  txV : Bool
  bReady : Bool
  rReady : Bool

/-- `rtl/pcie_axil_master_minimal.v` lines 53-104: the inputs in one cycle. -/
structure AxmIn where
  rst : Bool := false
  rxData : Nat := 0
  rxHdr : TlpHdr := ⟨0, 0, 0, 0⟩
  rxValid : Bool := false
  rxSop : Bool := false
  rxEop : Bool := false
  txReady : Bool := true
  awReady : Bool := true
  wReady : Bool := true
  bValid : Bool := false
  arReady : Bool := true
  rData : Nat := 0
  rValid : Bool := false
  cid : Nat := 0

/-- `rtl/pcie_axil_master_minimal.v` line 297: `fmt`. -/
def axmFmt (h : TlpHdr) : Nat := h.dw0 / 2 ^ 29 % 8

/-- `rtl/pcie_axil_master_minimal.v` line 298: `type`. -/
def axmType (h : TlpHdr) : Nat := h.dw0 / 2 ^ 24 % 32

/-- `rtl/pcie_axil_master_minimal.v` line 309: the length. -/
def axmLen (h : TlpHdr) : Nat := if h.dw0 % 2 ^ 10 = 0 then 1024 else h.dw0 % 2 ^ 10

/-- `rtl/pcie_axil_master_minimal.v` line 314: `first_be`. -/
def axmBe (h : TlpHdr) : Nat := h.dw1 % 16

/-- `rtl/pcie_axil_master_minimal.v` lines 315-325: the address. -/
def axmAddr (c : AxmCfg) (h : TlpHdr) : Nat :=
  if axmFmt h % 2 = 1 ∨ c.force64 then h.dw2 % 2 ^ 32 * 2 ^ 32 + h.dw3 % 2 ^ 32 / 4 * 4 else h.dw2 % 2 ^ 32 / 4 * 4

/-- `rtl/pcie_axil_master_minimal.v` lines 365-377: the byte count of a read of one DWORD, by byte enables. -/
def axmCount (be : Nat) : Nat :=
  if be = 0 ∨ be = 1 ∨ be = 2 ∨ be = 4 ∨ be = 8 then 1
  else if be = 3 ∨ be = 6 ∨ be = 12 then 2
  else if be = 5 ∨ be = 7 ∨ be = 10 ∨ be = 14 then 3
  else 4

/-- `rtl/pcie_axil_master_minimal.v` lines 379-385: the low bits of the lower address, by byte enables. -/
def axmLow (be : Nat) : Nat :=
  if be = 0 ∨ be % 2 = 1 then 0 else if be % 4 = 2 then 1 else if be % 8 = 4 then 2 else 3

/-- What the state machine does with a request. -/
inductive AxmKind where
  | read
  | badRead
  | write
  | badWrite
  | cpl
  | other
deriving DecidableEq, Repr

/-- `rtl/pcie_axil_master_minimal.v` lines 352-475: the cases. The condition for messages, line 442, is
`fmt[0] && type & 5'b11000 == 5'b10000`. Since `==` binds tighter than `&`, this is `fmt[0] && (type & 0)`, and is never met. -/
def axmKind (h : TlpHdr) : AxmKind :=
  if axmFmt h / 2 % 2 = 0 ∧ axmType h = 0 then if axmLen h = 1 then .read else .badRead
  else if axmFmt h / 2 % 2 = 1 ∧ axmType h = 0 then if axmLen h = 1 then .write else .badWrite
  else if axmFmt h % 2 = 0 ∧ (axmType h = 10 ∨ axmType h = 11) then .cpl
  else .other

/-- `rtl/pcie_axil_master_minimal.v` lines 327-336, 361-404, 423-424 and 457-465: the entry for the response FIFO. -/
def axmRespOf (c : AxmCfg) (h : TlpHdr) : AxmResp :=
  { read := axmKind h = .read
    write := axmKind h = .write
    status := match axmKind h with | .badRead => 4 | .other => 1 | _ => 0
    count := if axmKind h = .read then axmCount (axmBe h) else 0
    lower := if axmKind h = .read then axmAddr c h / 4 % 32 * 4 + axmLow (axmBe h) else 0
    rid := h.dw1 / 2 ^ 16 % 2 ^ 16
    tag := h.dw0 / 2 ^ 23 % 2 * 512 + h.dw0 / 2 ^ 19 % 2 * 256 + h.dw1 / 2 ^ 8 % 2 ^ 8
    tc := h.dw0 / 2 ^ 20 % 8
    attr := h.dw0 / 2 ^ 18 % 2 * 4 + h.dw0 / 2 ^ 12 % 4 }

/-- `rtl/pcie_axil_master_minimal.v` lines 405, 425 and 466: an entry is written to the response FIFO. -/
def axmHasResp (h : TlpHdr) : Bool :=
  match axmKind h with | .read | .badRead | .write | .other => true | .badWrite | .cpl => false

/-- `rtl/pcie_axil_master_minimal.v` line 347: a request starts. -/
def axmHead (s : Axm) (i : AxmIn) : Bool := !s.wait && s.rxReady && i.rxValid && i.rxSop

/-- `rtl/pcie_axil_master_minimal.v` lines 342-345 and 487-490: ready for the next request. -/
def axmSpace (s : Axm) (i : AxmIn) : Bool :=
  (!s.awV || i.awReady) && (!s.arV || i.arReady) && (!s.wV || i.wReady) && !s.half

/-- `rtl/pcie_axil_master_minimal.v` lines 342-345, 387, 407-412, 427, 434-439, 469-474 and 482-498: `rx_req_tlp_ready_next`. -/
def axmReadyNext (s : Axm) (i : AxmIn) : Bool :=
  if s.wait then !(s.rxReady && i.rxValid && i.rxEop) || axmSpace s i
  else if axmHead s i then
    !i.rxEop || (axmSpace s i && axmKind i.rxHdr != .read && axmKind i.rxHdr != .write)
  else axmSpace s i

/-- `rtl/pcie_axil_master_minimal.v` lines 527-552: the header of a completion. -/
def axmHdr (r : AxmResp) (cid : Nat) : TlpHdr :=
  { dw0 := (if r.read then 2 else 0) * 2 ^ 29 + 10 * 2 ^ 24 + r.tag / 512 % 2 * 2 ^ 23 + r.tc * 2 ^ 20 + r.tag / 256 % 2 * 2 ^ 19 +
      r.attr / 4 % 2 * 2 ^ 18 + r.attr % 4 * 2 ^ 12 + if r.read then 1 else 0
    dw1 := cid % 2 ^ 16 * 2 ^ 16 + r.status * 2 ^ 13 + r.count
    dw2 := r.rid * 2 ^ 16 + r.tag % 2 ^ 8 * 2 ^ 8 + r.lower
    dw3 := 0 }

/-- `rtl/pcie_axil_master_minimal.v` line 576: a read response is taken. -/
def axmRTake (s : Axm) (i : AxmIn) : Bool := s.st == .read && s.rReady && i.rValid

/-- `rtl/pcie_axil_master_minimal.v` line 593: a write response is taken. -/
def axmBTake (s : Axm) (i : AxmIn) : Bool := s.st == .write && s.bReady && i.bValid

/-- `rtl/pcie_axil_master_minimal.v` line 605: a completion without data is generated. -/
def axmCTake (s : Axm) (i : AxmIn) : Bool := s.st == .cpl && (!s.txV || i.txReady)

/-- `rtl/pcie_axil_master_minimal.v` lines 583, 596 and 611: the current entry is finished. -/
def axmDone (s : Axm) (i : AxmIn) : Bool := axmRTake s i || axmBTake s i || axmCTake s i

/-- `rtl/pcie_axil_master_minimal.v` line 619: the next entry is read from the response FIFO. -/
def axmFetch (s : Axm) (i : AxmIn) : Bool := !(s.rdV && !axmDone s i) && !ringEmpty s.fifo

/-- `rtl/pcie_axil_master_minimal.v` lines 554-617: the next state of the response state machine. -/
def axmStNext (s : Axm) (i : AxmIn) : AxmSt :=
  match s.st with
  | .idle => if s.rdV then if s.rd.read then .read else if s.rd.write then .write else .cpl else .idle
  | st => if axmDone s i then .idle else st

/-- One clock edge without the reset of `rtl/pcie_axil_master_minimal.v` lines 684-706: lines 635-682. -/
def axmNext (c : AxmCfg) (s : Axm) (i : AxmIn) : Axm :=
  let hd := axmHead s i
  { wait := if s.wait then !(s.rxReady && i.rxValid && i.rxEop) else hd && !i.rxEop
    rxReady := axmReadyNext s i
    addr := if hd then axmAddr c i.rxHdr % 2 ^ c.addrW else s.addr
    awV := (hd && axmKind i.rxHdr == .write) || (s.awV && !i.awReady)
    wdata := if hd then i.rxData else s.wdata
    wstrb := if hd then axmBe i.rxHdr else s.wstrb
    wV := (hd && axmKind i.rxHdr == .write) || (s.wV && !i.wReady)
    arV := (hd && axmKind i.rxHdr == .read) || (s.arV && !i.arReady)
    errCor := hd && (axmKind i.rxHdr == .badRead || axmKind i.rxHdr == .cpl || axmKind i.rxHdr == .other)
    errUncor := hd && axmKind i.rxHdr == .badWrite
    fifo := ringMove 5 s.fifo (hd && axmHasResp i.rxHdr) (axmRespOf c i.rxHdr) (axmFetch s i)
    half := decide (ringCount 5 s.fifo ≥ 2 ^ 4)
    rd := if axmFetch s i then ringHead 5 s.fifo else s.rd
    rdV := axmFetch s i || (s.rdV && !axmDone s i)
    st := axmStNext s i
    tx := if axmRTake s i || axmCTake s i then axmHdr s.rd i.cid else s.tx
    txData := if axmRTake s i then i.rData else if axmCTake s i then 0 else s.txData
    txStrb := if axmRTake s i then 1 else if axmCTake s i then 0 else s.txStrb
    txV := axmRTake s i || axmCTake s i || (s.txV && !i.txReady)
    bReady := (s.st == .idle && s.rdV && !s.rd.read && s.rd.write) || (s.st == .write && !(s.bReady && i.bValid))
    rReady := ((s.st == .idle && s.rdV && s.rd.read) || (s.st == .read && !(s.rReady && i.rValid))) && (!s.txV || i.txReady) }

/-- One clock edge, with the reset of `rtl/pcie_axil_master_minimal.v` lines 684-706. -/
def axmStep (c : AxmCfg) (s : Axm) (i : AxmIn) : Axm :=
  let n := axmNext c s i
  if i.rst then
    { n with
      wait := false, st := .idle, rxReady := false, txV := false, awV := false, wV := false, bReady := false, arV := false
      rReady := false, errCor := false, errUncor := false, fifo := ringReset n.fifo, rdV := false }
  else n

/-- A history. -/
def axmRun (c : AxmCfg) : Axm → List AxmIn → Axm
  | s, [] => s
  | s, i :: is => axmRun c (axmStep c s i) is

end Verif.Model
