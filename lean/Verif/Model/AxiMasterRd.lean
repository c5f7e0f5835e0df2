import Verif.Basic.Clog2
import Verif.Model.ArbMux
import Verif.Model.DmaIfPcieWr
/-!
Model of `rtl/pcie_axi_master_rd.v`: memory reads are done on an AXI interface and answered with completions. One step is one
clock edge.

Data buses are functions from the byte lane; byte lanes beyond the width of the bus have no meaning. `m_axi_arid`, `m_axi_arsize`,
`m_axi_arburst`, `m_axi_arlock`, `m_axi_arcache` and `m_axi_arprot` are constants, and `m_axi_rid`, `m_axi_rresp` and `m_axi_rlast`
are ignored. `tlp_dword_count_reg`, `first_be_reg`, `last_be_reg` and `last_tlp_reg` are never used.
-/
namespace Verif.Model

/-- `rtl/pcie_axi_master_rd.v` lines 36-57: the data width is `2 ^ tb` bytes, for TLPs and AXI. -/
structure AxrCfg where
  tb : Nat
  addrW : Nat
  burst : Nat
  force64 : Bool

/-- `rtl/pcie_axi_master_rd.v` line 121: the width of the bus in bytes. -/
def AxrCfg.bytes (c : AxrCfg) : Nat := 2 ^ c.tb

/-- `rtl/pcie_axi_master_rd.v` line 122: the width of the bus in DWORDs. -/
def AxrCfg.dws (c : AxrCfg) : Nat := 2 ^ (c.tb - 2)

/-- `rtl/pcie_axi_master_rd.v` lines 117-119: `PAYLOAD_MAX`. -/
def AxrCfg.payloadMax (c : AxrCfg) : Nat := if c.burst * 2 ^ c.tb < 4096 then clog2 (c.burst * 2 ^ c.tb / 128) else 5

/-- `rtl/pcie_axi_master_rd.v` lines 177-182: the states of the request side. -/
inductive AxrSt where
  | idle
  | start
  | waitEnd
deriving DecidableEq, Repr

/-- `rtl/pcie_axi_master_rd.v` lines 184-190: the states of the completion side. -/
inductive AxrTs where
  | idle
  | header
  | transfer
  | cpl
deriving DecidableEq, Repr

/-- `rtl/pcie_axi_master_rd.v` lines 220-233: a command for a completion. -/
structure AxrCmd where
  lower : Nat
  len : Nat
  dws : Nat
  inLen : Nat
  outLen : Nat
  off : Nat
  status : Nat
  rid : Nat
  tag : Nat
  tc : Nat
  attr : Nat
  bubble : Bool
deriving DecidableEq, Repr

/-- `rtl/pcie_axi_master_rd.v` lines 275-281: a word of a completion. -/
structure AxrWord where
  data : Nat → UInt8
  strb : Nat → Bool
  hdr : TlpHdr
  sop : Bool
  eop : Bool

/-- `rtl/pcie_axi_master_rd.v` lines 177-282: the registers, and the output registers of lines 887-978. `lower` to `attr` are
the registers of lines 204-218. -/
structure Axr where
  st : AxrSt
  ts : AxrTs
  addr : Nat
  op : Nat
  dw : Nat
  cmd : AxrCmd
  cmdV : Bool
  lower : Nat
  len : Nat
  off : Nat
  dws : Nat
  inC : Nat
  outC : Nat
  inA : Bool
  bubble : Bool
  lastC : Bool
  status : Nat
  rid : Nat
  tag : Nat
  tc : Nat
  attr : Nat
  mps : Nat
  rxReady : Bool
  araddr : Nat
  arlen : Nat
  arV : Bool
  rReady : Bool
  save : Nat → UInt8
  errCor : Bool
  errUncor : Bool
  out : Skid AxrWord

/-- `rtl/pcie_axi_master_rd.v` lines 58-112: the inputs in one cycle. -/
structure AxrIn where
  rst : Bool := false
  hdr : TlpHdr
  valid : Bool
  sop : Bool
  eop : Bool
  txReady : Bool
  arReady : Bool
  rData : Nat → UInt8
  rValid : Bool
  cid : Nat
  mps : Nat

/-- `rtl/pcie_axi_master_rd.v` line 348: the length. -/
def axrLen (h : TlpHdr) : Nat := if h.dw0 % 2 ^ 10 = 0 then 1024 else h.dw0 % 2 ^ 10

/-- `rtl/pcie_axi_master_rd.v` lines 354-364: the address. -/
def axrAddr (c : AxrCfg) (h : TlpHdr) : Nat :=
  if h.dw0 / 2 ^ 29 % 2 = 1 ∨ c.force64 then h.dw2 % 2 ^ 32 * 2 ^ 32 + h.dw3 % 2 ^ 32 / 4 * 4 else h.dw2 % 2 ^ 32 / 4 * 4

/-- `rtl/pcie_axi_master_rd.v` lines 366-379: `rx_req_single_dword_len`. -/
def axrCount (be : Nat) : Nat :=
  if be = 0 ∨ be = 1 ∨ be = 2 ∨ be = 4 ∨ be = 8 then 1
  else if be = 3 ∨ be = 6 ∨ be = 12 then 2
  else if be = 5 ∨ be = 7 ∨ be = 10 ∨ be = 14 then 3
  else 4

/-- `rtl/pcie_axi_master_rd.v` lines 381-388: `rx_req_first_be_offset`. -/
def axrFirst (be : Nat) : Nat :=
  if be = 0 then 0 else if be % 2 = 1 then 0 else if be % 4 = 2 then 1 else if be % 8 = 4 then 2 else 3

/-- `rtl/pcie_axi_master_rd.v` lines 390-397: `rx_req_last_be_offset`. -/
def axrLast (be : Nat) : Nat :=
  if be = 0 then 0 else if be / 8 % 2 = 1 then 0 else if be / 4 % 4 = 1 then 1 else if be / 2 % 8 = 1 then 2 else 3

/-- `rtl/pcie_axi_master_rd.v` lines 407-411: the number of bytes from the first to the last enabled one. -/
def axrOp (h : TlpHdr) : Nat :=
  if axrLen h = 1 then axrCount (h.dw1 % 16) else (axrLen h * 4 + 2 ^ 13 - axrFirst (h.dw1 % 16) - axrLast (h.dw1 / 16 % 16)) % 2 ^ 13

/-- `rtl/pcie_axi_master_rd.v` line 422: a read request. -/
def axrIsRead (h : TlpHdr) : Bool := h.dw0 / 2 ^ 30 % 2 == 0 && h.dw0 / 2 ^ 24 % 32 == 0

/-- `rtl/pcie_axi_master_rd.v` line 430: `type & 5'b11000 == 5'b10000` is `type & (5'b11000 == 5'b10000)`, that is 0, so that only
writes are meant. -/
def axrIsPosted (h : TlpHdr) : Bool := h.dw0 / 2 ^ 30 % 2 == 1 && h.dw0 / 2 ^ 24 % 32 == 0

/-- `rtl/pcie_axi_master_rd.v` line 434: a completion. -/
def axrIsCpl (h : TlpHdr) : Bool := h.dw0 / 2 ^ 29 % 2 == 0 && (h.dw0 / 2 ^ 24 % 32 == 10 || h.dw0 / 2 ^ 24 % 32 == 11)

/-- `rtl/pcie_axi_master_rd.v` lines 439-449: an unsupported request. -/
def axrIsUr (h : TlpHdr) : Bool := !axrIsRead h && !axrIsPosted h && !axrIsCpl h

/-- `rtl/pcie_axi_master_rd.v` line 415: a TLP starts. -/
def axrHead (s : Axr) (i : AxrIn) : Bool := s.st == .idle && s.rxReady && i.valid && i.sop

/-- `rtl/pcie_axi_master_rd.v` line 464: a burst starts. -/
def axrIssue (s : Axr) : Bool := s.st == .start && !s.cmdV && !s.arV

/-- `rtl/pcie_axi_master_rd.v` lines 465-481: `tlp_dword_count_next`. -/
def axrTr (s : Axr) : Nat := if s.dw ≤ s.mps then s.dw else (s.mps + 2 ^ 11 - s.addr / 4 % 32) % 2 ^ 11

/-- `rtl/pcie_axi_master_rd.v` lines 488 and 502: the offset of the address on the bus in DWORDs. -/
def axrOff (c : AxrCfg) (s : Axr) : Nat := s.addr / 4 % c.dws

/-- `rtl/pcie_axi_master_rd.v` lines 488 and 502, 32 bits: the number of transfers minus 1. -/
def axrBeats (c : AxrCfg) (s : Axr) : Nat := (axrTr s + axrOff c s + 2 ^ 32 - 1) % 2 ^ 32 / c.dws

/-- `rtl/pcie_axi_master_rd.v` lines 403 and 521: the request interface is ready. -/
def axrRxSpace (s : Axr) (i : AxrIn) : Bool := (!s.arV || i.arReady) && !s.cmdV

/-- `rtl/pcie_axi_master_rd.v` line 915: `tx_cpl_tlp_ready_int_early`. -/
def axrEarly (s : Axr) (i : AxrIn) : Bool := i.txReady || (!s.out.tempV && !s.out.outV)

/-- `rtl/pcie_axi_master_rd.v` lines 634 and 710: a transfer on the AXI interface, or none is needed any more. -/
def axrGo (s : Axr) (i : AxrIn) : Bool :=
  (s.ts == .header || s.ts == .transfer) && s.out.ready && ((s.rReady && i.rValid) || !s.inA)

/-- `rtl/pcie_axi_master_rd.v` lines 665 and 731: a word with data. -/
def axrFire (s : Axr) (i : AxrIn) : Bool := axrGo s i && !(s.ts == .header && s.bubble)

/-- `rtl/pcie_axi_master_rd.v` lines 669, 735 and 780: the last word of a completion. -/
def axrEnd (s : Axr) (i : AxrIn) : Bool := (axrFire s i && s.lastC) || (s.ts == .cpl && s.out.ready)

/-- `rtl/pcie_axi_master_rd.v` lines 599-614, 672-687, 738-753 and 781-796: the registers get the parameters of the command. -/
def axrLoad (s : Axr) (i : AxrIn) : Bool := s.ts == .idle || axrEnd s i

/-- `rtl/pcie_axi_master_rd.v` lines 616-617, 689-690, 755-756 and 798-799: `tlp_cmd_ready`, if a command is there. -/
def axrTake (s : Axr) (i : AxrIn) : Bool := s.cmdV && axrLoad s i

/-- `rtl/pcie_axi_master_rd.v` lines 559-584: the header of a completion. -/
def axrHdr (s : Axr) (cid : Nat) : TlpHdr :=
  { dw0 := (if s.status = 0 then 2 else 0) * 2 ^ 29 + 10 * 2 ^ 24 + s.tag / 2 ^ 9 % 2 * 2 ^ 23 + s.tc * 2 ^ 20 + s.tag / 2 ^ 8 % 2 * 2 ^ 19
      + s.attr / 4 % 2 * 2 ^ 18 + s.attr % 4 * 2 ^ 12 + s.dws % 2 ^ 10
    dw1 := cid % 2 ^ 16 * 2 ^ 16 + s.status * 2 ^ 13 + s.len % 2 ^ 12
    dw2 := s.rid * 2 ^ 16 + s.tag % 2 ^ 8 * 2 ^ 8 + s.lower % 2 ^ 7
    dw3 := 0 }

/-- `rtl/pcie_axi_master_rd.v` line 269: the data, shifted. -/
def axrData (c : AxrCfg) (s : Axr) (i : AxrIn) (k : Nat) : UInt8 :=
  let sh := 4 * (c.dws - s.off)
  if k + sh < c.bytes then s.save (k + sh) else i.rData (k + sh - c.bytes)

/-- `rtl/pcie_axi_master_rd.v` lines 586-591, 657-670, 723-736 and 774-778: the word for the output. -/
def axrWord (c : AxrCfg) (s : Axr) (i : AxrIn) : AxrWord :=
  { data := axrData c s i
    strb := fun j => s.ts != .cpl && decide (j < s.dws)
    hdr := axrHdr s i.cid
    sop := s.ts != .transfer
    eop := s.ts == .cpl || s.lastC }

/-- `rtl/pcie_axi_master_rd.v` lines 400-532: the state of the request side. -/
def axrStNext (s : Axr) (i : AxrIn) : AxrSt :=
  match s.st with
  | .idle => if axrHead s i then if axrIsRead i.hdr then .start else if i.eop then .idle else .waitEnd else .idle
  | .start => if axrIssue s && decide (s.dw ≤ s.mps) then .idle else .start
  | .waitEnd => if s.rxReady && i.valid && i.eop then .idle else .waitEnd

/-- `rtl/pcie_axi_master_rd.v` lines 400-532: `rx_req_tlp_ready_next`. -/
def axrRxNext (s : Axr) (i : AxrIn) : Bool :=
  match s.st with
  | .idle => if axrHead s i then if axrIsRead i.hdr then false else if i.eop then axrRxSpace s i else true else axrRxSpace s i
  | .start => false
  | .waitEnd => if s.rxReady && i.valid && i.eop then axrRxSpace s i else true

/-- `rtl/pcie_axi_master_rd.v` lines 593-810: the state of the completion side. Only from the idle state a completion without
data is made. -/
def axrTsNext (s : Axr) (i : AxrIn) : AxrTs :=
  match s.ts with
  | .idle => if s.cmdV then if s.cmd.status = 0 then .header else .cpl else .idle
  | .header => if axrFire s i then if s.lastC then if s.cmdV then .header else .idle else .transfer else .header
  | .transfer => if axrEnd s i then if s.cmdV then .header else .idle else .transfer
  | .cpl => if s.out.ready then if s.cmdV then .header else .idle else .cpl

/-- `rtl/pcie_axi_master_rd.v` lines 606, 638-641, 650-653, 679, 716-719, 745 and 788: `input_active_next`. -/
def axrActNext (s : Axr) (i : AxrIn) : Bool :=
  if axrLoad s i then true else if axrGo s i && s.inA then decide (s.inC > 0) else s.inA

/-- `rtl/pcie_axi_master_rd.v` lines 593-810: `m_axi_rready_next`. -/
def axrRNext (s : Axr) (i : AxrIn) : Bool :=
  match s.ts with
  | .idle => s.cmdV && decide (s.cmd.status = 0) && axrEarly s i
  | .header | .transfer => if axrEnd s i then s.cmdV && axrEarly s i else axrEarly s i && axrActNext s i
  | .cpl => s.out.ready && s.cmdV && axrEarly s i

/-- `rtl/pcie_axi_master_rd.v` lines 415-448 and 463-500: the command. -/
def axrCmdNext (c : AxrCfg) (s : Axr) (i : AxrIn) : AxrCmd :=
  if axrHead s i then
    { s.cmd with
      status := if axrIsUr i.hdr then 1 else 0
      rid := i.hdr.dw1 / 2 ^ 16 % 2 ^ 16
      tag := i.hdr.dw0 / 2 ^ 23 % 2 * 512 + i.hdr.dw0 / 2 ^ 19 % 2 * 256 + i.hdr.dw1 / 2 ^ 8 % 2 ^ 8
      tc := i.hdr.dw0 / 2 ^ 20 % 8
      attr := i.hdr.dw0 / 2 ^ 18 % 2 * 4 + i.hdr.dw0 / 2 ^ 12 % 4
      len := if axrIsUr i.hdr then 0 else s.cmd.len
      dws := if axrIsUr i.hdr then 0 else s.cmd.dws }
  else if axrIssue s then
    { s.cmd with
      inLen := axrBeats c s % 2 ^ 10
      outLen := (axrTr s + 2 ^ 32 - 1) % 2 ^ 32 / c.dws % 2 ^ 10
      lower := s.addr % 2 ^ 7
      len := s.op
      dws := axrTr s
      off := (c.dws - axrOff c s) % c.dws
      bubble := axrOff c s != 0 }
  else s.cmd

/-- One clock edge without the reset of `rtl/pcie_axi_master_rd.v` lines 871-884: lines 814-869. In the idle state the registers for
address and counts follow the header, lines 405-413. -/
def axrNext (c : AxrCfg) (s : Axr) (i : AxrIn) (rst : Bool) : Axr :=
  let hd := axrHead s i
  let iss := axrIssue s
  let ld := axrLoad s i
  let go := axrGo s i
  let fire := axrFire s i
  let idle := s.st == .idle
  { st := axrStNext s i
    ts := axrTsNext s i
    addr := if idle then (axrAddr c i.hdr + axrFirst (i.hdr.dw1 % 16)) % 2 ^ c.addrW
      else if iss then
        s.addr / 2 ^ 12 * 2 ^ 12 + if s.dw ≤ s.mps then 0 else (s.addr / 2 ^ 7 % 32 * 32 + s.mps) * 4 % 2 ^ 12
      else s.addr
    op := if idle then axrOp i.hdr else if iss then (s.op + s.addr % 4 + 2 ^ 13 - axrTr s * 4 % 2 ^ 13) % 2 ^ 13 else s.op
    dw := if idle then axrLen i.hdr else if iss then (s.dw + 2 ^ 11 - axrTr s) % 2 ^ 11 else s.dw
    cmd := axrCmdNext c s i
    cmdV := (hd && axrIsUr i.hdr) || iss || (s.cmdV && !axrLoad s i)
    lower := if ld then s.cmd.lower else s.lower
    len := if ld then s.cmd.len else s.len
    off := if ld then s.cmd.off else s.off
    dws := if ld then s.cmd.dws else if fire then (s.dws + 2 ^ 11 - c.dws % 2 ^ 11) % 2 ^ 11 else s.dws
    inC := if ld then s.cmd.inLen else if go && s.inA then (s.inC + 2 ^ 10 - 1) % 2 ^ 10 else s.inC
    outC := if ld then s.cmd.outLen else if fire then (s.outC + 2 ^ 10 - 1) % 2 ^ 10 else s.outC
    inA := axrActNext s i
    bubble := if ld then s.cmd.bubble else if go && s.ts == .header then false else s.bubble
    lastC := if ld then s.cmd.outLen == 0 else if fire then (s.outC + 2 ^ 10 - 1) % 2 ^ 10 == 0 else s.lastC
    status := if ld then s.cmd.status else s.status
    rid := if ld then s.cmd.rid else s.rid
    tag := if ld then s.cmd.tag else s.tag
    tc := if ld then s.cmd.tc else s.tc
    attr := if ld then s.cmd.attr else s.attr
    mps := 32 * 2 ^ min (i.mps % 8) c.payloadMax
    rxReady := axrRxNext s i
    araddr := if iss then s.addr else s.araddr
    arlen := if iss then axrBeats c s % 2 ^ 8 else s.arlen
    arV := iss || (s.arV && !i.arReady)
    rReady := axrRNext s i
    save := if go && (s.ts == .transfer || (s.rReady && i.rValid)) then i.rData else s.save
    errCor := hd && (axrIsCpl i.hdr || axrIsUr i.hdr)
    errUncor := hd && axrIsPosted i.hdr
    out := skidStep rst s.out (axrFire s i || (s.ts == .cpl && s.out.ready)) (axrWord c s i) i.txReady }

/-- One clock edge, with the reset of `rtl/pcie_axi_master_rd.v` lines 871-884 and 973-977. -/
def axrStep (c : AxrCfg) (s : Axr) (i : AxrIn) : Axr :=
  let n := axrNext c s i i.rst
  if i.rst then
    { n with st := .idle, ts := .idle, cmdV := false, rxReady := false, arV := false, rReady := false, errCor := false, errUncor := false }
  else n

/-- A history. -/
def axrRun (c : AxrCfg) : Axr → List AxrIn → Axr
  | s, [] => s
  | s, i :: is => axrRun c (axrStep c s i) is

end Verif.Model
