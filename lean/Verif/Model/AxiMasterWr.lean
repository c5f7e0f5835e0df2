import Verif.Model.DmaIfPcieWr
import Verif.Model.RamDemux
/-!
Model of `rtl/pcie_axi_master_wr.v`: memory writes are done on an AXI interface. One step is one clock edge.

Data buses are functions from the byte lane; byte lanes beyond the width of the bus have no meaning. `m_axi_awid`, `m_axi_awsize`,
`m_axi_awburst`, `m_axi_awlock`, `m_axi_awcache`, `m_axi_awprot` and `m_axi_bready` are constants, and the write responses are
ignored. `type_reg` is never used.
-/
namespace Verif.Model

/-- `rtl/pcie_axi_master_wr.v` lines 36-53: the data width is `2 ^ tb` bytes, for TLPs and AXI. -/
structure AxwCfg where
  tb : Nat
  addrW : Nat
  burst : Nat
  force64 : Bool

/-- `rtl/pcie_axi_master_wr.v` line 103: the width of the bus in bytes. -/
def AxwCfg.bytes (c : AxwCfg) : Nat := 2 ^ c.tb

/-- `rtl/pcie_axi_master_wr.v` line 104: the width of the bus in DWORDs. -/
def AxwCfg.dws (c : AxwCfg) : Nat := 2 ^ (c.tb - 2)

/-- `rtl/pcie_axi_master_wr.v` line 101: `AXI_MAX_BURST_SIZE/4`. -/
def AxwCfg.maxDw (c : AxwCfg) : Nat := c.burst * 2 ^ c.tb / 4

/-- `rtl/pcie_axi_master_wr.v` lines 145-150: the states. -/
inductive AxwSt where
  | idle
  | transfer
  | waitEnd
deriving DecidableEq, Repr

/-- `rtl/pcie_axi_master_wr.v` lines 196-201 and 500-505: a word for the AXI write data channel. -/
structure AxwBeat where
  data : Nat → UInt8
  strb : Nat → Bool
  last : Bool

/-- `rtl/pcie_axi_master_wr.v` lines 150-194: the registers, and the output FIFO of lines 487-539. -/
structure Axw where
  st : AxwSt
  addr : Nat
  op : Nat
  tr : Nat
  inC : Nat
  outC : Nat
  inA : Bool
  first : Bool
  last : Bool
  fbe : Nat
  lbe : Nat
  off : Nat
  lco : Nat
  ready : Bool
  awaddr : Nat
  awlen : Nat
  awV : Bool
  save : Nat → UInt8
  err : Bool
  out : OutFifo AxwBeat

/-- `rtl/pcie_axi_master_wr.v` lines 56-97: the inputs in one cycle. -/
structure AxwIn where
  rst : Bool := false
  data : Nat → UInt8
  hdr : TlpHdr
  valid : Bool
  sop : Bool
  eop : Bool
  awReady : Bool
  wReady : Bool

/-- `rtl/pcie_axi_master_wr.v` line 263: the length. -/
def axwLen (h : TlpHdr) : Nat := if h.dw0 % 2 ^ 10 = 0 then 1024 else h.dw0 % 2 ^ 10

/-- `rtl/pcie_axi_master_wr.v` lines 269-279 and 286: the address, with the width of the AXI address. -/
def axwAddr (c : AxwCfg) (h : TlpHdr) : Nat :=
  (if h.dw0 / 2 ^ 29 % 2 = 1 ∨ c.force64 then h.dw2 % 2 ^ 32 * 2 ^ 32 + h.dw3 % 2 ^ 32 / 4 * 4 else h.dw2 % 2 ^ 32 / 4 * 4) % 2 ^ c.addrW

/-- `rtl/pcie_axi_master_wr.v` line 322: a write request that is not poisoned. -/
def axwGood (h : TlpHdr) : Bool := h.dw0 / 2 ^ 30 % 2 == 1 && h.dw0 / 2 ^ 24 % 32 == 0 && h.dw0 / 2 ^ 14 % 2 == 0

/-- `rtl/pcie_axi_master_wr.v` lines 297 and 308: the DWORD offset of an address on the bus. -/
def axwOff (c : AxwCfg) (a : Nat) : Nat := a / 4 % c.dws

/-- `rtl/pcie_axi_master_wr.v` lines 293-303 and 390-400: the number of DWORDs in the next burst. -/
def axwTr (c : AxwCfg) (op a : Nat) : Nat := if op ≤ c.maxDw then op else (c.maxDw - axwOff c a) % 2 ^ 11

/-- `rtl/pcie_axi_master_wr.v` lines 293-303 and 390-400: `m_axi_awlen`, 8 bits. -/
def axwBurstLen (c : AxwCfg) (op a : Nat) : Nat :=
  if op ≤ c.maxDw then (op + axwOff c a - 1) / c.dws % 2 ^ 8 else (axwTr c op a - 1) / c.dws % 2 ^ 8

/-- `rtl/pcie_axi_master_wr.v` line 291: a TLP starts. -/
def axwHead (s : Axw) (i : AxwIn) : Bool := s.st == .idle && s.ready && i.valid && i.sop

/-- `rtl/pcie_axi_master_wr.v` line 346: a word for the AXI interface is generated. -/
def axwGo (s : Axw) (i : AxwIn) : Bool := s.st == .transfer && ((s.ready && i.valid) || !s.inA || s.first)

/-- `rtl/pcie_axi_master_wr.v` lines 388-417: the next burst starts. -/
def axwMore (s : Axw) (i : AxwIn) : Bool := axwGo s i && s.last && decide (s.op > 0)

/-- `rtl/pcie_axi_master_wr.v` lines 284, 419 and 433: `(!m_axi_awvalid_reg || m_axi_awready) && m_axi_wready_int`. -/
def axwSpace (s : Axw) (i : AxwIn) : Bool := (!s.awV || i.awReady) && !s.out.half

/-- `rtl/pcie_axi_master_wr.v` lines 192 and 349-354: the data, shifted. -/
def axwData (c : AxwCfg) (s : Axw) (i : AxwIn) (k : Nat) : UInt8 :=
  if s.first then if 4 * s.off ≤ k then s.save (k - 4 * s.off) else 0
  else if k < 4 * s.off then s.save (c.bytes - 4 * s.off + k) else i.data (k - 4 * s.off)

/-- `rtl/pcie_axi_master_wr.v` lines 356-360: the strobe at the start of a transfer. -/
def axwStrbFirst (s : Axw) (k : Nat) : Bool :=
  if s.first then if 4 * s.off ≤ k then if k - 4 * s.off < 4 then s.fbe.testBit (k - 4 * s.off) else true else false else true

/-- `rtl/pcie_axi_master_wr.v` lines 371-378: the strobe at the end of a transfer. -/
def axwStrbLast (c : AxwCfg) (s : Axw) (k : Nat) : Bool :=
  if s.last && s.op == 0 then
    let p := if s.lco > 0 then k + (c.bytes - 4 * s.lco) else k
    if p < c.bytes - 4 then true else if p < c.bytes then s.lbe.testBit (p - (c.bytes - 4)) else false
  else true

/-- `rtl/pcie_axi_master_wr.v` lines 346-381: the word for the AXI interface. -/
def axwBeat (c : AxwCfg) (s : Axw) (i : AxwIn) : AxwBeat :=
  { data := axwData c s i
    strb := fun k => axwStrbFirst s k && axwStrbLast c s k
    last := s.last }

/-- `rtl/pcie_axi_master_wr.v` lines 281-443: the state. -/
def axwStNext (s : Axw) (i : AxwIn) : AxwSt :=
  match s.st with
  | .idle => if axwHead s i then if axwGood i.hdr then .transfer else if i.eop then .idle else .waitEnd else .idle
  | .transfer => if axwGo s i && s.last && decide (s.op = 0) then .idle else .transfer
  | .waitEnd => if s.ready && i.valid && i.eop then .idle else .waitEnd

/-- `rtl/pcie_axi_master_wr.v` lines 312, 363-366 and 405: `input_cycle_count_next`. -/
def axwInNext (c : AxwCfg) (s : Axw) (i : AxwIn) : Nat :=
  if axwHead s i then (axwTr c (axwLen i.hdr) (axwAddr c i.hdr) - 1) / c.dws % 2 ^ 13
  else if axwMore s i then (axwTr c s.op s.addr + 2 ^ 32 - s.off - 1) % 2 ^ 32 / c.dws % 2 ^ 13
  else if axwGo s i && s.inA && !s.first then (s.inC + 2 ^ 13 - 1) % 2 ^ 13
  else s.inC

/-- `rtl/pcie_axi_master_wr.v` lines 317, 365 and 410: `input_active_next`. -/
def axwActNext (c : AxwCfg) (s : Axw) (i : AxwIn) : Bool :=
  if axwHead s i || axwMore s i || (axwGo s i && s.inA && !s.first) then axwInNext c s i != 0 else s.inA

/-- `rtl/pcie_axi_master_wr.v` lines 314, 367 and 407: `output_cycle_count_next`. -/
def axwOutNext (c : AxwCfg) (s : Axw) (i : AxwIn) : Nat :=
  if axwHead s i then axwBurstLen c (axwLen i.hdr) (axwAddr c i.hdr)
  else if axwMore s i then axwBurstLen c s.op s.addr
  else if axwGo s i then (s.outC + 2 ^ 13 - 1) % 2 ^ 13
  else s.outC

/-- `rtl/pcie_axi_master_wr.v` lines 284-339, 344-424 and 428-441: `rx_req_tlp_ready_next`. -/
def axwReadyNext (c : AxwCfg) (s : Axw) (i : AxwIn) : Bool :=
  match s.st with
  | .idle => if axwHead s i then if axwGood i.hdr then false else if i.eop then axwSpace s i else true else axwSpace s i
  | .transfer =>
    if axwGo s i then
      if !s.last || decide (s.op > 0) then !s.out.half && axwActNext c s i else axwSpace s i
    else !s.out.half && s.inA && !s.first
  | .waitEnd => if s.ready && i.valid && i.eop then axwSpace s i else true

/-- One clock edge without the reset of `rtl/pcie_axi_master_wr.v` lines 476-484: lines 446-474 and 514-532. In the idle state
the registers for address, count and byte enables follow the header, lines 286-289. -/
def axwNext (c : AxwCfg) (s : Axw) (i : AxwIn) (rst : Bool) : Axw :=
  let hd := axwHead s i
  let more := axwMore s i
  let a0 := axwAddr c i.hdr
  let l0 := axwLen i.hdr
  let idle := s.st == .idle
  { st := axwStNext s i
    addr := if hd then (a0 + axwTr c l0 a0 * 4) % 2 ^ c.addrW else if idle then a0
      else if more then (s.addr + axwTr c s.op s.addr * 4) % 2 ^ c.addrW else s.addr
    op := if hd then (l0 + 2 ^ 11 - axwTr c l0 a0) % 2 ^ 11 else if idle then l0
      else if more then (s.op + 2 ^ 11 - axwTr c s.op s.addr) % 2 ^ 11 else s.op
    tr := if hd then axwTr c l0 a0 else if more then axwTr c s.op s.addr else s.tr
    inC := axwInNext c s i
    outC := axwOutNext c s i
    inA := axwActNext c s i
    first := if hd then true else if axwGo s i then false else s.first
    last := if hd || axwGo s i then axwOutNext c s i == 0 else s.last
    fbe := if idle then i.hdr.dw1 % 16 else s.fbe
    lbe := if idle then if l0 = 1 then i.hdr.dw1 % 16 else i.hdr.dw1 / 16 % 16 else s.lbe
    off := if hd then axwOff c a0 else s.off
    lco := if hd then (axwOff c a0 + axwTr c l0 a0) % c.dws else if more then (axwOff c s.addr + axwTr c s.op s.addr) % c.dws else s.lco
    ready := axwReadyNext c s i
    awaddr := if hd then a0 else if more then s.addr else s.awaddr
    awlen := if hd then axwBurstLen c l0 a0 else if more then axwBurstLen c s.op s.addr else s.awlen
    awV := (hd && axwGood i.hdr) || more || (s.awV && !i.awReady)
    save := if s.ready && i.valid then i.data else s.save
    err := hd && !axwGood i.hdr
    out := outFifoStep 5 rst s.out (axwGo s i) (axwBeat c s i) i.wReady }

/-- One clock edge, with the reset of `rtl/pcie_axi_master_wr.v` lines 476-484 and 534-538. -/
def axwStep (c : AxwCfg) (s : Axw) (i : AxwIn) : Axw :=
  let n := axwNext c s i i.rst
  if i.rst then { n with st := .idle, ready := false, awV := false, err := false } else n

/-- A history. -/
def axwRun (c : AxwCfg) : Axw → List AxwIn → Axw
  | s, [] => s
  | s, i :: is => axwRun c (axwStep c s i) is

end Verif.Model
