import Verif.Basic.Clog2
import Verif.Model.Ring
/-!
Model of `rtl/dma_if_pcie_wr.v`, the PCIe DMA write interface: segmentation of descriptors into TLPs, reading of
the RAM segments, generation of TLPs, the operation table, and descriptor status. One step is one clock edge.

Simplifications: `PCIE_ADDR_WIDTH` is 64; the TLP data width is `2^tb` bytes and there are `2^sc` RAM segments (so
a RAM row has `2 * 2^tb` bytes); the statistics outputs, `status_busy` and registers that are never read
(`tr_count_reg`, `read_pcie_addr_reg`, `read_ram_mask_0_reg`, `ram_wrap_reg`, `start_offset_reg`, `end_offset_reg`) are
left out. A data bus is a function from byte lane to byte, a vector over RAM segments a function to `Bool`.
-/
namespace Verif.Model

/-- Parameters, `rtl/dma_if_pcie_wr.v` lines 37-78 and 172-190. `opW` is `OP_TAG_WIDTH`. -/
structure DwrCfg where
  tb : Nat
  sc : Nat
  ramW : Nat
  lenW : Nat
  opW : Nat
  immEn : Bool
  seqEn : Bool
  txLimit : Nat
  force64 : Bool
deriving DecidableEq, Repr

/-- `TLP_DATA_WIDTH_BYTES`. -/
def DwrCfg.tlpBytes (c : DwrCfg) : Nat := 2 ^ c.tb

/-- `RAM_DATA_WIDTH/8`. -/
def DwrCfg.rowBytes (c : DwrCfg) : Nat := 2 ^ (c.tb + 1)

/-- `RAM_SEG_COUNT`. -/
def DwrCfg.segs (c : DwrCfg) : Nat := 2 ^ c.sc

/-- `RAM_SEG_BE_WIDTH`. -/
def DwrCfg.segBytes (c : DwrCfg) : Nat := 2 ^ (c.tb + 1 - c.sc)

/-- Request state machine, `rtl/dma_if_pcie_wr.v` lines 235-284; `start` is `REQ_STATE_START`. -/
structure DwrReq where
  start : Bool
  addr : Nat
  sel : Nat
  ram : Nat
  imm : Nat → UInt8
  immEn : Bool
  count : Nat
  tlpCount : Nat
  tag : Nat
  zero : Bool
  ready : Bool

/-- The read command register, `rtl/dma_if_pcie_wr.v` lines 309-316. -/
structure DwrCmd where
  addr : Nat
  sel : Nat
  ram : Nat
  immEn : Bool
  len : Nat
  cyc : Nat
  lastC : Bool

/-- Read state machine, `rtl/dma_if_pcie_wr.v` lines 280-294; `read` is `READ_STATE_READ`. -/
structure DwrRd where
  read : Bool
  sel : Nat
  ram : Nat
  immEn : Bool
  len : Nat
  mask : Nat → Bool
  mask1 : Nat → Bool
  cyc : Nat
  lastC : Bool
  bytes : Nat

/-- An entry of the operation table, `rtl/dma_if_pcie_wr.v` lines 432-451. -/
structure DwrOp where
  addr : Nat
  imm : Nat → UInt8
  immEn : Bool
  len : Nat
  zero : Bool
  dw : Nat
  cyc : Nat
  offset : Nat
  tag : Nat
  last : Bool

/-- The operation table with its pointers, `rtl/dma_if_pcie_wr.v` lines 408-451. -/
structure OpTable (α : Type) where
  start : Nat
  txStart : Nat
  txFinish : Nat
  finish : Nat
  active : Nat → Bool
  mem : Nat → α

/-- TLP state machine, `rtl/dma_if_pcie_wr.v` lines 296-307; `transfer` is `TLP_STATE_TRANSFER`. -/
structure DwrTx where
  transfer : Bool
  addr : Nat
  imm : Nat → UInt8
  immEn : Bool
  len : Nat
  zero : Bool
  dw : Nat
  offset : Nat
  cyc : Nat
  lastC : Bool
  frame : Bool

/-- A TLP header as four DWORDs, the first in bits 127-96. -/
structure TlpHdr where
  dw0 : Nat
  dw1 : Nat
  dw2 : Nat
  dw3 : Nat
deriving DecidableEq, Repr

/-- A transfer on the TLP interface. -/
structure DwrBeat where
  data : Nat → UInt8
  strb : Nat
  hdr : TlpHdr
  seq : Nat
  sop : Bool
  eop : Bool

/-- Registers of the module. `cmd*` are `ram_rd_cmd_*_reg`, by segment. -/
structure Dwr where
  req : DwrReq
  cmd : DwrCmd
  cmdV : Bool
  rd : DwrRd
  cmdSel : Nat → Nat
  cmdAddr : Nat → Nat
  cmdValid : Nat → Bool
  fifo : Ring (Nat → Bool)
  ramMask : Nat → Bool
  ramMaskV : Bool
  tbl : OpTable DwrOp
  txDone : Nat → Bool
  tx : DwrTx
  out : DwrBeat
  outV : Bool
  txCount : Nat
  txAv : Bool
  mpsDw : Nat
  stTag : Nat
  stV : Bool

/-- Inputs in one cycle, `rtl/dma_if_pcie_wr.v` lines 81-147. `seqs` are the sequence numbers returned in this cycle;
`imm` is the immediate extended with zeros to a RAM row. -/
structure DwrIn where
  rst : Bool := false
  addr : Nat := 0
  sel : Nat := 0
  ram : Nat := 0
  imm : Nat → UInt8 := fun _ => 0
  immEn : Bool := false
  len : Nat := 0
  tag : Nat := 0
  valid : Bool := false
  tlpReady : Bool := true
  seqs : List Nat := []
  cmdReady : Nat → Bool := fun _ => true
  respValid : Nat → Bool := fun _ => false
  respData : Nat → UInt8 := fun _ => 0
  enable : Bool := true
  requesterId : Nat := 0
  mps : Nat := 0

/-- Size of the next TLP, `rtl/dma_if_pcie_wr.v` lines 545-563 and 611-629; `m` is `max_payload_size_dw_reg`. -/
def dwrTlpSize (m addr count : Nat) : Nat :=
  if count ≤ m * 4 - addr % 4 then
    if (addr % 4096 + count % 4096) / 4096 ≠ 0 ∨ count / 4096 ≠ 0 then 4096 - addr % 4096 else count
  else
    if (addr % 4096 + m * 4) / 4096 ≠ 0 then 4096 - addr % 4096 else m * 4 - addr % 4

/-- All segments satisfy `p`. -/
def DwrCfg.allSegs (c : DwrCfg) (p : Nat → Bool) : Bool := (List.range c.segs).all p

/-- Some segment satisfies `p`. -/
def DwrCfg.anySeg (c : DwrCfg) (p : Nat → Bool) : Bool := (List.range c.segs).any p

/-- Condition for a free operation table entry, e.g. `rtl/dma_if_pcie_wr.v` line 523. -/
def opFree {α : Type} (w : Nat) (t : OpTable α) : Bool :=
  !t.active (t.start % 2 ^ w) && decide ((t.start + 2 ^ (w + 1) - t.finish) % 2 ^ (w + 1) < 2 ^ w)

/-- Condition of `rtl/dma_if_pcie_wr.v` line 714: the read of this cycle can be issued. -/
def dwrCanRead (c : DwrCfg) (s : Dwr) (i : DwrIn) : Bool :=
  c.allSegs (fun k => !(s.cmdValid k && !i.cmdReady k && s.rd.mask k)) && !ringFull (c.opW + 1) s.fifo

/-- A read is issued: `mask_fifo_we`. -/
def dwrRead (c : DwrCfg) (s : Dwr) (i : DwrIn) : Bool := s.rd.read && dwrCanRead c s i

/-- `read_cmd_ready && read_cmd_valid_reg`: `rtl/dma_if_pcie_wr.v` lines 703-705 and 787-789. -/
def dwrTakeCmd (c : DwrCfg) (s : Dwr) (i : DwrIn) : Bool :=
  s.cmdV && (!s.rd.read || (dwrRead c s i && s.rd.lastC))

/-- `op_table_start_en`: condition of `rtl/dma_if_pcie_wr.v` line 579. -/
def dwrOpStart (c : DwrCfg) (s : Dwr) (i : DwrIn) : Bool :=
  s.req.start && opFree c.opW s.tbl && (!c.anySeg s.cmdValid || c.anySeg i.cmdReady) && (!s.cmdV || dwrTakeCmd c s i)

/-- A descriptor is accepted. -/
def dwrAccept (s : Dwr) (i : DwrIn) : Bool := !s.req.start && s.req.ready && i.valid

/-- Condition of `rtl/dma_if_pcie_wr.v` line 921: a transfer is put on the TLP output. -/
def dwrBeat (c : DwrCfg) (s : Dwr) (i : DwrIn) : Bool :=
  s.tx.transfer && c.allSegs (fun k => !s.ramMask k || i.respValid k) && s.ramMaskV && (!s.outV || i.tlpReady)

/-- `op_table_tx_finish_en`. -/
def dwrTxFinish (c : DwrCfg) (s : Dwr) (i : DwrIn) : Bool := dwrBeat c s i && s.tx.lastC

/-- `op_table_tx_start_en`: `rtl/dma_if_pcie_wr.v` lines 896 and 955. -/
def dwrTxStart (c : DwrCfg) (s : Dwr) (i : DwrIn) : Bool :=
  (!s.tx.transfer || dwrTxFinish c s i) &&
  (s.tbl.active (s.tbl.txStart % 2 ^ c.opW) && s.tbl.txStart != s.tbl.start && (!c.seqEn || s.txAv))

/-- `op_table_finish_en`: `rtl/dma_if_pcie_wr.v` line 983. -/
def dwrFinish (c : DwrCfg) (s : Dwr) : Bool :=
  s.tbl.active (s.tbl.finish % 2 ^ c.opW) && (!c.seqEn || s.txDone (s.tbl.finish % 2 ^ c.opW)) &&
  s.tbl.finish != s.tbl.txFinish

/-- Request state machine, `rtl/dma_if_pcie_wr.v` lines 470-643. -/
def dwrReqStep (c : DwrCfg) (s : Dwr) (i : DwrIn) : DwrReq :=
  let free := opFree c.opW s.tbl && i.enable
  if s.req.start then
    if dwrOpStart c s i then
      let addr := (s.req.addr + s.req.tlpCount) % 2 ^ 64
      let count := s.req.count - s.req.tlpCount
      { s.req with
        start := s.req.count != s.req.tlpCount
        addr := addr
        ram := (s.req.ram + s.req.tlpCount) % 2 ^ c.ramW
        count := count
        tlpCount := dwrTlpSize s.mpsDw addr count
        ready := s.req.count == s.req.tlpCount && free }
    else { s.req with ready := false }
  else
    let count := if i.len % 2 ^ c.lenW = 0 then 1 else i.len % 2 ^ c.lenW
    { start := s.req.ready && i.valid
      addr := i.addr % 2 ^ 64
      sel := if c.immEn && i.immEn then 0 else i.sel
      ram := if c.immEn && i.immEn then 0 else i.ram % 2 ^ c.ramW
      imm := i.imm
      immEn := c.immEn && i.immEn
      count := count
      tlpCount := dwrTlpSize s.mpsDw (i.addr % 2 ^ 64) count
      tag := i.tag
      zero := decide (i.len % 2 ^ c.lenW = 0)
      ready := free && !(s.req.ready && i.valid) }

/-- The read command of the TLP that is started, `rtl/dma_if_pcie_wr.v` lines 580-588. -/
def dwrCmdOf (c : DwrCfg) (r : DwrReq) : DwrCmd :=
  let cyc := (r.tlpCount + r.addr % 4 - 1) / c.tlpBytes
  { addr := r.addr, sel := r.sel, ram := r.ram, immEn := r.immEn, len := r.tlpCount % 2 ^ 12, cyc := cyc,
    lastC := cyc == 0 }

/-- The operation table entry of the TLP that is started, `rtl/dma_if_pcie_wr.v` lines 594-605. -/
def dwrOpOf (c : DwrCfg) (r : DwrReq) : DwrOp :=
  { addr := r.addr, imm := r.imm, immEn := r.immEn, len := r.tlpCount % 2 ^ 12, zero := r.zero,
    dw := (r.tlpCount + r.addr % 4 + 3) / 4 % 2 ^ 10, cyc := (r.tlpCount + r.addr % 4 - 1) / c.tlpBytes,
    offset := (r.addr % 4 + c.rowBytes - r.ram % c.rowBytes) % c.rowBytes, tag := r.tag,
    last := r.count == r.tlpCount }

/-- Segments of a RAM row to read for `bytes` bytes from `ram`, and those to read from the next row:
`rtl/dma_if_pcie_wr.v` lines 690-701, also 741-752 and 774-785. -/
def dwrMasks (c : DwrCfg) (ram bytes : Nat) : (Nat → Bool) × (Nat → Bool) :=
  let start := ram % c.rowBytes
  let e := (start + bytes + 2 ^ (c.tb + 2) - 1) % 2 ^ (c.tb + 2)
  let m0 := fun k => decide (start / c.segBytes ≤ k)
  let m1 := fun k => decide (k ≤ e % c.rowBytes / c.segBytes)
  if e / c.rowBytes = 0 then (fun k => m0 k && m1 k, fun _ => false) else (fun k => m0 k || m1 k, m1)

/-- Start of a read command: `rtl/dma_if_pcie_wr.v` lines 677-707 and 760-793. -/
def dwrRdLoad (c : DwrCfg) (m : DwrCmd) (v : Bool) : DwrRd :=
  let bytes := if m.len > c.tlpBytes - m.addr % 4 then c.tlpBytes - m.addr % 4 else m.len
  { read := v, sel := m.sel, ram := m.ram, immEn := m.immEn, len := m.len, mask := (dwrMasks c m.ram bytes).1,
    mask1 := (dwrMasks c m.ram bytes).2, cyc := m.cyc, lastC := m.lastC, bytes := bytes }

/-- The next read of the same command: `rtl/dma_if_pcie_wr.v` lines 717-720 and 736-752. -/
def dwrRdNext (c : DwrCfg) (r : DwrRd) : DwrRd :=
  let ram := (r.ram + r.bytes) % 2 ^ c.ramW
  let len := r.len - r.bytes
  let bytes := if len > c.tlpBytes then c.tlpBytes else len
  { r with
    read := true, ram := ram, len := len, mask := (dwrMasks c ram bytes).1, mask1 := (dwrMasks c ram bytes).2,
    cyc := r.cyc - 1, lastC := r.cyc - 1 == 0, bytes := bytes }

/-- Read state machine, `rtl/dma_if_pcie_wr.v` lines 645-799. -/
def dwrRdStep (c : DwrCfg) (s : Dwr) (i : DwrIn) : DwrRd :=
  if s.rd.read then
    if dwrRead c s i then
      if s.rd.lastC then dwrRdLoad c s.cmd s.cmdV else dwrRdNext c s.rd
    else s.rd
  else dwrRdLoad c s.cmd s.cmdV

/-- `first_be`, `last_be` and the header: `rtl/dma_if_pcie_wr.v` lines 801-802 and 843-876. -/
def dwrHdr (c : DwrCfg) (x : DwrTx) (rid : Nat) : TlpHdr :=
  let big := x.addr / 4 / 2 ^ 30 != 0 || c.force64
  let first := 15 * 2 ^ (x.addr % 4) % 16
  let last := 15 / 2 ^ (3 - (x.addr % 4 + x.len % 4 + 3) % 4)
  let lastBe := if x.zero then 0 else if x.dw = 1 then 0 else last
  let firstBe := if x.zero then 0 else if x.dw = 1 then first &&& last else first
  { dw0 := (if big then 3 else 2) * 2 ^ 29 + x.dw
    dw1 := rid % 2 ^ 16 * 2 ^ 16 + lastBe * 16 + firstBe
    dw2 := if big then x.addr / 2 ^ 32 % 2 ^ 32 else x.addr / 4 % 2 ^ 30 * 4
    dw3 := if big then x.addr / 4 % 2 ^ 30 * 4 else 0 }

/-- Data of a transfer: a rotated RAM row, `rtl/dma_if_pcie_wr.v` line 908. -/
def dwrData (c : DwrCfg) (x : DwrTx) (i : DwrIn) : Nat → UInt8 := fun b =>
  (if c.immEn && x.immEn then x.imm else i.respData) ((b + c.rowBytes - x.offset) % c.rowBytes)

/-- Strobe of a transfer, `rtl/dma_if_pcie_wr.v` lines 909-913. -/
def dwrStrb (c : DwrCfg) (dw : Nat) : Nat :=
  let n := 2 ^ (c.tb - 2)
  if n ≤ dw then 2 ^ n - 1 else (2 ^ n - 1) / 2 ^ (n - dw)

/-- The transfer put on the output, `rtl/dma_if_pcie_wr.v` lines 907-917, 932 and 940. -/
def dwrBeatOut (c : DwrCfg) (s : Dwr) (i : DwrIn) : DwrBeat :=
  { data := dwrData c s.tx i, strb := dwrStrb c s.tx.dw, hdr := dwrHdr c s.tx i.requesterId,
    seq := s.tbl.txFinish % 2 ^ c.opW, sop := if dwrBeat c s i then !s.tx.frame else s.out.sop,
    eop := dwrTxFinish c s i }

/-- Start of a TLP from the operation table: `rtl/dma_if_pcie_wr.v` lines 885-901 and 944-960. -/
def dwrTxLoad (o : DwrOp) (go : Bool) : DwrTx :=
  { transfer := go, addr := o.addr, imm := o.imm, immEn := o.immEn, len := o.len, zero := o.zero, dw := o.dw,
    offset := o.offset, cyc := o.cyc, lastC := o.cyc == 0, frame := false }

/-- TLP state machine, `rtl/dma_if_pcie_wr.v` lines 804-968. -/
def dwrTxStep (c : DwrCfg) (s : Dwr) (i : DwrIn) : DwrTx :=
  let load := dwrTxLoad (s.tbl.mem (s.tbl.txStart % 2 ^ c.opW)) (dwrTxStart c s i)
  if s.tx.transfer then
    if dwrBeat c s i then
      if s.tx.lastC then load
      else
        { s.tx with
          dw := (s.tx.dw + 2 ^ 10 - 2 ^ (c.tb - 2) % 2 ^ 10) % 2 ^ 10
          offset := (s.tx.offset + c.tlpBytes) % c.rowBytes
          cyc := s.tx.cyc - 1
          lastC := s.tx.cyc - 1 == 0
          frame := true }
    else s.tx
  else load

/-- The operation table after an edge, `rtl/dma_if_pcie_wr.v` lines 1122-1155. -/
def opTableStep {α : Type} (w : Nat) (t : OpTable α) (st : Bool) (x : α) (ts tf fin : Bool) : OpTable α :=
  { start := if st then (t.start + 1) % 2 ^ (w + 1) else t.start
    txStart := if ts then (t.txStart + 1) % 2 ^ (w + 1) else t.txStart
    txFinish := if tf then (t.txFinish + 1) % 2 ^ (w + 1) else t.txFinish
    finish := if fin then (t.finish + 1) % 2 ^ (w + 1) else t.finish
    active := fun k => if fin && k == t.finish % 2 ^ w then false else if st && k == t.start % 2 ^ w then true
      else t.active k
    mem := fun k => if st && k == t.start % 2 ^ w then x else t.mem k }

/-- The count of TLPs in flight, `rtl/dma_if_pcie_wr.v` lines 1002-1019: saturating in `$clog2(TX_LIMIT+1)` bits. -/
def dwrTxCount (c : DwrCfg) (n : Nat) (inc : Bool) (seqs : Nat) : Nat :=
  if n + inc.toNat - seqs ≥ 2 ^ clog2 (c.txLimit + 1) then 2 ^ clog2 (c.txLimit + 1) - 1 else n + inc.toNat - seqs

/-- The mask FIFO and the mask of the next transfer, `rtl/dma_if_pcie_wr.v` lines 970-974 and 1116-1120: the FIFO
after the edge. -/
def dwrFifoStep (c : DwrCfg) (s : Dwr) (i : DwrIn) : Ring (Nat → Bool) :=
  let f := if (!s.ramMaskV || dwrBeat c s i) && !ringEmpty s.fifo then ringPop (c.opW + 1) s.fifo else s.fifo
  if dwrRead c s i then ringPush (c.opW + 1) f (if c.immEn && s.rd.immEn then fun _ => false else s.rd.mask) else f

/-- One clock edge without reset, `rtl/dma_if_pcie_wr.v` lines 1023-1155. -/
def dwrNext (c : DwrCfg) (s : Dwr) (i : DwrIn) : Dwr :=
  let pop := (!s.ramMaskV || dwrBeat c s i) && !ringEmpty s.fifo
  { req := dwrReqStep c s i
    cmd := if dwrOpStart c s i then dwrCmdOf c s.req else s.cmd
    cmdV := dwrOpStart c s i || (s.cmdV && !dwrTakeCmd c s i)
    rd := dwrRdStep c s i
    cmdSel := fun k => if dwrRead c s i && s.rd.mask k then s.rd.sel else s.cmdSel k
    cmdAddr := fun k =>
      if dwrRead c s i && s.rd.mask1 k then (s.rd.ram / c.rowBytes + 1) % 2 ^ (c.ramW - (c.tb + 1))
      else if dwrRead c s i && s.rd.mask k then s.rd.ram / c.rowBytes % 2 ^ (c.ramW - (c.tb + 1)) else s.cmdAddr k
    cmdValid := fun k => if dwrRead c s i && s.rd.mask k then !(c.immEn && s.rd.immEn) else s.cmdValid k && !i.cmdReady k
    fifo := dwrFifoStep c s i
    ramMask := if pop then ringHead (c.opW + 1) s.fifo else s.ramMask
    ramMaskV := pop || (s.ramMaskV && !dwrBeat c s i)
    tbl := opTableStep c.opW s.tbl (dwrOpStart c s i) (dwrOpOf c s.req) (dwrTxStart c s i) (dwrTxFinish c s i) (dwrFinish c s)
    txDone := fun k => if i.seqs.any (fun q => q % 2 ^ c.opW == k) then true
      else if dwrOpStart c s i && k == s.tbl.start % 2 ^ c.opW then false else s.txDone k
    tx := dwrTxStep c s i
    out := if s.tx.transfer && (!s.outV || i.tlpReady) then dwrBeatOut c s i else s.out
    outV := dwrBeat c s i || (s.outV && !i.tlpReady)
    txCount := dwrTxCount c s.txCount (dwrBeat c s i && !s.tx.frame) i.seqs.length
    txAv := decide (dwrTxCount c s.txCount (dwrBeat c s i && !s.tx.frame) i.seqs.length < c.txLimit)
    mpsDw := 32 * 2 ^ (if i.mps > 5 then 5 else i.mps)
    stTag := (s.tbl.mem (s.tbl.finish % 2 ^ c.opW)).tag
    stV := dwrFinish c s && (s.tbl.mem (s.tbl.finish % 2 ^ c.opW)).last }

/-- One clock edge; reset as in `rtl/dma_if_pcie_wr.v` lines 1157-1197. -/
def dwrStep (c : DwrCfg) (s : Dwr) (i : DwrIn) : Dwr :=
  let n := dwrNext c s i
  if i.rst then
    { n with
      req := { n.req with start := false, ready := false }
      rd := { n.rd with read := false }
      tx := { n.tx with transfer := false }
      cmdV := false
      ramMaskV := false
      outV := false
      stV := false
      cmdValid := fun _ => false
      txCount := 0
      txAv := true
      fifo := ringReset n.fifo
      tbl := { n.tbl with start := 0, txStart := 0, txFinish := 0, finish := 0, active := fun _ => false } }
  else n

/-- `ram_rd_resp_ready`, by segment. -/
def dwrRespReady (c : DwrCfg) (s : Dwr) (i : DwrIn) (k : Nat) : Bool := dwrBeat c s i && s.ramMask k

/-- A history. -/
def dwrRun (c : DwrCfg) : Dwr → List DwrIn → Dwr
  | s, [] => s
  | s, i :: is => dwrRun c (dwrStep c s i) is

end Verif.Model
