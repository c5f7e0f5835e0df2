import Verif.Model.DmaIfPcieWr
import Verif.Model.RamDemux
/-!
Model of `rtl/dma_if_pcie_rd.v`, the PCIe DMA read interface: descriptors are turned into memory read requests, the data
of the completions is written to a segmented RAM, and a status is returned for each descriptor. One step is one clock edge.

Simplifications: `PCIE_ADDR_WIDTH` is 64; the TLP data width is `2^tb` bytes and there are `2^sc` RAM segments (so a RAM
row has `2 * 2^tb` bytes); `PCIE_TAG_COUNT` and `OP_TABLE_SIZE` enter only by the widths of the tags, as in the code
(lines 189-206). The statistics outputs, `status_busy`, the counters only read for them (`active_tag_count_reg`,
`active_op_count_reg`) and registers that are never read (`error_code_reg`, `zero_len_reg`, `ram_mask_0_reg`,
`cycle_byte_count_reg`, `op_dword_count_reg`) are left out. A data bus is a function from byte lane to byte, a vector over
RAM segments or lanes a function to `Bool`. `tx_rd_req_tlp_seq`, `sop` and `eop` are constant.
-/
namespace Verif.Model

/-- Parameters, `rtl/dma_if_pcie_rd.v` lines 37-79 and 179-206. `tagW` is `PCIE_TAG_WIDTH`, `opW` is `OP_TAG_WIDTH`. -/
structure DrdCfg where
  tb : Nat
  sc : Nat
  ramW : Nat
  lenW : Nat
  tagW : Nat
  opW : Nat
  seqEn : Bool
  txLimit : Nat
  cplhLimit : Nat
  cpldLimit : Nat
  force64 : Bool
  checkBus : Bool
deriving DecidableEq, Repr

/-- `rtl/dma_if_pcie_rd.v` line 183: `TLP_DATA_WIDTH_BYTES`. -/
def DrdCfg.tlpBytes (c : DrdCfg) : Nat := 2 ^ c.tb

/-- `rtl/dma_if_pcie_rd.v` lines 179 and 187: `RAM_DATA_WIDTH/8`. -/
def DrdCfg.rowBytes (c : DrdCfg) : Nat := 2 ^ (c.tb + 1)

/-- `rtl/dma_if_pcie_rd.v` line 53: `RAM_SEG_COUNT`. -/
def DrdCfg.segs (c : DrdCfg) : Nat := 2 ^ c.sc

/-- `rtl/dma_if_pcie_rd.v` line 57: `RAM_SEG_BE_WIDTH`. -/
def DrdCfg.segBytes (c : DrdCfg) : Nat := 2 ^ (c.tb + 1 - c.sc)

/-- `rtl/dma_if_pcie_rd.v` lines 190-191: `PCIE_TAG_WIDTH_1`; `PCIE_TAG_COUNT_1` is `2 ^ tagW1`. -/
def DrdCfg.tagW1 (c : DrdCfg) : Nat := if c.tagW > 5 then 5 else c.tagW

/-- `rtl/dma_if_pcie_rd.v` line 192: `PCIE_TAG_COUNT_2`. -/
def DrdCfg.tagCount2 (c : DrdCfg) : Nat := if c.tagW > 5 then 2 ^ c.tagW - 32 else 0

/-- `rtl/dma_if_pcie_rd.v` line 193: `PCIE_TAG_WIDTH_2`. -/
def DrdCfg.tagW2 (c : DrdCfg) : Nat := clog2 c.tagCount2

/-- `rtl/dma_if_pcie_rd.v` line 206: `INIT_COUNT_WIDTH`. -/
def DrdCfg.initW (c : DrdCfg) : Nat := if c.tagW > c.opW then c.tagW else c.opW

/-- `rtl/dma_if_pcie_rd.v` lines 318-321: initialisation of the tables. -/
structure DrdInit where
  count : Nat
  done : Bool
  tag : Bool
  op : Bool

/-- `rtl/dma_if_pcie_rd.v` lines 297, 323-327 and 440: the request state machine. -/
structure DrdReq where
  start : Bool
  addr : Nat
  sel : Nat
  ram : Nat
  count : Nat
  zero : Bool
  ready : Bool

/-- `rtl/dma_if_pcie_rd.v` lines 516-538: an entry of the PCIe tag table. -/
structure DrdTag where
  sel : Nat
  ram : Nat
  op : Nat
  cplh : Nat
  cpld : Nat
  zero : Bool

/-- `rtl/dma_if_pcie_rd.v` lines 571-588: the operation table. -/
structure DrdOps where
  tag : Nat → Nat
  initA : Nat → Bool
  initB : Nat → Bool
  commit : Nat → Bool
  cntS : Nat → Nat
  cntF : Nat → Nat
  errA : Nat → Bool
  errB : Nat → Bool
  errCode : Nat → Nat

/-- `rtl/dma_if_pcie_rd.v` lines 299-302: states of the completion state machine. -/
inductive DrdSt where
  | idle
  | write
  | waitEnd
deriving DecidableEq, Repr

/-- `rtl/dma_if_pcie_rd.v` lines 334-355 and 435: the completion state machine and the stage after it. -/
structure DrdRx where
  st : DrdSt
  ready : Bool
  sel : Nat
  addr : Nat
  addrD : Nat
  count : Nat
  mask : Nat → Bool
  mask1 : Nat → Bool
  wrap : Bool
  startOff : Nat
  endOff : Nat
  tag : Nat
  op : Nat
  final : Bool
  finish : Bool
  offset : Nat
  data : Nat → UInt8
  dataV : Bool
  stMask : Bool
  stFinish : Bool
  stError : Nat
  stWr : Bool
  errCor : Bool
  errUncor : Bool

/-- `rtl/dma_if_pcie_rd.v` lines 357-361: the write pipeline stage; `be` and `data` by byte lane of the row. -/
structure DrdPipe where
  sel : Nat
  be : Nat → Bool
  addr : Nat → Nat
  data : Nat → UInt8
  valid : Nat → Bool

/-- `rtl/dma_if_pcie_rd.v` lines 386-395: an entry of the status FIFO. -/
structure DrdEntry where
  op : Nat
  mask : Nat → Bool
  finish : Bool
  error : Nat

/-- `rtl/dma_if_pcie_rd.v` lines 1673-1677: a write command of a segment; `be` and `data` by byte of the segment. -/
structure DrdCmd where
  sel : Nat
  be : Nat → Bool
  addr : Nat
  data : Nat → UInt8

/-- All registers. -/
structure Drd where
  init : DrdInit
  req : DrdReq
  opTag : Nat
  opTagV : Bool
  tag : Nat
  tagV : Bool
  opFifo : Ring Nat
  fifo1 : Ring Nat
  fifo2 : Ring Nat
  startEn : Bool
  startPtr : Nat
  startE : DrdTag
  tags : Nat → DrdTag
  actA : Nat → Bool
  actB : Nat → Bool
  ops : DrdOps
  tx : TlpHdr
  txV : Bool
  txCount : Nat
  txAv : Bool
  cplh : Nat
  cplhAv : Bool
  cpld : Nat
  cpldAv : Bool
  mrrsDw : Nat
  rcb : Bool
  rx : DrdRx
  pipe : DrdPipe
  fifo : Ring DrdEntry
  full : Bool
  cur : DrdEntry
  curV : Bool
  stTag : Nat
  stErr : Nat
  stV : Bool
  out : Nat → OutFifo DrdCmd
  doneC : Nat → Nat
  doneR : Nat → Bool

/-- Inputs in one cycle, `rtl/dma_if_pcie_rd.v` lines 82-148. `seqs` is the number of sequence numbers returned. -/
structure DrdIn where
  rst : Bool := false
  addr : Nat := 0
  sel : Nat := 0
  ram : Nat := 0
  len : Nat := 0
  tag : Nat := 0
  valid : Bool := false
  txReady : Bool := true
  seqs : Nat := 0
  rxData : Nat → UInt8 := fun _ => 0
  rxHdr : TlpHdr := ⟨0, 0, 0, 0⟩
  rxError : Nat := 0
  rxValid : Bool := false
  rxSop : Bool := false
  rxEop : Bool := false
  cmdReady : Nat → Bool := fun _ => true
  done : Nat → Bool := fun _ => false
  enable : Bool := true
  extTag : Bool := true
  rcb : Bool := false
  requesterId : Nat := 0
  mrrs : Nat := 0

/-! ### Requests -/

/-- `rtl/dma_if_pcie_rd.v` lines 311-316: the size of the next request. -/
structure DrdSize where
  count : Nat
  dw : Nat
  cplh : Nat
  cpld : Nat
  last : Bool
  next : Nat
deriving DecidableEq, Repr

/-- `rtl/dma_if_pcie_rd.v` lines 663-722; `m` is `max_read_request_size_dw_reg`. The sum in line 663 is computed in
`max(LEN_WIDTH, 13)` bits. -/
def drdSize (c : DrdCfg) (m : Nat) (rcb : Bool) (addr count : Nat) : DrdSize :=
  if (count + addr % 4) % 2 ^ (max c.lenW 13) ≤ m * 4 then
    if (addr % 4096 + count % 4096) / 4096 ≠ 0 ∨ count / 4096 ≠ 0 then
      { count := 4096 - addr % 4096
        dw := 1024 - addr % 4096 / 4
        cpld := 256 - addr % 4096 / 16
        cplh := if rcb then 32 - addr % 4096 / 128 else 64 - addr % 4096 / 64
        last := decide ((addr % 4096 + count % 4096) % 4096 = 0) && decide (count / 4096 = 0)
        next := (addr / 4096 + 1) % 2 ^ 52 * 4096 }
    else
      { count := count
        dw := (count + addr % 4 + 3) / 4
        cpld := (count + addr % 4 + 15) / 16
        cplh := if rcb then (addr % 128 + count + 127) / 128 else (addr % 64 + count + 63) / 64
        last := true
        next := addr / 4096 * 4096 }
  else
    if (addr % 4096 + m * 4) / 4096 ≠ 0 then
      { count := 4096 - addr % 4096
        dw := 1024 - addr % 4096 / 4
        cpld := 256 - addr % 4096 / 16
        cplh := if rcb then 32 - addr % 4096 / 128 else 64 - addr % 4096 / 64
        last := false
        next := (addr / 4096 + 1) % 2 ^ 52 * 4096 }
    else
      { count := m * 4 - addr % 128
        dw := m - addr % 128 / 4
        cpld := m / 4 - addr % 128 / 16
        cplh := if rcb then m / 32 else m / 16 - addr / 64 % 2
        last := false
        next := addr / 4096 * 4096 + (addr % 4096 / 128 * 128 + m * 4) % 4096 }

/-- The size of the next request in this state. -/
def drdReqSize (c : DrdCfg) (s : Drd) : DrdSize := drdSize c s.mrrsDw s.rcb s.req.addr s.req.count

/-- `rtl/dma_if_pcie_rd.v` lines 743-744 and 749-783: the header of the read request. -/
def drdHdr (c : DrdCfg) (s : Drd) (rid : Nat) : TlpHdr :=
  let z := drdReqSize c s
  let addr := s.req.addr
  let big := addr / 4 / 2 ^ 30 != 0 || c.force64
  let first := 15 * 2 ^ (addr % 4) % 16
  let last := 15 / 2 ^ (3 - (addr % 4 + z.count % 4 + 3) % 4)
  let lastBe := if s.req.zero then 0 else if z.dw = 1 then 0 else last
  let firstBe := if s.req.zero then 0 else if z.dw = 1 then first &&& last else first
  { dw0 := (if big then 1 else 0) * 2 ^ 29 + z.dw % 2 ^ 10
    dw1 := rid % 2 ^ 16 * 2 ^ 16 + s.tag % 2 ^ 8 * 2 ^ 8 + lastBe * 16 + firstBe
    dw2 := if big then addr / 2 ^ 32 % 2 ^ 32 else addr / 4 % 2 ^ 30 * 4
    dw3 := if big then addr / 4 % 2 ^ 30 * 4 else 0 }

/-- `rtl/dma_if_pcie_rd.v` line 790: a descriptor is accepted. -/
def drdAccept (s : Drd) (i : DrdIn) : Bool := !s.req.start && s.req.ready && i.valid

/-- `rtl/dma_if_pcie_rd.v` line 820: a read request is issued. -/
def drdIssue (c : DrdCfg) (s : Drd) (i : DrdIn) : Bool :=
  s.req.start && (!s.txV || i.txReady) && s.tagV && (!c.seqEn || s.txAv) && s.cplhAv && s.cpldAv

/-- `rtl/dma_if_pcie_rd.v` line 851: the last read request of the descriptor is issued. -/
def drdIssueLast (c : DrdCfg) (s : Drd) (i : DrdIn) : Bool := drdIssue c s i && (drdReqSize c s).last

/-- `rtl/dma_if_pcie_rd.v` lines 622-862: the request state machine. -/
def drdReqStep (c : DrdCfg) (s : Drd) (i : DrdIn) : DrdReq :=
  if s.req.start then
    if drdIssue c s i then
      { s.req with
        start := !(drdReqSize c s).last
        addr := (drdReqSize c s).next
        ram := (s.req.ram + (drdReqSize c s).count) % 2 ^ c.ramW
        count := (s.req.count + 2 ^ c.lenW - (drdReqSize c s).count % 2 ^ c.lenW) % 2 ^ c.lenW
        ready := (drdReqSize c s).last && s.init.done && i.enable && !ringEmpty s.opFifo }
    else { s.req with ready := false }
  else if drdAccept s i then
    { start := true
      addr := i.addr % 2 ^ 64
      sel := i.sel
      ram := i.ram % 2 ^ c.ramW
      count := if i.len % 2 ^ c.lenW = 0 then 1 else i.len % 2 ^ c.lenW
      zero := decide (i.len % 2 ^ c.lenW = 0)
      ready := false }
  else { s.req with ready := s.init.done && i.enable && s.opTagV }

/-- `rtl/dma_if_pcie_rd.v` lines 734-741 and 829-836: the entry for the tag table. -/
def drdTagOf (c : DrdCfg) (s : Drd) : DrdTag :=
  { sel := s.req.sel, ram := (s.req.ram + (drdReqSize c s).count) % 2 ^ c.ramW, op := s.opTag,
    cplh := (drdReqSize c s).cplh, cpld := (drdReqSize c s).cpld, zero := s.req.zero }

/-! ### Completions -/

/-- `rtl/dma_if_pcie_rd.v` lines 971-992: fields of the completion header. -/
def cplFmt (h : TlpHdr) : Nat := h.dw0 / 2 ^ 29 % 8

/-- `rtl/dma_if_pcie_rd.v` line 974. -/
def cplTc (h : TlpHdr) : Nat := h.dw0 / 2 ^ 20 % 8

/-- `rtl/dma_if_pcie_rd.v` lines 976 and 981. -/
def cplAttr (h : TlpHdr) : Nat := h.dw0 / 2 ^ 18 % 2 * 4 + h.dw0 / 2 ^ 12 % 4

/-- `rtl/dma_if_pcie_rd.v` line 980. -/
def cplEp (h : TlpHdr) : Bool := h.dw0 / 2 ^ 14 % 2 == 1

/-- `rtl/dma_if_pcie_rd.v` line 983. -/
def cplLen (h : TlpHdr) : Nat := if h.dw0 % 2 ^ 10 = 0 then 1024 else h.dw0 % 2 ^ 10

/-- `rtl/dma_if_pcie_rd.v` line 986. -/
def cplStatus (h : TlpHdr) : Nat := h.dw1 / 2 ^ 13 % 8

/-- `rtl/dma_if_pcie_rd.v` line 988. -/
def cplBytes (h : TlpHdr) : Nat := if h.dw1 % 2 ^ 12 = 0 then 4096 else h.dw1 % 2 ^ 12

/-- `rtl/dma_if_pcie_rd.v` line 990. -/
def cplRid (h : TlpHdr) : Nat := h.dw2 / 2 ^ 16 % 2 ^ 16

/-- `rtl/dma_if_pcie_rd.v` lines 973, 975 and 991. -/
def cplTag (h : TlpHdr) : Nat := h.dw0 / 2 ^ 23 % 2 * 512 + h.dw0 / 2 ^ 19 % 2 * 256 + h.dw2 / 2 ^ 8 % 2 ^ 8

/-- `rtl/dma_if_pcie_rd.v` line 992. -/
def cplLower (h : TlpHdr) : Nat := h.dw2 % 2 ^ 7

/-- `rtl/dma_if_pcie_rd.v` lines 1000, 1187 and 1253: a transfer on the completion interface. -/
def drdBeat (s : Drd) (i : DrdIn) : Bool := s.rx.ready && i.rxValid

/-- `rtl/dma_if_pcie_rd.v` line 1000: a completion starts. -/
def drdHead (s : Drd) (i : DrdIn) : Bool := s.rx.st == .idle && drdBeat s i && i.rxSop

/-- `rtl/dma_if_pcie_rd.v` line 1002: the tag, in `PCIE_TAG_WIDTH` bits. -/
def drdRxTag (c : DrdCfg) (i : DrdIn) : Nat := cplTag i.rxHdr % 2 ^ c.tagW

/-- `rtl/dma_if_pcie_rd.v` lines 1069-1072: unexpected completion. -/
def drdUnexpected (c : DrdCfg) (s : Drd) (i : DrdIn) : Bool :=
  (cplStatus i.rxHdr == 0 && cplFmt i.rxHdr != 2) ||
  (if c.checkBus then cplRid i.rxHdr != i.requesterId % 2 ^ 16 else cplRid i.rxHdr % 2 ^ 8 != i.requesterId % 2 ^ 8) ||
  s.actB (drdRxTag c i) == s.actA (drdRxTag c i)

/-- `rtl/dma_if_pcie_rd.v` lines 1085-1086: malformed TLP. -/
def drdMalformed (i : DrdIn) : Bool :=
  (cplStatus i.rxHdr != 0 && cplFmt i.rxHdr != 0) || cplAttr i.rxHdr != 0 || cplTc i.rxHdr != 0 || i.rxError == 3

/-- `rtl/dma_if_pcie_rd.v` lines 1098-1127: the error code of a completion that ends the transfer, or 0. -/
def drdCplError (i : DrdIn) : Nat :=
  if cplEp i.rxHdr || i.rxError == 1 then 9
  else if cplStatus i.rxHdr != 0 || i.rxError == 2 then if cplStatus i.rxHdr == 4 then 11 else 10
  else if i.rxError == 15 then 1
  else if i.rxError == 8 then 8
  else 0

/-- The start of a completion that is taken, without or with error. -/
def drdTaken (c : DrdCfg) (s : Drd) (i : DrdIn) : Bool := drdHead s i && !drdUnexpected c s i && !drdMalformed i

/-- `rtl/dma_if_pcie_rd.v` lines 1145-1178: the start of a completion with data. -/
def drdGood (c : DrdCfg) (s : Drd) (i : DrdIn) : Bool := drdTaken c s i && drdCplError i == 0

/-- `rtl/dma_if_pcie_rd.v` lines 1010-1013 and 1030-1033: more completions follow. -/
def drdMore (h : TlpHdr) : Bool := decide (cplBytes h > cplLen h * 4 - cplLower h % 4)

/-- `rtl/dma_if_pcie_rd.v` lines 1012 and 1032: the number of bytes in the completion. -/
def drdTotal (h : TlpHdr) : Nat := if drdMore h then cplLen h * 4 - cplLower h % 4 else cplBytes h

/-- `rtl/dma_if_pcie_rd.v` lines 1015 and 1035: the completion has more than one cycle. -/
def drdLong (c : DrdCfg) (h : TlpHdr) : Bool :=
  if drdMore h then decide (cplLen h > c.tlpBytes / 4) else decide (cplBytes h > c.tlpBytes - cplLower h % 4)

/-- `rtl/dma_if_pcie_rd.v` lines 1017, 1024, 1037 and 1044: `cycle_byte_count_next` at the start of a completion. -/
def drdCyc0 (c : DrdCfg) (h : TlpHdr) : Nat := if drdLong c h then c.tlpBytes - cplLower h % 4 else drdTotal h

/-- `rtl/dma_if_pcie_rd.v` line 1005: the RAM address. -/
def drdAddr0 (c : DrdCfg) (s : Drd) (i : DrdIn) : Nat :=
  ((s.tags (drdRxTag c i)).ram + 2 ^ c.ramW * 2 ^ 13 - cplBytes i.rxHdr) % 2 ^ c.ramW

/-- `rtl/dma_if_pcie_rd.v` lines 1191-1199: `cycle_byte_count_next` in the following cycles. -/
def drdCyc (c : DrdCfg) (s : Drd) : Nat := if s.rx.count > c.tlpBytes then c.tlpBytes else s.rx.count

/-- `rtl/dma_if_pcie_rd.v` lines 1021 and 1201: `{ram_wrap_next, end_offset_next}`. -/
def drdEnd (c : DrdCfg) (addr cyc : Nat) : Nat := (addr % c.rowBytes + cyc + 2 ^ (c.tb + 2) - 1) % 2 ^ (c.tb + 2)

/-- `rtl/dma_if_pcie_rd.v` lines 1020-1066 and 1200-1216: the registers for a write of `cyc` bytes from `addr`. -/
def drdSpan (c : DrdCfg) (r : DrdRx) (addr cyc count : Nat) : DrdRx :=
  let e := drdEnd c addr cyc
  let m0 := fun k => decide (addr % c.rowBytes / c.segBytes ≤ k)
  let m1 := fun k => decide (k ≤ e % c.rowBytes / c.segBytes)
  { r with
    startOff := addr % c.rowBytes
    endOff := e % c.rowBytes
    wrap := e / c.rowBytes != 0
    mask := if e / c.rowBytes = 0 then fun k => m0 k && m1 k else fun k => m0 k || m1 k
    mask1 := if e / c.rowBytes = 0 then fun _ => false else m1
    addrD := addr
    addr := (addr + cyc) % 2 ^ c.ramW
    count := (count + 2 ^ 13 - cyc) % 2 ^ 13 }

/-- All segments satisfy `p`. -/
def DrdCfg.allSegs (c : DrdCfg) (p : Nat → Bool) : Bool := (List.range c.segs).all p

/-- `rtl/dma_if_pcie_rd.v` lines 998, 1185, 1255 and 1698: there is space for more transfers. -/
def drdSpace (c : DrdCfg) (s : Drd) : Bool := s.init.done && c.allSegs (fun k => !(s.out k).half) && !s.full

/-- The state machine when nothing is taken: defaults of `rtl/dma_if_pcie_rd.v` lines 905-931. -/
def drdRxIdle (r : DrdRx) (i : DrdIn) : DrdRx :=
  { r with
    finish := false, data := i.rxData, dataV := false, stMask := true, stFinish := false, stError := 0, stWr := false,
    errCor := false, errUncor := false }

/-- `rtl/dma_if_pcie_rd.v` lines 1001-1067: the registers at the start of a completion, of any kind. -/
def drdRxLoad (c : DrdCfg) (s : Drd) (i : DrdIn) : DrdRx :=
  { drdSpan c (drdRxIdle s.rx i) (drdAddr0 c s i) (drdCyc0 c i.rxHdr) (drdTotal i.rxHdr) with
    tag := drdRxTag c i
    sel := (s.tags (drdRxTag c i)).sel
    op := (s.tags (drdRxTag c i)).op
    final := !drdMore i.rxHdr
    offset := ((s.tags (drdRxTag c i)).ram + c.tlpBytes * 2 ^ 13 - (cplBytes i.rxHdr + cplLower i.rxHdr % 4)) % c.tlpBytes }

/-- `rtl/dma_if_pcie_rd.v` lines 890-1264: the completion state machine. -/
def drdRxStep (c : DrdCfg) (s : Drd) (i : DrdIn) : DrdRx :=
  match s.rx.st with
  | .idle =>
    if drdHead s i then
      let r := drdRxLoad c s i
      let r := { r with st := if i.rxEop then .idle else .waitEnd, ready := if i.rxEop then drdSpace c s else s.init.done }
      if drdUnexpected c s i then { r with errCor := true }
      else if drdMalformed i then { r with errUncor := true }
      else if drdCplError i != 0 then
        { r with
          errCor := drdCplError i == 9 || drdCplError i == 10 || drdCplError i == 11
          errUncor := drdCplError i == 1
          finish := true, stMask := false, stFinish := true, stError := drdCplError i, stWr := true }
      else
        let fin := !drdLong c i.rxHdr && !drdMore i.rxHdr
        { r with
          st := if drdLong c i.rxHdr then .write else .idle
          ready := drdSpace c s
          dataV := !(s.tags (drdRxTag c i)).zero
          stMask := !(s.tags (drdRxTag c i)).zero
          stWr := true, finish := fin, stFinish := fin }
    else { drdRxIdle s.rx i with ready := drdSpace c s }
  | .write =>
    if drdBeat s i then
      let lastCycle := !decide (s.rx.count > c.tlpBytes)
      let fin := (lastCycle || i.rxEop) && s.rx.final
      { drdSpan c (drdRxIdle s.rx i) s.rx.addr (drdCyc c s) s.rx.count with
        st := if i.rxEop then .idle else if lastCycle then .waitEnd else .write
        ready := drdSpace c s, dataV := true, stWr := true, finish := fin, stFinish := fin }
    else { drdRxIdle s.rx i with ready := drdSpace c s }
  | .waitEnd =>
    if drdBeat s i && i.rxEop then { drdRxIdle s.rx i with st := .idle, ready := drdSpace c s }
    else { drdRxIdle s.rx i with ready := s.init.done }

/-- `rtl/dma_if_pcie_rd.v` lines 941-958: the write pipeline stage. -/
def drdPipeStep (c : DrdCfg) (s : Drd) : DrdPipe :=
  { sel := s.rx.sel
    be := fun b =>
      if s.rx.wrap then decide (s.rx.startOff ≤ b) || decide (b ≤ s.rx.endOff)
      else decide (s.rx.startOff ≤ b) && decide (b ≤ s.rx.endOff)
    addr := fun k => (s.rx.addrD / c.rowBytes + (s.rx.mask1 k).toNat) % 2 ^ (c.ramW - (c.tb + 1))
    data := fun b => s.rx.data ((b + c.tlpBytes - s.rx.offset) % c.tlpBytes)
    valid := fun k => s.rx.dataV && s.rx.mask k }

/-- `rtl/dma_if_pcie_rd.v` lines 960-964 and 1713-1717: the command of a segment. -/
def drdPipeCmd (c : DrdCfg) (p : DrdPipe) (k : Nat) : DrdCmd :=
  { sel := p.sel, be := fun b => p.be (k * c.segBytes + b), addr := p.addr k, data := fun b => p.data (k * c.segBytes + b) }

/-! ### Output FIFO with narrow pointers -/

/-- `rtl/dma_if_pcie_rd.v` line 1711: `$unsigned(out_fifo_wr_ptr_reg - out_fifo_rd_ptr_reg)`, with pointers of `aw` bits. -/
def nringCount {α : Type} (aw : Nat) (r : Ring α) : Nat := (r.wr + 2 ^ aw - r.rd) % 2 ^ aw

/-- `rtl/dma_if_pcie_rd.v` lines 1679-1744: output FIFO and output register of a segment. The pointers have only `aw` bits,
so the comparison of line 1683 with a value of `aw+1` bits never succeeds. -/
def nfifoStep {α : Type} (aw : Nat) (rst : Bool) (s : OutFifo α) (vin : Bool) (x : α) (rdy : Bool) : OutFifo α :=
  let push := !(s.ring.wr == (s.ring.rd ^^^ (1 <<< aw))) && vin
  let pop := !(s.ring.wr == s.ring.rd) && (!s.valid || rdy)
  { ring :=
      { wr := if rst then 0 else if push then (s.ring.wr + 1) % 2 ^ aw else s.ring.wr
        rd := if rst then 0 else if pop then (s.ring.rd + 1) % 2 ^ aw else s.ring.rd
        mem := fun a => if push && a == s.ring.wr % 2 ^ aw then x else s.ring.mem a }
    half := decide (nringCount aw s.ring ≥ 2 ^ (aw - 1))
    valid := if rst then false else if pop then true else s.valid && !rdy
    out := if pop then s.ring.mem (s.ring.rd % 2 ^ aw) else s.out }

/-! ### Status -/

/-- `rtl/dma_if_pcie_rd.v` line 1335: the writes for the current entry of the status FIFO are done. -/
def drdPop (c : DrdCfg) (s : Drd) : Bool := !s.init.op && s.curV && c.allSegs (fun k => !(s.cur.mask k && !s.doneR k))

/-- `rtl/dma_if_pcie_rd.v` line 1340: `out_done_ack`. -/
def drdAck (c : DrdCfg) (s : Drd) (k : Nat) : Bool := drdPop c s && s.cur.mask k

/-- `rtl/dma_if_pcie_rd.v` lines 1344-1353: the operation is complete. -/
def drdOpDone (c : DrdCfg) (s : Drd) : Bool :=
  drdPop c s && s.cur.finish && s.ops.commit s.cur.op && s.ops.cntS s.cur.op == s.ops.cntF s.cur.op

/-- `rtl/dma_if_pcie_rd.v` lines 1306-1312: the error status. -/
def drdStError (s : Drd) : Nat :=
  if s.cur.error != 0 then s.cur.error
  else if s.ops.errA s.cur.op != s.ops.errB s.cur.op then s.ops.errCode s.cur.op else 0

/-- `rtl/dma_if_pcie_rd.v` lines 1357-1361: the next entry is read from the status FIFO. -/
def drdStRd (c : DrdCfg) (s : Drd) : Bool := !(s.curV && !drdPop c s) && !ringEmpty s.fifo

/-- `rtl/dma_if_pcie_rd.v` lines 1296-1300 and 1479-1485: the entry written to the status FIFO. -/
def drdEntryOf (r : DrdRx) : DrdEntry :=
  { op := r.op, mask := fun k => r.stMask && r.mask k, finish := r.stFinish, error := r.stError }

/-- `rtl/dma_if_pcie_rd.v` lines 1556-1591: the operation table after an edge. -/
def drdOpsStep (c : DrdCfg) (s : Drd) (i : DrdIn) : DrdOps :=
  let o := s.ops
  let n := s.init.count % 2 ^ c.opW
  let first := o.initB s.opTag != o.initA s.opTag
  { tag := fun k => if !s.init.op && drdAccept s i && k == s.opTag then i.tag else o.tag k
    initA := fun k =>
      if s.init.op then if k == n then false else o.initA k
      else if drdAccept s i && k == s.opTag then !o.initB k else o.initA k
    errA := fun k =>
      if s.init.op then if k == n then false else o.errA k
      else if drdAccept s i && k == s.opTag then o.errB k else o.errA k
    initB := fun k =>
      if s.init.op then if k == n then false else o.initB k
      else if drdIssue c s i && k == s.opTag then o.initA k else o.initB k
    commit := fun k => if !s.init.op && drdIssue c s i && k == s.opTag then (drdReqSize c s).last else o.commit k
    cntS := fun k =>
      if s.init.op then if k == n then 0 else o.cntS k
      else if drdIssue c s i && k == s.opTag then
        if first then o.cntF k else (o.cntS k + 1) % 2 ^ (c.tagW + 1)
      else o.cntS k
    errB := fun k =>
      if s.init.op then if k == n then false else o.errB k
      else if drdPop c s && s.cur.error != 0 && k == s.cur.op then !o.errA k else o.errB k
    errCode := fun k => if !s.init.op && drdPop c s && s.cur.error != 0 && k == s.cur.op then s.cur.error else o.errCode k
    cntF := fun k =>
      if s.init.op then if k == n then 0 else o.cntF k
      else if drdPop c s && s.cur.finish && k == s.cur.op then (o.cntF k + 1) % 2 ^ (c.tagW + 1) else o.cntF k }

/-! ### Tags -/

/-- `rtl/dma_if_pcie_rd.v` lines 1269-1294: the tag that is written to a tag FIFO. -/
def drdTagWr (c : DrdCfg) (s : Drd) : Nat := if s.init.tag then s.init.count % 2 ^ c.tagW else s.rx.tag

/-- `rtl/dma_if_pcie_rd.v` lines 1273-1294: a tag is written to a tag FIFO. -/
def drdTagWe (s : Drd) : Bool := s.init.tag || s.rx.finish

/-- `rtl/dma_if_pcie_rd.v` lines 1276 and 1289: it is written to the first FIFO. -/
def drdTagLow (c : DrdCfg) (s : Drd) : Bool := decide (drdTagWr c s < 2 ^ c.tagW1) || c.tagCount2 == 0

/-- `rtl/dma_if_pcie_rd.v` lines 845 and 877: a new tag is needed. -/
def drdTagNeed (c : DrdCfg) (s : Drd) (i : DrdIn) : Bool := !s.tagV || drdIssue c s i

/-- `rtl/dma_if_pcie_rd.v` lines 877-881: a tag is taken from the first FIFO. -/
def drdTagRd1 (c : DrdCfg) (s : Drd) (i : DrdIn) : Bool := drdTagNeed c s i && !ringEmpty s.fifo1

/-- `rtl/dma_if_pcie_rd.v` lines 882-886: a tag is taken from the second FIFO. -/
def drdTagRd2 (c : DrdCfg) (s : Drd) (i : DrdIn) : Bool :=
  drdTagNeed c s i && ringEmpty s.fifo1 && c.tagCount2 != 0 && i.extTag && !ringEmpty s.fifo2

/-- `rtl/dma_if_pcie_rd.v` lines 854 and 864-872: an operation tag is taken. -/
def drdOpRd (c : DrdCfg) (s : Drd) (i : DrdIn) : Bool := (!s.opTagV || drdIssueLast c s i) && !ringEmpty s.opFifo

/-- `rtl/dma_if_pcie_rd.v` lines 1326-1353: an operation tag is freed. -/
def drdOpWe (c : DrdCfg) (s : Drd) : Bool := s.init.op || drdOpDone c s

/-- A FIFO with a write and a read. -/
def ringMove {α : Type} (aw : Nat) (r : Ring α) (we : Bool) (x : α) (rd : Bool) : Ring α :=
  (if rd then ringPop aw else id) (if we then ringPush aw r x else r)

/-- `rtl/dma_if_pcie_rd.v` lines 1368-1384: the count of requests in flight, saturating in `$clog2(TX_LIMIT+1)` bits. -/
def drdTxCount (c : DrdCfg) (n : Nat) (inc : Bool) (seqs : Nat) : Nat :=
  if n + inc.toNat - seqs ≥ 2 ^ clog2 (c.txLimit + 1) then 2 ^ clog2 (c.txLimit + 1) - 1 else n + inc.toNat - seqs

/-- `rtl/dma_if_pcie_rd.v` lines 425, 430, 1386 and 1389: a count of flow control credits, with limit `l`. -/
def drdFcCount (l n inc dec : Nat) : Nat :=
  (n + inc + 2 ^ (clog2 l + 1) * 512 - dec) % 2 ^ (clog2 l + 1)

/-- `rtl/dma_if_pcie_rd.v` lines 1386-1387: the count of completion headers. -/
def drdCplhNext (c : DrdCfg) (s : Drd) (i : DrdIn) : Nat :=
  drdFcCount c.cplhLimit s.cplh (if drdIssue c s i then (drdReqSize c s).cplh else 0)
    (if !s.init.tag && s.rx.finish then (s.tags s.rx.tag).cplh else 0)

/-- `rtl/dma_if_pcie_rd.v` lines 1389-1390: the count of completion data credits. -/
def drdCpldNext (c : DrdCfg) (s : Drd) (i : DrdIn) : Nat :=
  drdFcCount c.cpldLimit s.cpld (if drdIssue c s i then (drdReqSize c s).cpld else 0)
    (if !s.init.tag && s.rx.finish then (s.tags s.rx.tag).cpld else 0)

/-- `rtl/dma_if_pcie_rd.v` lines 1397-1401: initialisation. -/
def drdInitStep (c : DrdCfg) (n : DrdInit) : DrdInit :=
  if n.done then n
  else
    { count := (n.count + 1) % 2 ^ c.initW
      done := (n.count + 1) / 2 ^ c.initW % 2 == 1
      tag := decide (n.count + 1 < 2 ^ c.tagW)
      op := decide (n.count + 1 < 2 ^ c.opW) }

/-- One clock edge without the resets of `rtl/dma_if_pcie_rd.v` lines 1599-1663: lines 1393-1597 and 1708-1745. -/
def drdNext (c : DrdCfg) (s : Drd) (i : DrdIn) : Drd :=
  { init := drdInitStep c s.init
    req := drdReqStep c s i
    opTag := if drdOpRd c s i then ringHead c.opW s.opFifo else s.opTag
    opTagV := drdOpRd c s i || (s.opTagV && !drdIssueLast c s i)
    tag := if drdTagRd1 c s i then ringHead c.tagW1 s.fifo1 else if drdTagRd2 c s i then ringHead c.tagW2 s.fifo2 else s.tag
    tagV := drdTagRd1 c s i || drdTagRd2 c s i || (s.tagV && !drdIssue c s i)
    opFifo := ringMove c.opW s.opFifo (drdOpWe c s) (if s.init.op then s.init.count % 2 ^ c.opW else s.cur.op) (drdOpRd c s i)
    fifo1 := ringMove c.tagW1 s.fifo1 (drdTagWe s && drdTagLow c s) (drdTagWr c s % 2 ^ c.tagW1) (drdTagRd1 c s i)
    fifo2 := ringMove c.tagW2 s.fifo2 (drdTagWe s && !drdTagLow c s) (drdTagWr c s) (drdTagRd2 c s i)
    startEn := drdIssue c s i
    startPtr := s.tag
    startE := drdTagOf c s
    tags := fun k => if !s.init.tag && s.startEn && k == s.startPtr then s.startE else s.tags k
    actA := fun k =>
      if s.init.tag then if k == s.init.count % 2 ^ c.tagW then false else s.actA k
      else if s.startEn && k == s.startPtr then !s.actB k else s.actA k
    actB := fun k =>
      if s.init.tag then if k == s.init.count % 2 ^ c.tagW then false else s.actB k
      else if s.rx.finish && k == s.rx.tag then s.actA k else s.actB k
    ops := drdOpsStep c s i
    tx := if s.req.start && (!s.txV || i.txReady) then drdHdr c s i.requesterId else s.tx
    txV := drdIssue c s i || (s.txV && !i.txReady)
    txCount := drdTxCount c s.txCount (drdIssue c s i) i.seqs
    txAv := decide (drdTxCount c s.txCount (drdIssue c s i) i.seqs < c.txLimit)
    cplh := drdCplhNext c s i
    cplhAv := c.cplhLimit == 0 || decide (drdCplhNext c s i < c.cplhLimit)
    cpld := drdCpldNext c s i
    cpldAv := c.cpldLimit == 0 || decide (drdCpldNext c s i < c.cpldLimit)
    mrrsDw := 32 * 2 ^ (if i.mrrs > 5 then 5 else i.mrrs)
    rcb := i.rcb
    rx := drdRxStep c s i
    pipe := drdPipeStep c s
    fifo := ringMove 5 s.fifo s.rx.stWr (drdEntryOf s.rx) (drdStRd c s)
    full := decide (ringCount 5 s.fifo ≥ 2 ^ 5 - 4)
    cur := if drdStRd c s then ringHead 5 s.fifo else s.cur
    curV := drdStRd c s || (s.curV && !drdPop c s)
    stTag := s.ops.tag s.cur.op
    stErr := drdStError s
    stV := drdOpDone c s
    out := fun k => nfifoStep 5 i.rst (s.out k) (s.pipe.valid k) (drdPipeCmd c s.pipe k) (i.cmdReady k)
    doneC := fun k =>
      if i.rst then 0
      else if decide (s.doneC k < 2 ^ 5) && i.done k && !drdAck c s k then s.doneC k + 1
      else if decide (s.doneC k > 0) && !i.done k && drdAck c s k then s.doneC k - 1
      else s.doneC k
    doneR := fun k =>
      if i.rst then false
      else if decide (s.doneC k < 2 ^ 5) && i.done k && !drdAck c s k then true
      else if decide (s.doneC k > 0) && !i.done k && drdAck c s k then decide (s.doneC k > 1)
      else s.doneR k }

/-- One clock edge; reset as in `rtl/dma_if_pcie_rd.v` lines 1599-1663. The write pipeline stage is not reset. -/
def drdStep (c : DrdCfg) (s : Drd) (i : DrdIn) : Drd :=
  let n := drdNext c s i
  if i.rst then
    { n with
      req := { n.req with start := false, ready := false }
      init := { count := 0, done := false, tag := true, op := true }
      opTagV := false
      tagV := false
      rx := { n.rx with st := .idle, finish := false, dataV := false, ready := false, stWr := false, errCor := false,
                        errUncor := false }
      txV := false
      stV := false
      fifo := ringReset n.fifo
      curV := false
      txCount := 0
      txAv := true
      cplh := 0
      cplhAv := true
      cpld := 0
      cpldAv := true
      startEn := false
      fifo1 := ringReset n.fifo1
      fifo2 := ringReset n.fifo2
      opFifo := ringReset n.opFifo }
  else n

/-- A history. -/
def drdRun (c : DrdCfg) : Drd → List DrdIn → Drd
  | s, [] => s
  | s, i :: is => drdRun c (drdStep c s i) is

end Verif.Model
