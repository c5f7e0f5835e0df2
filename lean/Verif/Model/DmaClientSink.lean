import Verif.Model.DmaClientSource
/-!
Model of `rtl/dma_client_axis_sink.v`: writes the data of an AXI stream to a segmented RAM.

The parameters are those of `dma_client_axis_source` (`rtl/dma_client_axis_sink.v` lines 37-69 and 124-143), so `SrcCfg`
and its functions are used again. Sizes are powers of two, vectors over the segments are functions of the segment number,
data is a function of the byte lane, `tid`, `tdest` and `tuser` are one value `ids`. `AXIS_LAST_ENABLE` is set, and
`AXIS_KEEP_ENABLE` is set unless the stream is one byte wide (the default). The error status is constant, and `abort` is
not used by the module. The state encoding 3, which no transition leads to, does not exist.
-/
namespace Verif.Model

/-- `rtl/dma_client_axis_sink.v` lines 183-186: the states. -/
inductive SinkSt where
  | idle
  | write
  | drop
deriving DecidableEq, Repr

/-- `rtl/dma_client_axis_sink.v` lines 204-210: an entry of the status FIFO. -/
structure SinkEntry where
  len : Nat
  tag : Nat
  ids : Nat
  mask : Nat → Bool
  last : Bool

/-- `rtl/dma_client_axis_sink.v` lines 561-563: a write command for one segment. -/
structure SinkCmd where
  be : Nat
  row : Nat
  data : Nat → UInt8

/-- `rtl/dma_client_axis_sink.v` lines 188-235 and 561-581: all registers. -/
structure Sink where
  st : SinkSt
  addr : Nat
  keepMask : Nat
  off : Nat
  length : Nat
  count : Nat
  lastC : Bool
  tag : Nat
  ready : Bool
  tready : Bool
  fifo : Ring SinkEntry
  half : Bool
  active : Nat
  av : Bool
  stV : Bool
  stLen : Nat
  stTag : Nat
  stIds : Nat
  out : Nat → OutFifo SinkCmd
  doneC : Nat → Nat
  doneR : Nat → Bool

/-- `rtl/dma_client_axis_sink.v` lines 72-121: the inputs. -/
structure SinkIn where
  rst : Bool := false
  enable : Bool
  valid : Bool
  ramAddr : Nat
  len : Nat
  tag : Nat
  tvalid : Bool
  data : Nat → UInt8
  keep : Nat
  last : Bool
  ids : Nat
  cmdReady : Nat → Bool
  done : Nat → Bool

/-- `rtl/dma_client_axis_sink.v` lines 328-332 and 356-360: the keep mask for the word that is followed by `n` words. -/
def sinkKeepMask (c : SrcCfg) (n off : Nat) : Nat :=
  if n == 0 && off != 0 then (2 ^ c.kw - 1) >>> (c.kw - off) else 2 ^ c.kw - 1

/-- `rtl/dma_client_axis_sink.v` lines 276 and 363: the bytes of the word that are written. -/
def sinkKeep (c : SrcCfg) (s : Sink) (i : SinkIn) : Nat := (i.keep % 2 ^ c.kw) &&& s.keepMask

/-- `rtl/dma_client_axis_sink.v` lines 275-279 and 362-366: the byte enables of the RAM row. `addr_reg & (ones << PART_OFFSET_WIDTH)`
is written as the part number times the power of two. -/
def sinkBe (c : SrcCfg) (s : Sink) (i : SinkIn) : Nat :=
  if 2 ^ c.pb > 1 then (sinkKeep c s i <<< (srcPart c s.addr * 2 ^ c.partOff)) % 2 ^ c.rowBytes else sinkKeep c s i

/-- `rtl/dma_client_axis_sink.v` lines 362-368 and 597-600: the command for a segment. -/
def sinkCmd (c : SrcCfg) (s : Sink) (i : SinkIn) (k : Nat) : SinkCmd :=
  { be := (sinkBe c s i >>> (k * c.segBytes)) % 2 ^ c.segBytes
    row := s.addr / c.rowBytes
    data := fun b => i.data ((k * c.segBytes + b) % c.kw) }

/-- `rtl/dma_client_axis_sink.v` lines 283-285: `ram_wr_cmd_mask`. -/
def sinkMask (c : SrcCfg) (s : Sink) (i : SinkIn) (k : Nat) : Bool := (sinkCmd c s i k).be != 0

/-- `rtl/dma_client_axis_sink.v` lines 383-388: `cycle_size`. The loop runs downwards, so the smallest index remains. -/
def sinkCycleSize (c : SrcCfg) (keep : Nat) : Nat :=
  ((List.range c.kw).find? fun b => !keep.testBit b).getD c.kw

/-- `rtl/dma_client_axis_sink.v` line 334: a descriptor is accepted. -/
def sinkAccept (s : Sink) (i : SinkIn) : Bool := s.st == .idle && s.ready && i.valid

/-- `rtl/dma_client_axis_sink.v` line 349: a word is taken and written. -/
def sinkTake (s : Sink) (i : SinkIn) : Bool := s.st == .write && s.tready && i.tvalid

/-- `rtl/dma_client_axis_sink.v` lines 336, 347 and 583: there is space for more words. -/
def sinkSpace (c : SrcCfg) (s : Sink) : Bool := ((List.range c.segs).all fun k => !(s.out k).half) && !s.half

/-- `rtl/dma_client_axis_sink.v` lines 353 and 381-422: `length_next` when a word is taken. -/
def sinkLength (c : SrcCfg) (s : Sink) (i : SinkIn) : Nat :=
  let keep := sinkKeep c s i
  let size := if c.kb > 0 then sinkCycleSize c keep else c.kw
  if i.last then
    if s.lastC && decide (s.off > 0) then
      if decide (c.kb > 0) && (keep &&& ((2 ^ c.kw - 1) ^^^ ((2 ^ c.kw - 1) >>> (c.kw - s.off)))) == 0 then
        (s.length + size) % 2 ^ c.lenW
      else (s.length + s.off) % 2 ^ c.lenW
    else if c.kb > 0 then (s.length + size) % 2 ^ c.lenW
    else (s.length + c.kw) % 2 ^ c.lenW
  else if s.lastC && decide (s.off > 0) then (s.length + s.off) % 2 ^ c.lenW
  else (s.length + c.kw) % 2 ^ c.lenW

/-- `rtl/dma_client_axis_sink.v` lines 371-379, 406-414 and 424-432: the entry for the status FIFO. -/
def sinkEntry (c : SrcCfg) (s : Sink) (i : SinkIn) : SinkEntry :=
  { len := sinkLength c s i, tag := s.tag, ids := i.ids, mask := sinkMask c s i, last := i.last || s.lastC }

/-- `rtl/dma_client_axis_sink.v` lines 474-476: the oldest entry of the status FIFO is complete. -/
def sinkPop (c : SrcCfg) (s : Sink) : Bool :=
  !ringEmpty s.fifo && (List.range c.segs).all fun k => !((ringHead 5 s.fifo).mask k && !s.doneR k)

/-- `rtl/dma_client_axis_sink.v` line 480: `out_done_ack`. -/
def sinkAck (c : SrcCfg) (s : Sink) (k : Nat) : Bool := sinkPop c s && (ringHead 5 s.fifo).mask k

/-- `rtl/dma_client_axis_sink.v` lines 482-486: `dec_active`. -/
def sinkDec (c : SrcCfg) (s : Sink) : Bool := sinkPop c s && (ringHead 5 s.fifo).last

/-- `rtl/dma_client_axis_sink.v` lines 314-465 and 492-512: the state machine. -/
def sinkFsm (c : SrcCfg) (s : Sink) (i : SinkIn) : Sink :=
  match s.st with
  | .idle =>
    { s with
      st := if sinkAccept s i then .write else .idle
      ready := !sinkAccept s i && i.enable && s.av
      tready := sinkAccept s i && sinkSpace c s
      addr := srcAlign c i.ramAddr
      off := i.len % 2 ^ c.lenW % c.kw
      tag := i.tag
      length := 0
      count := srcCount c i.len
      lastC := srcCount c i.len == 0
      keepMask := sinkKeepMask c (srcCount c i.len) (i.len % 2 ^ c.lenW % c.kw) }
  | .write =>
    if sinkTake s i then
      { s with
        st := if i.last then .idle else if s.lastC then .drop else .write
        ready := i.last && i.enable && s.av
        tready := !i.last && (s.lastC || sinkSpace c s)
        addr := (s.addr + c.kw) % 2 ^ c.ramW
        length := sinkLength c s i
        count := (s.count + 2 ^ c.cycW - 1) % 2 ^ c.cycW
        lastC := (s.count + 2 ^ c.cycW - 1) % 2 ^ c.cycW == 0
        keepMask := sinkKeepMask c ((s.count + 2 ^ c.cycW - 1) % 2 ^ c.cycW) s.off }
    else { s with ready := false, tready := sinkSpace c s }
  | .drop =>
    if s.tready && i.tvalid && i.last then
      { s with st := .idle, ready := i.enable && s.av, tready := false }
    else { s with ready := false, tready := true }

/-- `rtl/dma_client_axis_sink.v` lines 467-488, 496-501 and 514-526: the status FIFO and the status output; `n` is the state
after the clock edge as far as the state machine goes. -/
def sinkStatusStep (c : SrcCfg) (s : Sink) (i : SinkIn) (n : Sink) : Sink :=
  let f := if sinkTake s i then ringPush 5 s.fifo (sinkEntry c s i) else s.fifo
  { n with
    fifo := if sinkPop c s then ringPop 5 f else f
    half := decide (ringCount 5 s.fifo ≥ 2 ^ 4)
    stV := sinkDec c s
    stLen := (ringHead 5 s.fifo).len
    stTag := (ringHead 5 s.fifo).tag
    stIds := (ringHead 5 s.fifo).ids }

/-- `rtl/dma_client_axis_sink.v` lines 528-536: the number of operations in progress. -/
def sinkActiveStep (c : SrcCfg) (s : Sink) (i : SinkIn) (n : Sink) : Sink :=
  if decide (s.active < 2 ^ 5) && sinkAccept s i && !sinkDec c s then
    { n with active := s.active + 1, av := decide (s.active < 2 ^ 5 - 1) }
  else if decide (s.active > 0) && !sinkAccept s i && sinkDec c s then
    { n with active := s.active - 1, av := true }
  else { n with av := decide (s.active < 2 ^ 5) }

/-- `rtl/dma_client_axis_sink.v` lines 559-629: the output FIFO and the completion counter of each segment. -/
def sinkOutStep (c : SrcCfg) (s : Sink) (i : SinkIn) (n : Sink) : Sink :=
  { n with
    out := fun k =>
      outFifoStep 5 i.rst (s.out k) (sinkTake s i && sinkMask c s i k) (sinkCmd c s i k) (i.cmdReady k)
    doneC := fun k =>
      if i.rst then 0
      else if decide (s.doneC k < 2 ^ 5) && i.done k && !sinkAck c s k then s.doneC k + 1
      else if decide (s.doneC k > 0) && !i.done k && sinkAck c s k then s.doneC k - 1
      else s.doneC k
    doneR := fun k =>
      if i.rst then false
      else if decide (s.doneC k < 2 ^ 5) && i.done k && !sinkAck c s k then true
      else if decide (s.doneC k > 0) && !i.done k && sinkAck c s k then decide (s.doneC k > 1)
      else s.doneR k }

/-- `rtl/dma_client_axis_sink.v` lines 491-629: one clock edge. -/
def sinkStep (c : SrcCfg) (s : Sink) (i : SinkIn) : Sink :=
  let n := sinkOutStep c s i (sinkActiveStep c s i (sinkStatusStep c s i (sinkFsm c s i)))
  if i.rst then
    { n with st := .idle, ready := false, stV := false, tready := false, fifo := ringReset n.fifo, active := 0, av := true }
  else n

/-- State after a list of clock cycles. -/
def sinkRun (c : SrcCfg) : Sink → List SinkIn → Sink
  | s, [] => s
  | s, i :: is => sinkRun c (sinkStep c s i) is

end Verif.Model
