import Verif.Model.RamDemux
/-!
Model of `rtl/dma_client_axis_source.v`: reads a segmented RAM and sends the data on an AXI stream.

Sizes are powers of two (the module checks this for the word size and the number of parts; with a power of two number of
segments it follows for the rest). Ram data is a function of the byte lane, vectors over the segments are functions of
the segment number, `tid`, `tdest` and `tuser` are one value `ids`. `AXIS_LAST_ENABLE` is set, and `AXIS_KEEP_ENABLE` is
set unless the stream is one byte wide. The error status is constant. `RAM_ADDR_WIDTH` has its default value, so the
upper bits of an address are the row number.
-/
namespace Verif.Model

/-- `rtl/dma_client_axis_source.v` lines 37-71: the stream is `2^kb` bytes wide, a RAM row has `2^pb` such parts, in
`2^sc` segments. -/
structure SrcCfg where
  kb : Nat
  pb : Nat
  sc : Nat
  ramW : Nat
  lenW : Nat
deriving DecidableEq, Repr

/-- `rtl/dma_client_axis_source.v` line 125: `AXIS_KEEP_WIDTH_INT`. -/
def SrcCfg.kw (c : SrcCfg) : Nat := 2 ^ c.kb

/-- `rtl/dma_client_axis_source.v` line 41: `SEG_COUNT`. -/
def SrcCfg.segs (c : SrcCfg) : Nat := 2 ^ c.sc

/-- `rtl/dma_client_axis_source.v` line 129: the bytes of a RAM row, `SEG_COUNT*SEG_BE_WIDTH`. -/
def SrcCfg.rowBytes (c : SrcCfg) : Nat := 2 ^ (c.kb + c.pb)

/-- `rtl/dma_client_axis_source.v` line 45: `SEG_BE_WIDTH`. -/
def SrcCfg.segBytes (c : SrcCfg) : Nat := 2 ^ (c.kb + c.pb - c.sc)

/-- `rtl/dma_client_axis_source.v` line 131: `PART_OFFSET_WIDTH`. -/
def SrcCfg.partOff (c : SrcCfg) : Nat := if c.kw > 1 then c.kb else 1

/-- `rtl/dma_client_axis_source.v` line 132: `PARTS_PER_SEG`. -/
def SrcCfg.partsPerSeg (c : SrcCfg) : Nat := (c.segBytes + c.kw - 1) / c.kw

/-- `rtl/dma_client_axis_source.v` line 133: `SEGS_PER_PART`. -/
def SrcCfg.segsPerPart (c : SrcCfg) : Nat := (c.kw + c.segBytes - 1) / c.segBytes

/-- `rtl/dma_client_axis_source.v` line 138: `CYCLE_COUNT_WIDTH`. -/
def SrcCfg.cycW (c : SrcCfg) : Nat := c.lenW - c.kb + 1

/-- A transfer on the stream: `rtl/dma_client_axis_source.v` lines 100-108. -/
structure SrcBeat where
  data : Nat → UInt8
  keep : Nat
  last : Bool
  ids : Nat

/-- `rtl/dma_client_axis_source.v` lines 183-223 and 514-538: all registers. `reading`, `rdAddr`, `rdMask`, `rdCount`:
the read state machine; `cmd…`: the command for the stream state machine; `sending`, `addr`, `mask`, `off`, `count`,
`lastC`, `ids`: the stream state machine; `ramV`, `ramAddr`: the commands to the RAM. -/
structure Src where
  reading : Bool
  rdAddr : Nat
  rdMask : Nat → Bool
  rdCount : Nat
  ready : Bool
  cmdV : Bool
  cmdAddr : Nat
  cmdOff : Nat
  cmdCount : Nat
  cmdTag : Nat
  cmdIds : Nat
  sending : Bool
  addr : Nat
  mask : Nat → Bool
  off : Nat
  count : Nat
  lastC : Bool
  ids : Nat
  stV : Bool
  stTag : Nat
  ramV : Nat → Bool
  ramAddr : Nat → Nat
  out : OutFifo SrcBeat

/-- `rtl/dma_client_axis_source.v` lines 73-119: the inputs. -/
structure SrcIn where
  rst : Bool := false
  enable : Bool
  valid : Bool
  ramAddr : Nat
  len : Nat
  tag : Nat
  ids : Nat
  tready : Bool
  cmdReady : Nat → Bool
  respValid : Nat → Bool
  respData : Nat → UInt8

/-- `rtl/dma_client_axis_source.v` lines 282 and 345: the part of the row that an address is in. -/
def srcPart (c : SrcCfg) (addr : Nat) : Nat := (addr >>> c.partOff) % 2 ^ c.pb

/-- `rtl/dma_client_axis_source.v` lines 281-285, 316-320, 378-382 and 406-410: the segments that hold the part. -/
def srcMask (c : SrcCfg) (addr k : Nat) : Bool :=
  if 2 ^ c.pb > 1 then
    let base := srcPart c addr / c.partsPerSeg * c.segsPerPart
    decide (base ≤ k ∧ k < base + c.segsPerPart)
  else true

/-- `rtl/dma_client_axis_source.v` lines 279 and 287: the address with `ADDR_MASK`. -/
def srcAlign (c : SrcCfg) (addr : Nat) : Nat := addr % 2 ^ c.ramW / c.kw * c.kw

/-- `rtl/dma_client_axis_source.v` lines 296-297: `len - 1`, computed in 32 bits. -/
def srcLenDec (c : SrcCfg) (len : Nat) : Nat := if len % 2 ^ c.lenW = 0 then 4294967295 else len % 2 ^ c.lenW - 1

/-- `rtl/dma_client_axis_source.v` lines 296-297: the cycle count. -/
def srcCount (c : SrcCfg) (len : Nat) : Nat := srcLenDec c len / c.kw % 2 ^ c.cycW

/-- `rtl/dma_client_axis_source.v` line 277: a descriptor is accepted. -/
def srcAccept (s : Src) (i : SrcIn) : Bool := !s.reading && s.ready && i.valid

/-- `rtl/dma_client_axis_source.v` line 310: read commands are issued. -/
def srcIssue (c : SrcCfg) (s : Src) (i : SrcIn) : Bool :=
  s.reading && (List.range c.segs).all fun k => !(s.ramV k && !i.cmdReady k && s.rdMask k)

/-- `rtl/dma_client_axis_source.v` lines 388-390: the stream state machine takes a command. -/
def srcLoad (s : Src) : Bool := !s.sending && s.cmdV

/-- `rtl/dma_client_axis_source.v` lines 397 and 540: read data is transferred to the output FIFO. -/
def srcMove (c : SrcCfg) (s : Src) (i : SrcIn) : Bool :=
  s.sending && ((List.range c.segs).all fun k => !(s.mask k && !i.respValid k)) && !s.out.half

/-- `rtl/dma_client_axis_source.v` lines 395-399: `ram_rd_resp_ready`. -/
def srcRespReady (c : SrcCfg) (s : Src) (i : SrcIn) (k : Nat) : Bool := srcMove c s i && s.mask k

/-- `rtl/dma_client_axis_source.v` lines 344-353 and 412-425: the transfer that is put in the output FIFO. Lanes above
the width of the stream do not exist. -/
def srcBeat (c : SrcCfg) (s : Src) (i : SrcIn) : SrcBeat :=
  { data := fun b =>
      if b < c.kw then
        if 2 ^ c.pb > 1 then i.respData (srcPart c s.addr * c.kw + b) else i.respData b
      else 0
    keep := if s.lastC && decide (s.off > 0) then (2 ^ c.kw - 1) >>> (c.kw - s.off) else 2 ^ c.kw - 1
    last := s.lastC
    ids := s.ids }

/-- `rtl/dma_client_axis_source.v` lines 249-335: the read state machine and the RAM commands. -/
def srcReadStep (c : SrcCfg) (s : Src) (i : SrcIn) : Src :=
  let cmdV := s.cmdV && !srcLoad s
  let s1 := { s with ramV := fun k => s.ramV k && !i.cmdReady k, cmdV := cmdV }
  if srcAccept s i then
    { s1 with
      reading := true
      rdAddr := srcAlign c i.ramAddr
      rdMask := srcMask c (srcAlign c i.ramAddr)
      rdCount := srcCount c i.len
      ready := false
      cmdV := true
      cmdAddr := srcAlign c i.ramAddr
      cmdOff := i.len % 2 ^ c.lenW % c.kw
      cmdCount := srcCount c i.len
      cmdTag := i.tag
      cmdIds := i.ids }
  else if !s.reading then { s1 with ready := !s.cmdV && i.enable }
  else if srcIssue c s i then
    { s1 with
      reading := !(s.rdCount == 0)
      ready := s.rdCount == 0 && !s.cmdV && i.enable
      rdAddr := (s.rdAddr + c.kw) % 2 ^ c.ramW
      rdMask := srcMask c ((s.rdAddr + c.kw) % 2 ^ c.ramW)
      rdCount := (s.rdCount + 2 ^ c.cycW - 1) % 2 ^ c.cycW
      ramV := fun k => s.rdMask k || (s.ramV k && !i.cmdReady k)
      ramAddr := fun k => if s.rdMask k then s.rdAddr / c.rowBytes else s.ramAddr k }
  else { s1 with ready := false }

/-- `rtl/dma_client_axis_source.v` lines 337-437: the stream state machine; `s` is the state before the clock edge and
`n` the state after it as far as the read state machine goes. -/
def srcSendStep (c : SrcCfg) (s : Src) (i : SrcIn) (n : Src) : Src :=
  if !s.sending then
    { n with
      sending := s.cmdV
      addr := s.cmdAddr
      mask := srcMask c s.cmdAddr
      off := s.cmdOff
      count := s.cmdCount
      lastC := s.cmdCount == 0
      ids := s.cmdIds
      stTag := s.cmdTag
      stV := false }
  else if srcMove c s i then
    { n with
      sending := !s.lastC
      addr := (s.addr + c.kw) % 2 ^ c.ramW
      mask := srcMask c ((s.addr + c.kw) % 2 ^ c.ramW)
      count := (s.count + 2 ^ c.cycW - 1) % 2 ^ c.cycW
      lastC := (s.count + 2 ^ c.cycW - 1) % 2 ^ c.cycW == 0
      stV := s.lastC }
  else { n with stV := false }

/-- `rtl/dma_client_axis_source.v` lines 439-564: one clock edge. -/
def srcStep (c : SrcCfg) (s : Src) (i : SrcIn) : Src :=
  let n := srcSendStep c s i (srcReadStep c s i)
  let n := { n with out := outFifoStep 5 i.rst s.out (srcMove c s i) (srcBeat c s i) i.tready }
  if i.rst then
    { n with reading := false, sending := false, cmdV := false, ready := false, stV := false, ramV := fun _ => false }
  else n

/-- State after a list of clock cycles. -/
def srcRun (c : SrcCfg) : Src → List SrcIn → Src
  | s, [] => s
  | s, i :: is => srcRun c (srcStep c s i) is

end Verif.Model
