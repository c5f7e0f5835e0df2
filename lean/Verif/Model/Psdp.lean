import Verif.Basic.Lanes
import Verif.Spec.Mem
/-!
Model of the segmented RAM bus models in `tb/dma_psdp_ram.py`: masters (lines 141-606) and RAM
(lines 646-908).

Simplifications: reset and logging are not modelled; the backing `Memory` of `cocotbext.axi` is a
flat memory without size limit (the property's addresses are within the RAM); the `await`s on
unbounded queues never block, so a submitted command is expanded into segment operations at once;
every coroutine step that waits on a queue is a separate event that may happen at any time.
-/
namespace Verif.Model
open Verif.Spec (Mem store)

/-- `tb/dma_psdp_ram.py` lines 165-183: geometry of the bus. `segBytes` is `seg_byte_lanes`
(and `seg_be_width`), `segAddrW` is `seg_addr_width`. -/
structure SegGeo where
  segCount : Nat
  segBytes : Nat
  segAddrW : Nat
deriving DecidableEq, Repr

/-- `tb/dma_psdp_ram.py` line 167: `byte_lanes`, the bytes of all segments together. -/
def SegGeo.byteLanes (g : SegGeo) : Nat := g.segBytes * g.segCount

/-- Python's `int.bit_length`. -/
def bitLength (n : Nat) : Nat := if n = 0 then 0 else Nat.log2 n + 1

/-- `tb/dma_psdp_ram.py` lines 177 and 412: `address_width` of the masters. -/
def SegGeo.addressWidth (g : SegGeo) : Nat := g.segAddrW + bitLength (g.segBytes * g.segCount - 1)

/-- `tb/dma_psdp_ram.py` lines 44-48, `SegWriteData`. -/
structure SegWrite where
  addr : Nat
  data : Nat
  be : Nat
deriving DecidableEq, Repr, Inhabited

/-- `tb/dma_psdp_ram.py` lines 282-285: the loop `for j in range(start, stop)` with `n` iterations
left. `none` is `IndexError`. -/
def valLoop (data : List UInt8) : (n j offset val : Nat) → Option (Nat × Nat)
  | 0, _, offset, val => some (val, offset)
  | n + 1, j, offset, val => do
    let b ← data[offset]?
    valLoop data n (j + 1) (offset + 1) (val ||| (b.toNat <<< (j * 8)))

/-- `tb/dma_psdp_ram.py` lines 270-294, the loop over segments of `_process_write` with `n`
iterations left: pairs of segment number and operation put on that segment's queue.
Line 252 is computed in the naturals; it differs from Python only for an empty write at address 0,
which has no segments. -/
def writeLoop (g : SegGeo) (address : Nat) (data : List UInt8) (segments : Nat) :
    (n k seg offset : Nat) → Option (List (Nat × SegWrite))
  | 0, _, _, _ => some []
  | n + 1, k, seg, offset => do
    let segStart := address % g.segBytes
    let segEnd := (address + data.length - 1) % g.segBytes + 1
    let mask := 2 ^ g.segBytes - 1
    let start := if k = 0 then segStart else 0
    let stop := if k = segments - 1 then segEnd else g.segBytes
    let be := if k = 0 then mask &&& ((mask <<< segStart) &&& mask) else mask
    let be := if k = segments - 1 then be &&& (mask >>> (g.segBytes - segEnd)) else be
    let (val, offset) ← valLoop data (stop - start) start offset 0
    let op : SegWrite := ⟨(address + k * g.segBytes) / g.byteLanes, val, be⟩
    let rest ← writeLoop g address data segments n (k + 1) ((seg + 1) % g.segCount) offset
    some ((seg, op) :: rest)

/-- `tb/dma_psdp_ram.py` lines 258 and 486: number of segment operations of a command. -/
def segmentsOf (g : SegGeo) (address length : Nat) : Nat :=
  (length + address % g.segBytes + g.segBytes - 1) / g.segBytes

/-- `tb/dma_psdp_ram.py` lines 257 and 485. -/
def firstSeg (g : SegGeo) (address : Nat) : Nat := address / g.segBytes % g.segCount

/-- `tb/dma_psdp_ram.py` lines 246-296, `PsdpRamMasterWrite._process_write` for one command. -/
def writeOps (g : SegGeo) (address : Nat) (data : List UInt8) : Option (List (Nat × SegWrite)) :=
  writeLoop g address data (segmentsOf g address data.length) (segmentsOf g address data.length)
    0 (firstSeg g address) 0

/-- Slice `data[start:stop]`. -/
def sliceBytes (data : List UInt8) (start stop : Nat) : List UInt8 :=
  (data.drop start).take (stop - start)

/-- `tb/dma_psdp_ram.py` lines 744-745: an enabled byte opens a run unless one is open. -/
def openRun (start : Option Nat) (offset : Nat) : Option Nat :=
  match start with
  | none => some offset
  | some s => some s

/-- `tb/dma_psdp_ram.py` lines 747-749 and 753-754: the open run, if any, ends. -/
def closeRun (start : Option Nat) (offset : Nat) : List (Nat × Nat) :=
  match start with
  | some s => if offset ≠ s then [(s, offset)] else []
  | none => []

/-- `tb/dma_psdp_ram.py` lines 742-754: the runs of enabled bytes, as `(start, stop)` pairs; `n`
iterations left of `for i in range(byte_lanes)`. -/
def ramRuns (be : Nat) : (n offset : Nat) → Option Nat → List (Nat × Nat)
  | 0, offset, start => closeRun start offset
  | n + 1, offset, start =>
    if be &&& (1 <<< offset) ≠ 0 then ramRuns be n (offset + 1) (openRun start offset)
    else closeRun start offset ++ ramRuns be n (offset + 1) none

/-- `int.to_bytes(n, 'little')`, used in line 740. -/
def segLeBytes (n val : Nat) : List UInt8 :=
  (List.range n).map fun j => UInt8.ofNat ((val >>> (8 * j)) % 256)

/-- `tb/dma_psdp_ram.py` lines 729-758: `PsdpRamWrite` performs one operation on segment `seg` whose
address, data and byte enables are the lanes `segAddr`, `segData` and `segBe` of the bus. -/
def ramWrite (g : SegGeo) (mem : Mem) (seg segAddr segData segBe : Nat) : Mem :=
  let addr := (segAddr * g.segCount + seg) * g.segBytes
  let data := segLeBytes g.segBytes segData
  (ramRuns segBe g.byteLanes 0 none).foldl
    (fun m r => store m (addr + r.1) (sliceBytes data r.1 r.2)) mem

/-- State of the write path: the master's segment queues (`seg_write_queue`), the command signals it
drives, the RAM's `wr_cmd_ready` and `wr_done` signals, the master's response queues (as counts), the
pending response commands (segments still to be acknowledged and next segment, in order), the number
of completed writes, and the memory. -/
structure WrSys where
  segQ : Nat → List SegWrite := fun _ => []
  valid : Nat := 0
  addr : Nat := 0
  data : Nat := 0
  be : Nat := 0
  ready : Nat := 0
  done : Nat := 0
  respQ : Nat → Nat := fun _ => 0
  respCmds : List (Nat × Nat) := []
  completed : Nat := 0
  mem : Mem

/-- Update one entry of an array of queues. -/
def updAt {α : Type} (f : Nat → α) (i : Nat) (v : α) : Nat → α := fun j => if j = i then v else f j

/-- `tb/dma_psdp_ram.py` lines 343-363: `PsdpRamMasterWrite._run` for one segment at a clock edge.
`ready` and `done` are the sampled signals. -/
def masterWriteSeg (g : SegGeo) (pause : Bool) (ready done : Nat) (s : WrSys) (seg : Nat) : WrSys :=
  let s :=
    if ready.testBit seg || !s.valid.testBit seg then
      match s.segQ seg, pause with
      | op :: rest, false =>
        { s with
          segQ := updAt s.segQ seg rest
          addr := setLane g.segAddrW seg s.addr op.addr
          data := setLane (8 * g.segBytes) seg s.data op.data
          be := setLane g.segBytes seg s.be op.be
          valid := setBit s.valid seg }
      | _, _ => { s with valid := clearBit s.valid seg }
    else s
  if done.testBit seg then { s with respQ := updAt s.respQ seg (s.respQ seg + 1) } else s

/-- `tb/dma_psdp_ram.py` lines 727-760: `PsdpRamWrite._run` for one segment at a clock edge; the
command signals are the sampled ones. The pair is memory and `wr_done`. -/
def ramWriteSeg (g : SegGeo) (ready valid addr data be : Nat) (st : Mem × Nat) (seg : Nat) : Mem × Nat :=
  if ready.testBit seg && valid.testBit seg then
    (ramWrite g st.1 seg (getLane g.segAddrW seg addr) (getLane (8 * g.segBytes) seg data)
      (getLane g.segBytes seg be), setBit st.2 seg)
  else st

/-- One rising clock edge of the write path: lines 331-368 and 709-771. All signals are sampled
before either side updates them. -/
def wrEdge (g : SegGeo) (masterPause ramPause : Bool) (s : WrSys) : WrSys :=
  let m := (List.range g.segCount).foldl (masterWriteSeg g masterPause s.ready s.done) s
  let r := (List.range g.segCount).foldl (ramWriteSeg g s.ready s.valid s.addr s.data s.be) (s.mem, 0)
  { m with
    mem := r.1
    done := r.2
    ready := if ramPause then 0 else 2 ^ g.segCount - 1 }

/-- `tb/dma_psdp_ram.py` lines 298-321: one step of `_process_write_resp`. It takes a response from
the queue of the segment it waits for, or completes the command when none is left. -/
def wrResp (g : SegGeo) (s : WrSys) : WrSys :=
  match s.respCmds with
  | [] => s
  | (0, _) :: rest => { s with respCmds := rest, completed := s.completed + 1 }
  | (n + 1, seg) :: rest =>
    if s.respQ seg = 0 then s
    else { s with
      respQ := updAt s.respQ seg (s.respQ seg - 1)
      respCmds := (n, (seg + 1) % g.segCount) :: rest }

/-- Put operations on the segment queues in order (line 292). -/
def enqueueOps (q : Nat → List SegWrite) : List (Nat × SegWrite) → Nat → List SegWrite
  | [] => q
  | (seg, op) :: rest => enqueueOps (updAt q seg (q seg ++ [op])) rest

/-- `tb/dma_psdp_ram.py` lines 226-244 and 246-296: `write(address, data)` queued and expanded.
`none` is the exception of the range check or an `IndexError`. -/
def wrSubmit (g : SegGeo) (addressWidth : Nat) (address : Nat) (data : List UInt8) (s : WrSys) :
    Option WrSys :=
  if address ≥ 2 ^ addressWidth ∨ address + data.length > 2 ^ addressWidth then none
  else do
    let ops ← writeOps g address data
    some { s with
      segQ := enqueueOps s.segQ ops
      respCmds := s.respCmds ++ [(segmentsOf g address data.length, firstSeg g address)] }

/-- What can happen in the write path. -/
inductive WrEvent
  | submit (address : Nat) (data : List UInt8)
  | edge (masterPause ramPause : Bool)
  | resp
deriving Repr

/-- One event. -/
def wrStep (g : SegGeo) (aw : Nat) (s : WrSys) : WrEvent → Option WrSys
  | .submit a d => wrSubmit g aw a d s
  | .edge mp rp => some (wrEdge g mp rp s)
  | .resp => some (wrResp g s)

/-- A history of events. -/
def wrRun (g : SegGeo) (aw : Nat) : WrSys → List WrEvent → Option WrSys
  | s, [] => some s
  | s, e :: es => do wrRun g aw (← wrStep g aw s e) es

/-! ### Read path -/

/-- `tb/dma_psdp_ram.py` lines 480-503, `PsdpRamMasterRead._process_read`: the addresses put on the
segment queues, with `n` iterations left. -/
def readLoop (g : SegGeo) (address : Nat) : (n k seg : Nat) → List (Nat × Nat)
  | 0, _, _ => []
  | n + 1, k, seg =>
    (seg, (address + k * g.segBytes) / g.byteLanes) ::
      readLoop g address n (k + 1) ((seg + 1) % g.segCount)

/-- `tb/dma_psdp_ram.py` lines 480-503 for one command. -/
def readOps (g : SegGeo) (address length : Nat) : List (Nat × Nat) :=
  readLoop g address (segmentsOf g address length) 0 (firstSeg g address)

/-- `tb/dma_psdp_ram.py` lines 882-887: `PsdpRamRead` reads one word of a segment. The address wraps
at the memory size in line 886; addresses within the memory are assumed. -/
def ramRead (g : SegGeo) (mem : Mem) (seg segAddr : Nat) : Nat :=
  let addr := (segAddr * g.segCount + seg) * g.segBytes
  (List.range g.segBytes).foldr (fun j acc => (mem (addr + j)).toNat <<< (8 * j) ||| acc) 0

/-- State of the read path: master queues, command signals, RAM `rd_cmd_ready`, the one-stage
pipeline of each segment, response signals, master `rd_resp_ready`, master response queues, pending
read commands (address, length, segments still to come, next segment, iteration number, bytes so
far) and finished reads. The memory does not change. -/
structure RdSys where
  segQ : Nat → List Nat := fun _ => []
  valid : Nat := 0
  addr : Nat := 0
  ready : Nat := 0
  pipe : Nat → Option Nat := fun _ => none
  respValid : Nat := 0
  respData : Nat := 0
  respReady : Nat := 0
  respQ : Nat → List Nat := fun _ => []
  respCmds : List (Nat × Nat × Nat × Nat × Nat × List UInt8) := []
  finished : List (List UInt8) := []

/-- `tb/dma_psdp_ram.py` lines 571-589: `PsdpRamMasterRead._run` for one segment at a clock edge.
`ready`, `respValid` and `respData` are the sampled signals. -/
def masterReadSeg (g : SegGeo) (pause : Bool) (ready respValid respData : Nat) (s : RdSys) (seg : Nat) :
    RdSys :=
  let s :=
    if ready.testBit seg || !s.valid.testBit seg then
      match s.segQ seg, pause with
      | a :: rest, false =>
        { s with
          segQ := updAt s.segQ seg rest
          addr := setLane g.segAddrW seg s.addr a
          valid := setBit s.valid seg }
      | _, _ => { s with valid := clearBit s.valid seg }
    else s
  if s.respReady.testBit seg && respValid.testBit seg then
    { s with respQ := updAt s.respQ seg (s.respQ seg ++ [getLane (8 * g.segBytes) seg respData]) }
  else s

/-- `tb/dma_psdp_ram.py` lines 862-895: `PsdpRamRead._run` for one segment at a clock edge. The
pipeline has one stage, so the loop of lines 874-877 does nothing. -/
def ramReadSeg (g : SegGeo) (mem : Mem) (respReady valid addr : Nat) (s : RdSys) (seg : Nat) : RdSys :=
  let s :=
    if respReady.testBit seg || !s.respValid.testBit seg then
      match s.pipe seg with
      | some d =>
        { s with
          respData := setLane (8 * g.segBytes) seg s.respData d
          respValid := setBit s.respValid seg
          pipe := updAt s.pipe seg none }
      | none => { s with respValid := clearBit s.respValid seg }
    else s
  let s :=
    if s.ready.testBit seg && valid.testBit seg then
      { s with pipe := updAt s.pipe seg (some (ramRead g mem seg (getLane g.segAddrW seg addr))) }
    else s
  if !s.respValid.testBit seg || (s.pipe seg).isNone then
    { s with ready := setBit s.ready seg }
  else { s with ready := clearBit s.ready seg }

/-- One rising clock edge of the read path: lines 555-599 and 845-901. The RAM side and the master
side update different fields; both use the signals sampled before the edge. -/
def rdEdge (g : SegGeo) (mem : Mem) (masterPause ramPause : Bool) (s : RdSys) : RdSys :=
  let m := (List.range g.segCount).foldl
    (masterReadSeg g masterPause s.ready s.respValid s.respData) s
  let r := (List.range g.segCount).foldl (ramReadSeg g mem s.respReady s.valid s.addr) s
  { m with
    pipe := r.pipe
    respValid := r.respValid
    respData := r.respData
    ready := if ramPause then 0 else r.ready
    respReady := if masterPause then 0 else 2 ^ g.segCount - 1 }

/-- `tb/dma_psdp_ram.py` lines 526-528: bytes `start..stop-1` of a segment word. -/
def segSlice (start stop word : Nat) : List UInt8 :=
  (List.range (stop - start)).map fun i => UInt8.ofNat ((word >>> ((start + i) * 8)) &&& 0xff)

/-- `tb/dma_psdp_ram.py` lines 505-545: one step of `_process_read_resp`. -/
def rdResp (g : SegGeo) (s : RdSys) : RdSys :=
  match s.respCmds with
  | [] => s
  | (_, _, 0, _, _, acc) :: rest => { s with respCmds := rest, finished := s.finished ++ [acc] }
  | (address, length, n + 1, seg, k, acc) :: rest =>
    match s.respQ seg with
    | [] => s
    | w :: ws =>
      let segStart := address % g.segBytes
      let segEnd := (address + length - 1) % g.segBytes + 1
      let start := if k = 0 then segStart else 0
      let stop := if n = 0 then segEnd else g.segBytes
      { s with
        respQ := updAt s.respQ seg ws
        respCmds := (address, length, n, (seg + 1) % g.segCount, k + 1,
          acc ++ segSlice start stop w) :: rest }

/-- Put read addresses on the segment queues in order (line 499). -/
def enqueueReads (q : Nat → List Nat) : List (Nat × Nat) → Nat → List Nat
  | [] => q
  | (seg, a) :: rest => enqueueReads (updAt q seg (q seg ++ [a])) rest

/-- `tb/dma_psdp_ram.py` lines 460-503: `read(address, length)` queued and expanded. -/
def rdSubmit (g : SegGeo) (addressWidth address length : Nat) (s : RdSys) : Option RdSys :=
  if address ≥ 2 ^ addressWidth ∨ address + length > 2 ^ addressWidth then none
  else some { s with
    segQ := enqueueReads s.segQ (readOps g address length)
    respCmds := s.respCmds ++
      [(address, length, segmentsOf g address length, firstSeg g address, 0, [])] }

/-- What can happen in the read path. -/
inductive RdEvent
  | submit (address length : Nat)
  | edge (masterPause ramPause : Bool)
  | resp
deriving Repr

/-- One event. -/
def rdStep (g : SegGeo) (aw : Nat) (mem : Mem) (s : RdSys) : RdEvent → Option RdSys
  | .submit a l => rdSubmit g aw a l s
  | .edge mp rp => some (rdEdge g mem mp rp s)
  | .resp => some (rdResp g s)

/-- A history of events. -/
def rdRun (g : SegGeo) (aw : Nat) (mem : Mem) : RdSys → List RdEvent → Option RdSys
  | s, [] => some s
  | s, e :: es => do rdRun g aw mem (← rdStep g aw mem s e) es

end Verif.Model
