import Verif.Basic.Lanes
import Verif.Model.Us
/-!
Model of the segmented PCIe interface source and sink in `tb/pcie_if.py` (lines 104-714).

Simplifications: all optional bus signals are present (except that `strb` may be absent at the sink);
reset, logging, occupancy counters and events are not modelled; the sink's `full()` and `pause` are
together an arbitrary choice of `ready` at each clock edge; each coroutine step that may wait is a
separate event that may happen at any time. A failed `assert` and an `IndexError` are `none`.
-/
namespace Verif.Model

/-- `tb/pcie_if.py` lines 106-117, attributes of `PcieIfFrame`. -/
structure TxFrame extends IfFrame where
  func_num : Nat := 0
  vf_num : Option Nat := none
  bar_id : Nat := 0
  tlp_abort : Nat := 0
  error : Nat := 0
  seq : Nat := 0
deriving DecidableEq, Repr, Inhabited

/-- `tb/pcie_if.py` lines 218-231, `PcieIfTransaction`: one cycle of all segments. -/
structure Txn where
  data : Nat := 0
  strb : Nat := 0
  sop : Nat := 0
  eop : Nat := 0
  valid : Nat := 0
  error : Nat := 0
  hdr : Nat := 0
  tlp_prfx : Nat := 0
  seq : Nat := 0
  vf_active : Nat := 0
  func_num : Nat := 0
  vf_num : Nat := 0
  bar_id : Nat := 0
  data_par : Nat := 0
  hdr_par : Nat := 0
  tlp_prfx_par : Nat := 0
deriving DecidableEq, Repr

/-- `tb/pcie_if.py` lines 269-290: geometry. `lanes` is `seg_byte_lanes`, the DWORDs per segment. -/
structure IfGeo where
  segCount : Nat
  lanes : Nat
  seqWidth : Nat
deriving DecidableEq, Repr

/-! ### Source -/

/-- `tb/pcie_if.py` lines 531-535: the loop over the DWORDs of a segment, `n` iterations left. -/
def txDataLoop (g : IfGeo) (f : TxFrame) (seg : Nat) : (n k off : Nat) → Txn → Option (Txn × Nat)
  | 0, _, off, t => some (t, off)
  | n + 1, k, off, t => do
    let d ← f.data[off]?
    let p ← f.parity[off]?
    txDataLoop g f seg n (k + 1) (off + 1)
      { t with
        data := t.data ||| (d <<< (32 * (k + seg * g.lanes)))
        data_par := t.data_par ||| (p <<< (4 * (k + seg * g.lanes)))
        strb := t.strb ||| (1 <<< (k + seg * g.lanes)) }

/-- `tb/pcie_if.py` lines 510-518. -/
def txFirst (f : TxFrame) (seg : Nat) (t : Txn) : Txn :=
  { t with
    valid := t.valid ||| (1 <<< seg)
    sop := t.sop ||| (1 <<< seg)
    hdr := t.hdr ||| (f.hdr <<< (seg * 128))
    tlp_prfx := t.tlp_prfx ||| (f.tlp_prfx <<< (seg * 32))
    hdr_par := t.hdr_par ||| (f.hdr_par <<< (seg * 16))
    tlp_prfx_par := t.tlp_prfx_par ||| (f.tlp_prfx_par <<< (seg * 4)) }

/-- `tb/pcie_if.py` lines 520-526. -/
def txMeta (g : IfGeo) (f : TxFrame) (seg : Nat) (t : Txn) : Txn :=
  { t with
    bar_id := t.bar_id ||| (f.bar_id <<< (seg * 3))
    func_num := t.func_num ||| (f.func_num <<< (seg * 8))
    vf_active := match f.vf_num with
      | some _ => t.vf_active ||| (1 <<< seg)
      | none => t.vf_active
    vf_num := match f.vf_num with
      | some v => t.vf_num ||| (v <<< (seg * 11))
      | none => t.vf_num
    error := t.error ||| (f.error <<< (seg * 4))
    seq := t.seq ||| (f.seq <<< (seg * g.seqWidth)) }

/-- The frame being sent, the offset of its next DWORD, and whether it still has to start
(`frame`, `frame_offset` and `first`). -/
abbrev TxCur := Option (TxFrame × Nat × Bool)

/-- `tb/pcie_if.py` lines 528-535. -/
def txData (g : IfGeo) (f : TxFrame) (off seg : Nat) (t : Txn) : Option (Txn × Nat) :=
  if f.data ≠ [] then
    txDataLoop g f seg (min g.lanes (f.data.length - off)) 0 off
      { t with valid := t.valid ||| (1 <<< seg) }
  else some (t, off)

/-- `tb/pcie_if.py` lines 537-540. -/
def txEnd (f : TxFrame) (seg : Nat) (t : Txn) (off : Nat) : Txn × TxCur :=
  if off ≥ f.data.length then ({ t with eop := t.eop ||| (1 <<< seg) }, none)
  else (t, some (f, off, false))

/-- `tb/pcie_if.py` lines 510-540: one segment of a frame. -/
def txSeg (g : IfGeo) (f : TxFrame) (off : Nat) (first : Bool) (seg : Nat) (t : Txn) :
    Option (Txn × TxCur) := do
  let t := if first then txFirst f seg t else t
  let t := txMeta g f seg t
  let (t, off) ← txData g f off seg t
  some (txEnd f seg t off)

/-- `tb/pcie_if.py` lines 500-540: the loop over segments, `n` iterations left. -/
def txLoop (g : IfGeo) : (n seg : Nat) → TxCur → List TxFrame → Txn → Option (Txn × TxCur × List TxFrame)
  | 0, _, cur, queue, t => some (t, cur, queue)
  | n + 1, seg, cur, queue, t =>
    match cur, queue with
    | some (f, off, first), queue => do
      let (t, cur) ← txSeg g f off first seg t
      txLoop g n (seg + 1) cur queue t
    | none, f :: queue => do
      let (t, cur) ← txSeg g f 0 true seg t
      txLoop g n (seg + 1) cur queue t
    | none, [] => some (t, none, [])

/-! ### Sink -/

/-- The sink's `frame` and `dword_count`. -/
structure RxState where
  frame : Option TxFrame := none
  count : Nat := 0
deriving DecidableEq, Repr

/-- `tb/pcie_if.py` lines 666-671: DWORDs of payload announced by a header. -/
def hdrCount (hdr : Nat) : Nat :=
  if hdr &&& (1 <<< 126) ≠ 0 then
    let c := (hdr >>> 96) &&& 0x3ff
    if c = 0 then 1024 else c
  else 0

/-- `tb/pcie_if.py` lines 660-678: the frame started by segment `seg`. -/
def rxStart (g : IfGeo) (s : Txn) (seg : Nat) : TxFrame :=
  { tlp_prfx := getLane 32 seg s.tlp_prfx
    tlp_prfx_par := getLane 4 seg s.tlp_prfx_par
    hdr := getLane 128 seg s.hdr
    hdr_par := getLane 16 seg s.hdr_par
    bar_id := getLane 3 seg s.bar_id
    func_num := getLane 8 seg s.func_num
    vf_num := if s.vf_active &&& (1 <<< seg) ≠ 0 then some (getLane 11 seg s.vf_num) else none
    error := getLane 4 seg s.error
    seq := getLane g.seqWidth seg s.seq }

/-- `tb/pcie_if.py` lines 686-695: the loop over the DWORDs of a segment, `n` iterations left. -/
def rxDataLoop (strbPresent : Bool) (data par strb : Nat) : (n k : Nat) → TxFrame → Nat →
    Option (TxFrame × Nat)
  | 0, _, f, count => some (f, count)
  | n + 1, k, f, count =>
    if count > 0 then
      if strbPresent && ((strb >>> k) &&& 1 == 0) then none
      else rxDataLoop strbPresent data par strb n (k + 1)
        { f with
          data := f.data ++ [(data >>> (32 * k)) &&& 0xffffffff]
          parity := f.parity ++ [(par >>> (4 * k)) &&& 0xf] } (count - 1)
    else
      if strbPresent && ((strb >>> k) &&& 1 != 0) then none
      else rxDataLoop strbPresent data par strb n (k + 1) f count

/-- `tb/pcie_if.py` lines 682-699. -/
def rxData (g : IfGeo) (strbPresent : Bool) (s : Txn) (seg : Nat) (f : TxFrame) (count : Nat) :
    Option (TxFrame × Nat) :=
  if count > 0 then
    rxDataLoop strbPresent (getLane (32 * g.lanes) seg s.data) (getLane (4 * g.lanes) seg s.data_par)
      (getLane g.lanes seg s.strb) g.lanes 0 f count
  else if strbPresent && getLane g.lanes seg s.strb != 0 then none
  else some (f, count)

/-- `tb/pcie_if.py` lines 658-680: start of frame and framing assertions. -/
def rxSop (g : IfGeo) (s : Txn) (seg : Nat) (r : RxState) : Option (TxFrame × Nat) :=
  if s.sop &&& (1 <<< seg) ≠ 0 then
    match r.frame with
    | some _ => none
    | none => some (rxStart g s seg, hdrCount (getLane 128 seg s.hdr))
  else r.frame.map fun f => (f, r.count)

/-- `tb/pcie_if.py` lines 701-706: end of frame. -/
def rxEop (s : Txn) (seg : Nat) (f : TxFrame) (count : Nat) : Option (RxState × List TxFrame) :=
  if s.eop &&& (1 <<< seg) ≠ 0 then
    if count = 0 then some (⟨none, count⟩, [f]) else none
  else some (⟨some f, count⟩, [])

/-- `tb/pcie_if.py` lines 654-706: one segment of a sample. The list holds the frames delivered. -/
def rxSeg (g : IfGeo) (strbPresent : Bool) (s : Txn) (seg : Nat) (r : RxState) :
    Option (RxState × List TxFrame) :=
  if s.valid &&& (1 <<< seg) = 0 then some (r, [])
  else do
    let (f, count) ← rxSop g s seg r
    let (f, count) ← rxData g strbPresent s seg f count
    rxEop s seg f count

/-- `tb/pcie_if.py` lines 654-706: all segments of a sample, `n` segments left. -/
def rxLoop (g : IfGeo) (strbPresent : Bool) (s : Txn) : (n seg : Nat) → RxState →
    Option (RxState × List TxFrame)
  | 0, _, r => some (r, [])
  | n + 1, seg, r => do
    let (r, out) ← rxSeg g strbPresent s seg r
    let (r, out') ← rxLoop g strbPresent s n (seg + 1) r
    some (r, out ++ out')

/-! ### Source and sink on one bus -/

/-- State: source queue and frame in progress, the transaction built and waiting in `_drive`, the
`drive_obj`, the bus, `ready`, the sink, and all frames delivered so far. -/
structure IfSys where
  queue : List TxFrame := []
  cur : TxCur := none
  built : Option Txn := none
  driveObj : Option Txn := none
  bus : Txn := {}
  ready : Bool := false
  rx : RxState := {}
  received : List TxFrame := []

/-- `tb/pcie_if.py` lines 490-542: `_run` builds the next transaction, unless the previous one still
waits in `_drive` or there is no frame. -/
def ifBuild (g : IfGeo) (s : IfSys) : Option IfSys :=
  match s.built, s.cur, s.queue with
  | some _, _, _ => some s
  | none, none, [] => some s
  | none, cur, queue => do
    let (t, cur, queue) ← txLoop g g.segCount 0 cur queue {}
    some { s with cur := cur, queue := queue, built := some t }

/-- `tb/pcie_if.py` lines 421-426: `_drive` stores the transaction once `drive_obj` is free. -/
def ifLoad (s : IfSys) : IfSys :=
  match s.driveObj, s.built with
  | none, some t => { s with driveObj := some t, built := none }
  | _, _ => s

/-- `tb/pcie_if.py` lines 461-488: `_run_source` at a clock edge. -/
def ifSourceEdge (pause : Bool) (s : IfSys) : IfSys :=
  if s.ready || s.bus.valid == 0 then
    match s.driveObj, pause with
    | some t, false => { s with bus := t, driveObj := none }
    | _, _ => { s with bus := { s.bus with valid := 0 } }
  else s

/-- `tb/pcie_if.py` lines 625-636 and 645-706: the sink's half of a clock edge; the sample is
processed before the next edge. -/
def ifSinkEdge (g : IfGeo) (strbPresent : Bool) (s : IfSys) : Option (RxState × List TxFrame) :=
  if s.ready && s.bus.valid != 0 then rxLoop g strbPresent s.bus g.segCount 0 s.rx
  else some (s.rx, [])

/-- One rising clock edge; `ready` is the sink's choice of line 638. -/
def ifEdge (g : IfGeo) (strbPresent pause ready : Bool) (s : IfSys) : Option IfSys := do
  let (rx, out) ← ifSinkEdge g strbPresent s
  some { ifSourceEdge pause s with
    rx := rx
    received := s.received ++ out
    ready := ready }

/-- What can happen. `send` is lines 428-436. -/
inductive IfEvent
  | send (f : TxFrame)
  | build
  | load
  | edge (pause ready : Bool)
deriving Repr

/-- One event. -/
def ifStep (g : IfGeo) (strbPresent : Bool) (s : IfSys) : IfEvent → Option IfSys
  | .send f => some { s with queue := s.queue ++ [f] }
  | .build => ifBuild g s
  | .load => some (ifLoad s)
  | .edge pause ready => ifEdge g strbPresent pause ready s

/-- A history of events. -/
def ifRun (g : IfGeo) (strbPresent : Bool) : IfSys → List IfEvent → Option IfSys
  | s, [] => some s
  | s, e :: es => do ifRun g strbPresent (← ifStep g strbPresent s e) es

end Verif.Model
