import Verif.Model.DmaIfPcieRd
import Verif.Spec.DmaIfPcieWr
/-!
Specification of the PCIe DMA read interface: which memory reads a descriptor asks for, what completions do, and which
statuses descriptors get. The functions on headers and requests know nothing of the implementation; those on histories
only look at the interfaces.
-/
namespace Verif.Spec
open Verif.Model

/-- The parameter combinations considered: as checked in `rtl/dma_if_pcie_rd.v` lines 209-254, and tags of at most 8 bits. -/
structure DrdCfgOk (c : DrdCfg) : Prop where
  tb : 2 ≤ c.tb ∧ c.tb ≤ 11
  sc : 1 ≤ c.sc ∧ c.sc ≤ c.tb + 1
  ram : c.tb + 1 ≤ c.ramW
  len : 1 ≤ c.lenW
  tag : 1 ≤ c.tagW ∧ c.tagW ≤ 8
  op : 1 ≤ c.opW

/-! ### Requests -/

/-- A read descriptor. -/
structure RdDesc where
  addr : Nat
  sel : Nat
  ram : Nat
  len : Nat
  tag : Nat
deriving DecidableEq

/-- The descriptor on the inputs; the buses have finite widths. -/
def rdDescOf (c : DrdCfg) (i : DrdIn) : RdDesc :=
  { addr := i.addr % 2 ^ 64, sel := i.sel, ram := i.ram % 2 ^ c.ramW, len := i.len % 2 ^ c.lenW, tag := i.tag }

/-- The addresses of the bytes that a descriptor asks for. -/
def rdDescBytes (d : RdDesc) : List Nat := (List.range d.len).map fun n => (d.addr + n) % 2 ^ 64

/-- The address of a memory read request. -/
def rdHdrAddr (h : TlpHdr) : Nat := if bits h.dw0 31 29 = 1 then h.dw2 * 2 ^ 32 + h.dw3 else h.dw2

/-- The addresses of the bytes that a memory read request asks for. -/
def rdHdrBytes (h : TlpHdr) : List Nat :=
  (List.range (4 * hdrLen h)).filterMap fun k => if hdrEnables h k then some (rdHdrAddr h + k) else none

/-- The tag of a memory read request. -/
def rdHdrTag (h : TlpHdr) : Nat := bits h.dw1 15 8

/-- A well-formed memory read with requester ID `rid`, for at most `mrrs` bytes and not across a 4 KB boundary. -/
structure ReadTlpOk (c : DrdCfg) (rid mrrs : Nat) (h : TlpHdr) : Prop where
  /-- Memory read; 64-bit address exactly when needed or forced; TC, attributes and so on are 0. -/
  dw0 : h.dw0 < 2 ^ 32 ∧ bits h.dw0 28 10 = 0 ∧ bits h.dw0 31 29 = if 2 ^ 32 ≤ rdHdrAddr h ∨ c.force64 = true then 1 else 0
  dw1 : h.dw1 < 2 ^ 32 ∧ bits h.dw1 31 16 = rid
  addr : rdHdrAddr h % 4 = 0 ∧ rdHdrAddr h < 2 ^ 64 ∧ h.dw2 < 2 ^ 32 ∧ h.dw3 < 2 ^ 32 ∧ (bits h.dw0 31 29 = 0 → h.dw3 = 0)
  /-- The last byte enables are 0 exactly in a request for one DWORD. -/
  be : bits h.dw1 7 4 = 0 ↔ hdrLen h = 1
  mrrs : 4 * hdrLen h ≤ mrrs
  page : rdHdrAddr h % 4096 + 4 * hdrLen h ≤ 4096

/-- `ps` are the bytes of the requests for a descriptor: together those that it asks for, and no request is superfluous; a
descriptor of length 0 has one request without enabled bytes. -/
def RdSplitOf (d : RdDesc) (ps : List (List Nat)) : Prop :=
  ps.flatten = rdDescBytes d ∧ (d.len = 0 → ps = [[]]) ∧ (d.len ≠ 0 → [] ∉ ps)

/-- States and inputs of a history, cycle by cycle. -/
def drdTrace (c : DrdCfg) : Drd → List DrdIn → List (Drd × DrdIn)
  | _, [] => []
  | s, i :: is => (s, i) :: drdTrace c (drdStep c s i) is

/-- The descriptors accepted in a history. -/
def drdAccepted (c : DrdCfg) (s : Drd) (is : List DrdIn) : List RdDesc :=
  (drdTrace c s is).filterMap fun x => if x.1.req.ready && x.2.valid then some (rdDescOf c x.2) else none

/-- The requests sent in a history. -/
def drdSent (c : DrdCfg) (s : Drd) (is : List DrdIn) : List TlpHdr :=
  (drdTrace c s is).filterMap fun x => if x.1.txV && x.2.txReady then some x.1.tx else none

/-- The requests put on the interface in a history: those sent, and the one that is offered at its end. -/
def drdPresented (c : DrdCfg) (s : Drd) (is : List DrdIn) : List TlpHdr :=
  drdSent c s is ++ if (drdRun c s is).txV then [(drdRun c s is).tx] else []

/-! ### Completions -/

/-- A descriptor that has not been requested completely: its number, and the number of bytes requested. -/
structure RdTodo where
  num : Nat
  d : RdDesc
  off : Nat

/-- A request that has been sent and not been completed, for the bytes from `off` up to `stop` of a descriptor; bytes that
have arrived are not counted. For a descriptor of length 0 a completion as for one byte is expected. -/
structure RdReq where
  num : Nat
  d : RdDesc
  tag : Nat
  off : Nat
  stop : Nat
deriving DecidableEq

/-- The effect of a transfer on the completion interface, for descriptor number `num`: bytes to write to the RAM (RAM
number, address, value), whether a request is finished, and with which error; and a status, if the descriptor is. -/
structure RdEvent where
  num : Nat
  writes : List (Nat × Nat × UInt8)
  finish : Bool
  error : Nat
  status : Option (Nat × Nat)

/-- The completion in progress: none; one that is ignored; or one with `left` more bytes for the request with this tag. -/
inductive RdCur where
  | none
  | skip
  | data (tag left : Nat)
deriving DecidableEq

/-- The interface as seen from outside: the number of descriptors accepted, those not requested completely, the requests
outstanding, the completion in progress, the tag that was finished in the last cycle, and all effects so far. -/
structure RdEnv where
  count : Nat
  todo : List RdTodo
  out : List RdReq
  cur : RdCur
  last : Option Nat
  evs : List RdEvent

/-- After reset. -/
def rdEnv0 : RdEnv := ⟨0, [], [], .none, none, []⟩

/-- A descriptor is accepted. -/
def RdEnv.accept (d : RdDesc) (e : RdEnv) : RdEnv := { e with count := e.count + 1, todo := e.todo ++ [⟨e.count, d, 0⟩] }

/-- The bytes for which completions are expected. -/
def rdSpan (d : RdDesc) : Nat := if d.len = 0 then 1 else d.len

/-- A request is sent. It is for the next bytes of the first descriptor not requested completely. -/
def RdEnv.send (h : TlpHdr) (e : RdEnv) : RdEnv :=
  match e.todo with
  | [] => e
  | t :: ts =>
    let stop := t.off + max 1 (rdHdrBytes h).length
    { e with
      out := e.out ++ [⟨t.num, t.d, rdHdrTag h, t.off, stop⟩]
      todo := if stop < rdSpan t.d then { t with off := stop } :: ts else ts }

/-- The last error of a descriptor. -/
def rdError (evs : List RdEvent) (num : Nat) : Nat :=
  evs.foldl (fun a v => if v.num = num ∧ v.error ≠ 0 then v.error else a) 0

/-- An effect for request `r`, after which the requests `out` are outstanding. The descriptor is complete when all of it
has been requested and no request is outstanding. -/
def RdEnv.emit (e : RdEnv) (r : RdReq) (out : List RdReq) (writes : List (Nat × Nat × UInt8)) (finish : Bool) (error : Nat) :
    RdEnv :=
  let complete := finish && !e.todo.any (·.num == r.num) && !out.any (·.num == r.num)
  let v : RdEvent := ⟨r.num, writes, finish, error, none⟩
  { e with
    out := out
    last := if finish then some r.tag else none
    evs := e.evs ++ [{ v with status := if complete then some (r.d.tag, rdError (e.evs ++ [v]) r.num) else none }] }

/-- The requests when `k` more bytes have arrived for tag `t`. -/
def rdAdvance (t k : Nat) (out : List RdReq) : List RdReq :=
  out.filterMap fun r => if r.tag = t then if r.off + k = r.stop then none else some { r with off := r.off + k } else some r

/-- `k` bytes arrive for request `r`, the first in this lane. -/
def RdEnv.data (c : DrdCfg) (e : RdEnv) (r : RdReq) (k lane : Nat) (data : Nat → UInt8) : RdEnv :=
  e.emit r (rdAdvance r.tag k e.out)
    (if r.d.len = 0 then [] else
      (List.range k).map fun q => (r.d.sel, (r.d.ram + (r.off + q)) % 2 ^ c.ramW, data (lane + q)))
    (decide (r.off + k = r.stop)) 0

/-- The tag in a completion. -/
def cplHdrTag (h : TlpHdr) : Nat := bits h.dw0 23 23 * 512 + bits h.dw0 19 19 * 256 + bits h.dw2 15 8

/-- The completion is for this requester: the whole ID is compared, or the device and function number only. -/
def cplForMe (c : DrdCfg) (i : DrdIn) : Prop :=
  if c.checkBus then bits i.rxHdr.dw2 31 16 = i.requesterId % 2 ^ 16 else bits i.rxHdr.dw2 23 16 = i.requesterId % 2 ^ 8

instance (c : DrdCfg) (i : DrdIn) : Decidable (cplForMe c i) := by unfold cplForMe; infer_instance

/-- What a completion is. -/
inductive RdKind where
  | unexpected
  | malformed
  | error (r : RdReq) (code : Nat)
  | data (r : RdReq)

/-- What a completion is: unexpected if no request with its tag is outstanding, if it is for someone else or if it has no
data although its status is successful; malformed if it has data although its status is not, if its traffic class or
attributes are not those of the request, or if the interface reports a mismatch (3). Otherwise it ends the request with an
error if it is poisoned (the interface reports 1; error 9), if its status is not successful (2; errors 11 for completer
abort and 10 for others), if it stands for a timeout (15; error 1) or for a function level reset (8; error 8). -/
def rdKind (c : DrdCfg) (out : List RdReq) (i : DrdIn) : RdKind :=
  let h := i.rxHdr
  let status := bits h.dw1 15 13
  let fmt := bits h.dw0 31 29
  match out.find? (·.tag == cplHdrTag h) with
  | none => .unexpected
  | some r =>
    if (status = 0 ∧ fmt ≠ 2) ∨ ¬ cplForMe c i then .unexpected
    else if (status ≠ 0 ∧ fmt ≠ 0) ∨ bits h.dw0 22 20 ≠ 0 ∨ bits h.dw0 18 18 ≠ 0 ∨ bits h.dw0 13 12 ≠ 0 ∨ i.rxError = 3 then
      .malformed
    else if bits h.dw0 14 14 = 1 ∨ i.rxError = 1 then .error r 9
    else if status ≠ 0 ∨ i.rxError = 2 then .error r (if status = 4 then 11 else 10)
    else if i.rxError = 15 then .error r 1
    else if i.rxError = 8 then .error r 8
    else .data r

/-- The offset in its DWORD of the first byte of a completion. -/
def cplOffset (h : TlpHdr) : Nat := bits h.dw2 1 0

/-- The number of bytes in a completion for request `r`. -/
def cplCount (r : RdReq) (h : TlpHdr) : Nat := min (r.stop - r.off) (4 * hdrLen h - cplOffset h)

/-- The number of bytes in the first transfer of a completion. -/
def cplFirst (c : DrdCfg) (r : RdReq) (h : TlpHdr) : Nat := min (cplCount r h) (c.tlpBytes - cplOffset h)

/-- A transfer on the completion interface. -/
def RdEnv.beat (c : DrdCfg) (i : DrdIn) (e : RdEnv) : RdEnv :=
  match e.cur with
  | .skip => { e with cur := if i.rxEop then .none else .skip }
  | .data t left =>
    match e.out.find? (·.tag == t) with
    | none => e
    | some r =>
      { e.data c r (min c.tlpBytes left) 0 i.rxData with cur := if left ≤ c.tlpBytes then .none else .data t (left - c.tlpBytes) }
  | .none =>
    if i.rxSop then
      match rdKind c e.out i with
      | .unexpected => { e with cur := if i.rxEop then .none else .skip }
      | .malformed => { e with cur := if i.rxEop then .none else .skip }
      | .error r code =>
        { e.emit r (e.out.filter (·.tag != r.tag)) [] true code with cur := if i.rxEop then .none else .skip }
      | .data r =>
        let k := cplFirst c r i.rxHdr
        { e.data c r k (cplOffset i.rxHdr) i.rxData with
          cur := if cplCount r i.rxHdr = k then .none else .data r.tag (cplCount r i.rxHdr - k) }
    else e

/-- A transfer is made on the completion interface. -/
def drdTransfer (s : Drd) (i : DrdIn) : Bool := s.rx.ready && i.rxValid

/-- The error outputs (correctable, uncorrectable) after a cycle: pulses for an unexpected and for a malformed completion, and
for one that ends a request with an error; other cycles and a function level reset give none. -/
def rdPulse (c : DrdCfg) (e : RdEnv) (s : Drd) (i : DrdIn) : Bool × Bool :=
  if drdTransfer s i = true ∧ e.cur = .none ∧ i.rxSop = true then
    match rdKind c e.out i with
    | .unexpected => (true, false)
    | .malformed => (false, true)
    | .error _ code => (code == 9 || code == 10 || code == 11, code == 1)
    | .data _ => (false, false)
  else (false, false)

/-- One cycle. -/
def RdEnv.step (c : DrdCfg) (s : Drd) (i : DrdIn) (e : RdEnv) : RdEnv :=
  let e := if drdTransfer s i then ({ e with last := none }).beat c i else { e with last := none }
  let e := if s.txV && i.txReady then e.send s.tx else e
  if s.req.ready && i.valid then e.accept (rdDescOf c i) else e

/-- A history. -/
def RdEnv.run (c : DrdCfg) : RdEnv → Drd → List DrdIn → RdEnv
  | e, _, [] => e
  | e, s, i :: is => RdEnv.run c (e.step c s i) (drdStep c s i) is

/-- A completion with data for request `r` is as it should be: byte count and lower address are those of the bytes that are
outstanding, it has at most the data requested, and ends in the cycle with the last of its bytes. -/
structure CplDataOk (c : DrdCfg) (r : RdReq) (i : DrdIn) : Prop where
  count : bits i.rxHdr.dw1 11 0 = (r.stop - r.off) % 4096
  lower : r.d.len ≠ 0 → bits i.rxHdr.dw2 6 0 = (r.d.addr + r.off) % 128
  len : 4 * hdrLen i.rxHdr < cplOffset i.rxHdr + (r.stop - r.off) + 4
  eop : i.rxEop = true ↔ cplCount r i.rxHdr = cplFirst c r i.rxHdr

/-- What is assumed of a transfer on the completion interface. A completion whose tag is not outstanding must not have the
tag, in the bits that are compared, of an outstanding request, of one that is about to be sent, or of one that was finished
in the cycle before. A completion with data is as it should be. -/
def CplOk (c : DrdCfg) (e : RdEnv) (s : Drd) (i : DrdIn) : Prop :=
  match e.cur with
  | .skip => True
  | .data _ left => i.rxEop = true ↔ left ≤ c.tlpBytes
  | .none =>
    i.rxSop = true →
      ((∀ r ∈ e.out, r.tag ≠ cplHdrTag i.rxHdr) →
        (∀ r ∈ e.out, r.tag ≠ cplHdrTag i.rxHdr % 2 ^ c.tagW) ∧ e.last ≠ some (cplHdrTag i.rxHdr % 2 ^ c.tagW) ∧
        ¬ (s.txV = true ∧ rdHdrTag s.tx = cplHdrTag i.rxHdr % 2 ^ c.tagW)) ∧
      ∀ r, rdKind c e.out i = .data r → CplDataOk c r i

/-- A history in which completions are as they should be. -/
def CplsOk (c : DrdCfg) : RdEnv → Drd → List DrdIn → Prop
  | _, _, [] => True
  | e, s, i :: is => (drdTransfer s i = true → CplOk c e s i) ∧ CplsOk c (e.step c s i) (drdStep c s i) is

/-! ### RAM writes and statuses -/

/-- The address is in segment `k`. -/
def drdInSeg (c : DrdCfg) (k : Nat) (x : Nat × Nat × UInt8) : Bool := x.2.1 % c.rowBytes / c.segBytes == k

/-- The bytes that a command writes in segment `k`. -/
def drdCmdWrites (c : DrdCfg) (k : Nat) (x : DrdCmd) : List (Nat × Nat × UInt8) :=
  (List.range c.segBytes).filterMap fun b =>
    if x.be b then some (x.sel, x.addr * c.rowBytes + (k * c.segBytes + b), x.data b) else none

/-- What events write in segment `k`: for each event that writes there, the bytes. -/
def drdSegParts (c : DrdCfg) (k : Nat) (evs : List RdEvent) : List (List (Nat × Nat × UInt8)) :=
  (evs.map fun v => v.writes.filter (drdInSeg c k)).filter (!·.isEmpty)

/-- The commands that the RAM has taken on segment `k`. -/
def drdTakenCmds (c : DrdCfg) (k : Nat) (s : Drd) (is : List DrdIn) : List DrdCmd :=
  (drdTrace c s is).filterMap fun x => if (x.1.out k).valid && x.2.cmdReady k then some (x.1.out k).out else none

/-- The number of writes that the RAM has reported as done on segment `k`. -/
def drdDoneCount (k : Nat) (is : List DrdIn) : Nat := is.countP (·.done k)

/-- The number of commands taken and not reported, after a cycle. -/
def drdPendNext (s : Drd) (i : DrdIn) (pend : Nat → Nat) (k : Nat) : Nat :=
  pend k - (i.done k).toNat + ((s.out k).valid && i.cmdReady k).toNat

/-- The RAM reports a write as done only if it has taken one that is not yet reported; `pend` are those taken before. -/
def DrdRamOk (c : DrdCfg) : (Nat → Nat) → Drd → List DrdIn → Prop
  | _, _, [] => True
  | pend, s, i :: is =>
    (∀ k < c.segs, i.done k = true → 0 < pend k) ∧ DrdRamOk c (drdPendNext s i pend) (drdStep c s i) is

/-- The copy of a descriptor whose bytes have the values `data`: RAM number, address and value. -/
def drdCopy (c : DrdCfg) (d : RdDesc) (data : Nat → UInt8) : List (Nat × Nat × UInt8) :=
  (List.range d.len).map fun q => (d.sel, (d.ram + q) % 2 ^ c.ramW, data q)

/-- A transfer on the completion interface that is for an outstanding request brings the right data: byte `q` of descriptor
`d`, which is number `m`, is `data m d q`. With `data m d q = mem (d.addr + q)`, completions bring the contents of a memory. -/
def CplBytesOk (c : DrdCfg) (data : Nat → RdDesc → Nat → UInt8) (e : RdEnv) (i : DrdIn) : Prop :=
  match e.cur with
  | .skip => True
  | .data t left => ∀ r ∈ e.out, r.tag = t → ∀ q < min c.tlpBytes left, i.rxData q = data r.num r.d (r.off + q)
  | .none => i.rxSop = true → ∀ r, rdKind c e.out i = .data r →
      ∀ q < cplFirst c r i.rxHdr, i.rxData (cplOffset i.rxHdr + q) = data r.num r.d (r.off + q)

/-- A history in which completions bring the right data. -/
def CplsBytes (c : DrdCfg) (data : Nat → RdDesc → Nat → UInt8) : RdEnv → Drd → List DrdIn → Prop
  | _, _, [] => True
  | e, s, i :: is => (drdTransfer s i = true → CplBytesOk c data e i) ∧ CplsBytes c data (e.step c s i) (drdStep c s i) is

/-- The status on the outputs: tag and error. -/
def drdStatus (s : Drd) : List (Nat × Nat) := if s.stV then [(s.stTag, s.stErr)] else []

/-- The statuses given in a history and after its last cycle. -/
def drdStatuses (c : DrdCfg) (s : Drd) (is : List DrdIn) : List (Nat × Nat) :=
  (drdTrace c s is).flatMap (fun x => drdStatus x.1) ++ drdStatus (drdRun c s is)

end Verif.Spec
