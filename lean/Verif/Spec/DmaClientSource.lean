import Verif.Model.DmaClientSource
/-!
Specification of the AXI stream DMA source: what a descriptor asks for, and how a segmented RAM answers reads.
-/
namespace Verif.Spec
open Verif.Model

/-- The parameter combinations for which the module works: as checked in `rtl/dma_client_axis_source.v` lines 142-170, and a
stream of at least two bytes or as wide as the RAM. -/
structure SrcCfgOk (c : SrcCfg) : Prop where
  kb : 1 ≤ c.kb ∨ c.pb = 0
  sc : c.sc ≤ c.kb + c.pb
  ram : c.kb + c.pb ≤ c.ramW
  len : c.kb ≤ c.lenW ∧ c.lenW ≤ 32

/-- A read descriptor. -/
structure SrcDesc where
  addr : Nat
  len : Nat
  tag : Nat
  ids : Nat
deriving DecidableEq

/-- The descriptor on the inputs; the buses have finite widths. -/
def srcDescOf (c : SrcCfg) (i : SrcIn) : SrcDesc :=
  { addr := i.ramAddr % 2 ^ c.ramW, len := i.len % 2 ^ c.lenW, tag := i.tag, ids := i.ids }

/-- A transfer as seen by the receiver: the bytes kept, in order, whether it ends the packet, and the identifiers. -/
structure StreamWord where
  bytes : List UInt8
  last : Bool
  ids : Nat
deriving DecidableEq

/-- What the receiver gets from a transfer on a stream of `kw` bytes. -/
def srcWord (kw : Nat) (b : SrcBeat) : StreamWord :=
  { bytes := (List.range kw).filterMap fun k => if b.keep.testBit k then some (b.data k) else none
    last := b.last
    ids := b.ids }

/-- The packet that a descriptor asks for: `len` bytes of RAM from the address (which is `kw`-aligned, or else rounded
down), packed without gaps in words of `kw` bytes, of which only the final one is marked last. -/
def srcPacket (c : SrcCfg) (mem : Nat → UInt8) (d : SrcDesc) : List StreamWord :=
  let n := (d.len + c.kw - 1) / c.kw
  (List.range n).map fun j =>
    { bytes := (List.range (min c.kw (d.len - j * c.kw))).map fun b =>
        mem ((d.addr - d.addr % c.kw + (j * c.kw + b)) % 2 ^ c.ramW)
      last := decide (j + 1 = n)
      ids := d.ids }

/-- States and inputs of a history, cycle by cycle. -/
def srcTrace (c : SrcCfg) : Src → List SrcIn → List (Src × SrcIn)
  | _, [] => []
  | s, i :: is => (s, i) :: srcTrace c (srcStep c s i) is

/-- The descriptors accepted in a history. -/
def srcAccepted (c : SrcCfg) (s : Src) (is : List SrcIn) : List SrcDesc :=
  (srcTrace c s is).filterMap fun x => if x.1.ready && x.2.valid then some (srcDescOf c x.2) else none

/-- The transfers on the stream in a history. -/
def srcSent (c : SrcCfg) (s : Src) (is : List SrcIn) : List SrcBeat :=
  (srcTrace c s is).filterMap fun x => if x.1.out.valid && x.2.tready then some x.1.out.out else none

/-- The tags of the statuses given in a history. -/
def srcStatus (c : SrcCfg) (s : Src) (is : List SrcIn) : List Nat :=
  (srcTrace c s is).filterMap fun x => if x.1.stV then some x.1.stTag else none

/-- The rows read from each segment and not yet delivered, after a cycle: responses are taken from the front, commands
are put at the end. -/
def srcPendNext (c : SrcCfg) (s : Src) (i : SrcIn) (pend : Nat → List Nat) (k : Nat) : List Nat :=
  (if i.respValid k && srcRespReady c s i k then (pend k).tail else pend k) ++
    if s.ramV k && i.cmdReady k then [s.ramAddr k] else []

/-- In this cycle the RAM responds on a segment only if a command is waiting for a response, and with the data of the
oldest one. -/
def SrcRamAnswers (c : SrcCfg) (mem : Nat → UInt8) (pend : Nat → List Nat) (i : SrcIn) : Prop :=
  ∀ k < c.segs, i.respValid k = true → ∃ r, (pend k).head? = some r ∧
    ∀ b < c.segBytes, i.respData (k * c.segBytes + b) = mem (r * c.rowBytes + (k * c.segBytes + b))

/-- The RAM behaves so in a whole history; `pend` are the commands waiting at its start. -/
def SrcRamOk (c : SrcCfg) (mem : Nat → UInt8) : (Nat → List Nat) → Src → List SrcIn → Prop
  | _, _, [] => True
  | pend, s, i :: is =>
    SrcRamAnswers c mem pend i ∧ SrcRamOk c mem (srcPendNext c s i pend) (srcStep c s i) is

/-- The rows still waiting for a response at the end of a history. -/
def srcPendRun (c : SrcCfg) : (Nat → List Nat) → Src → List SrcIn → Nat → List Nat
  | pend, _, [] => pend
  | pend, s, i :: is => srcPendRun c (srcPendNext c s i pend) (srcStep c s i) is

/-- An environment that does not delay anything and gives no new descriptor: the RAM takes every command and answers
those it has, and the receiver takes every word. -/
def SrcQuiet (c : SrcCfg) : (Nat → List Nat) → Src → List SrcIn → Prop
  | _, _, [] => True
  | pend, s, i :: is =>
    (i.valid = false ∧ i.tready = true ∧ ∀ k < c.segs, i.cmdReady k = true ∧ (pend k ≠ [] → i.respValid k = true)) ∧
      SrcQuiet c (srcPendNext c s i pend) (srcStep c s i) is

end Verif.Spec
