import Verif.Model.DmaClientSink
/-!
Specification of the AXI stream DMA sink: which bytes a stream writes, and which statuses it causes. The functions on
descriptors and words know nothing of the implementation; those on histories only look at the interfaces.
-/
namespace Verif.Spec
open Verif.Model

/-- The parameter combinations considered: as checked in `rtl/dma_client_axis_sink.v` lines 146-181, and a stream of at
least two bytes. -/
structure SinkCfgOk (c : SrcCfg) : Prop where
  kb : 1 ≤ c.kb
  sc : c.sc ≤ c.kb + c.pb
  ram : c.kb + c.pb ≤ c.ramW
  len : c.kb ≤ c.lenW ∧ c.lenW ≤ 32

/-- A write descriptor. -/
structure SinkDesc where
  addr : Nat
  len : Nat
  tag : Nat
deriving DecidableEq

/-- A word of the stream. -/
structure SinkWord where
  data : Nat → UInt8
  keep : Nat
  last : Bool
  ids : Nat

/-- A status. -/
structure SinkStatus where
  tag : Nat
  len : Nat
  ids : Nat
deriving DecidableEq

/-- The bytes that word number `j` of the packet writes, with their addresses: those that are kept and that are within the
length of the descriptor. The address of the descriptor is aligned, or else rounded down. -/
def sinkWordWrites (c : SrcCfg) (d : SinkDesc) (j : Nat) (w : SinkWord) : List (Nat × UInt8) :=
  (List.range c.kw).filterMap fun b =>
    if w.keep.testBit b ∧ j * c.kw + b < d.len then
      some ((d.addr - d.addr % c.kw + (j * c.kw + b)) % 2 ^ c.ramW, w.data b)
    else none

/-- The number of bytes kept at the low end of a word. -/
def sinkLead (c : SrcCfg) (w : SinkWord) : Nat := ((List.range c.kw).takeWhile fun b => w.keep.testBit b).length

/-- What a word of a packet does. -/
structure SinkEffect where
  writes : List (Nat × UInt8)
  status : Option SinkStatus

/-- The effects of the words of a stream, of which the first is word number `j` for the first descriptor. A packet ends
with the word marked last, and the next packet goes with the next descriptor. Words beyond the length of the descriptor
have no effect. The word that ends the packet or fills the buffer, whichever is first, completes the descriptor: the
length in the status is that of the data written if the packet has ended, or else of the buffer. -/
def sinkEffects (c : SrcCfg) : List SinkDesc → List SinkWord → Nat → List SinkEffect
  | _, [], _ => []
  | [], _ :: _, _ => []
  | d :: ds, w :: ws, j =>
    (if j * c.kw < d.len then
      [{ writes := sinkWordWrites c d j w
         status :=
          if w.last then some ⟨d.tag, min d.len (j * c.kw + sinkLead c w), w.ids⟩
          else if d.len ≤ (j + 1) * c.kw then some ⟨d.tag, d.len, w.ids⟩
          else none }]
    else []) ++
      if w.last then sinkEffects c ds ws 0 else sinkEffects c (d :: ds) ws (j + 1)

/-- The bytes written for descriptors and a stream. -/
def sinkWrites (c : SrcCfg) (ds : List SinkDesc) (ws : List SinkWord) : List (Nat × UInt8) :=
  (sinkEffects c ds ws 0).flatMap (·.writes)

/-- The statuses for descriptors and a stream. -/
def sinkStatuses (c : SrcCfg) (ds : List SinkDesc) (ws : List SinkWord) : List SinkStatus :=
  (sinkEffects c ds ws 0).filterMap (·.status)

/-- The address is in segment `k`. -/
def sinkInSeg (c : SrcCfg) (k : Nat) (x : Nat × UInt8) : Bool := x.1 % c.rowBytes / c.segBytes == k

/-- The bytes that a command writes in segment `k`. -/
def sinkCmdWrites (c : SrcCfg) (k : Nat) (x : SinkCmd) : List (Nat × UInt8) :=
  (List.range c.segBytes).filterMap fun b =>
    if x.be.testBit b then some (x.row * c.rowBytes + (k * c.segBytes + b), x.data b) else none

/-- States and inputs of a history, cycle by cycle. -/
def sinkTrace (c : SrcCfg) : Sink → List SinkIn → List (Sink × SinkIn)
  | _, [] => []
  | s, i :: is => (s, i) :: sinkTrace c (sinkStep c s i) is

/-- The descriptors accepted in a history; the buses have finite widths. -/
def sinkAccepted (c : SrcCfg) (s : Sink) (is : List SinkIn) : List SinkDesc :=
  (sinkTrace c s is).filterMap fun x =>
    if x.1.ready && x.2.valid then some ⟨x.2.ramAddr % 2 ^ c.ramW, x.2.len % 2 ^ c.lenW, x.2.tag⟩ else none

/-- The words taken from the stream in a history. -/
def sinkWords (c : SrcCfg) (s : Sink) (is : List SinkIn) : List SinkWord :=
  (sinkTrace c s is).filterMap fun x =>
    if x.1.tready && x.2.tvalid then some ⟨x.2.data, x.2.keep, x.2.last, x.2.ids⟩ else none

/-- The statuses given in a history. -/
def sinkStatusOut (c : SrcCfg) (s : Sink) (is : List SinkIn) : List SinkStatus :=
  (sinkTrace c s is).filterMap fun x => if x.1.stV then some ⟨x.1.stTag, x.1.stLen, x.1.stIds⟩ else none

/-- The commands that the RAM has taken on segment `k`. -/
def sinkTaken (c : SrcCfg) (k : Nat) (s : Sink) (is : List SinkIn) : List SinkCmd :=
  (sinkTrace c s is).filterMap fun x => if (x.1.out k).valid && x.2.cmdReady k then some (x.1.out k).out else none

/-- The number of writes that the RAM has reported as done on segment `k`. -/
def sinkDoneCount (k : Nat) (is : List SinkIn) : Nat := is.countP (·.done k)

/-- The number of commands taken and not reported, after a cycle. -/
def sinkPendNext (s : Sink) (i : SinkIn) (pend : Nat → Nat) (k : Nat) : Nat :=
  pend k - (i.done k).toNat + ((s.out k).valid && i.cmdReady k).toNat

/-- The RAM reports a write as done only if it has taken one that is not yet reported; `pend` are those taken before. -/
def SinkRamOk (c : SrcCfg) : (Nat → Nat) → Sink → List SinkIn → Prop
  | _, _, [] => True
  | pend, s, i :: is =>
    (∀ k < c.segs, i.done k = true → 0 < pend k) ∧ SinkRamOk c (sinkPendNext s i pend) (sinkStep c s i) is

/-- The commands taken and not reported at the end of a history. -/
def sinkPendRun (c : SrcCfg) : (Nat → Nat) → Sink → List SinkIn → Nat → Nat
  | pend, _, [] => pend
  | pend, s, i :: is => sinkPendRun c (sinkPendNext s i pend) (sinkStep c s i) is

/-- An environment that gives no new descriptor or word, and a RAM that delays nothing. -/
def SinkQuiet (c : SrcCfg) : (Nat → Nat) → Sink → List SinkIn → Prop
  | _, _, [] => True
  | pend, s, i :: is =>
    (i.enable = true ∧ i.valid = false ∧ i.tvalid = false ∧
      ∀ k < c.segs, i.cmdReady k = true ∧ (0 < pend k → i.done k = true)) ∧
      SinkQuiet c (sinkPendNext s i pend) (sinkStep c s i) is

end Verif.Spec
