/-!
Model of `rtl/dma_psdpram.v`, one segment (the segments do not interact). A word is a function from the
byte lane to the byte, bit vectors of flags are functions of the bit number.
-/
namespace Verif.Model

/-- Parameters of `rtl/dma_psdpram.v` (lines 36-48): bytes in a word (`SEG_BE_WIDTH`), address bits used
(`INT_ADDR_WIDTH`), `PIPELINE`. -/
structure PsRamCfg where
  beWidth : Nat
  addrWidth : Nat
  pipeline : Nat
deriving DecidableEq, Repr

/-- A word of the RAM. -/
abbrev RamWord := Nat → UInt8

/-- Registers: `rtl/dma_psdpram.v` lines 91-96. -/
structure PsRam where
  mem : Nat → RamWord
  wrDone : Bool := false
  valid : Nat → Bool
  data : Nat → RamWord

/-- Inputs in one cycle. -/
structure PsRamIn where
  rst : Bool := false
  wrValid : Bool
  wrBe : Nat → Bool
  wrAddr : Nat
  wrData : RamWord
  rdValid : Bool
  rdAddr : Nat
  respReady : Bool

/-- `rtl/dma_psdpram.v` lines 117-121: the memory after the write in a cycle. -/
def psRamWrite (c : PsRamCfg) (m : Nat → RamWord) (i : PsRamIn) : Nat → RamWord := fun a l =>
  if i.wrValid && i.wrBe l && decide (l < c.beWidth) && a == i.wrAddr % 2 ^ c.addrWidth then i.wrData l else m a l

/-- `rtl/dma_psdpram.v` line 138: the condition for stage `j` to load. -/
def pipeShift (P : Nat) (v : Nat → Bool) (ready : Bool) (j : Nat) : Bool :=
  ready || (List.range P).any fun k => decide (j ≤ k) && !v k

/-- `rtl/dma_psdpram.v` line 155: `rd_cmd_ready`. -/
def psRamCmdReady (c : PsRamCfg) (s : PsRam) (i : PsRamIn) : Bool :=
  i.respReady || (List.range c.pipeline).any fun k => !s.valid k

/-- `rtl/dma_psdpram.v` lines 133-148: `rd_resp_valid_pipe_reg[j]` after an edge, without reset; of several
nonblocking assignments the last one counts. -/
def pipeValid (P : Nat) (v : Nat → Bool) (ready acc : Bool) (j : Nat) : Bool :=
  if acc && j == 0 then true
  else if decide (0 < j) && pipeShift P v ready j then v (j - 1)
  else if decide (j + 1 < P) && pipeShift P v ready (j + 1) then false
  else if ready && j == P - 1 then false
  else v j

/-- `rtl/dma_psdpram.v` lines 137-148: `rd_resp_data_pipe_reg[j]` after an edge. -/
def pipeData {β : Type} (P : Nat) (v : Nat → Bool) (d : Nat → β) (ready acc : Bool) (x : β) (j : Nat) : β :=
  if acc && j == 0 then x
  else if decide (0 < j) && pipeShift P v ready j then d (j - 1)
  else d j

/-- `rtl/dma_psdpram.v` lines 114-153: one clock edge. -/
def psRamStep (c : PsRamCfg) (s : PsRam) (i : PsRamIn) : PsRam :=
  let acc := i.rdValid && psRamCmdReady c s i
  { mem := psRamWrite c s.mem i
    wrDone := !i.rst && i.wrValid
    valid := fun j => if i.rst then false else pipeValid c.pipeline s.valid i.respReady acc j
    data := pipeData c.pipeline s.valid s.data i.respReady acc (s.mem (i.rdAddr % 2 ^ c.addrWidth)) }

/-- A history. -/
def psRamRun (c : PsRamCfg) : PsRam → List PsRamIn → PsRam
  | s, [] => s
  | s, i :: is => psRamRun c (psRamStep c s i) is

/-- The responses handed over: `rd_resp_valid && rd_resp_ready`, lines 157-158. -/
def psRamResponses (c : PsRamCfg) : PsRam → List PsRamIn → List RamWord
  | _, [] => []
  | s, i :: is =>
    (if s.valid (c.pipeline - 1) && i.respReady then [s.data (c.pipeline - 1)] else []) ++
      psRamResponses c (psRamStep c s i) is

/-- The cycles (inputs) in which a read command is accepted, each with its number. -/
def psRamAccepted (c : PsRamCfg) : Nat → PsRam → List PsRamIn → List (Nat × Nat)
  | _, _, [] => []
  | k, s, i :: is =>
    (if i.rdValid && psRamCmdReady c s i then [(k, i.rdAddr)] else []) ++ psRamAccepted c (k + 1) (psRamStep c s i) is

/-- The number of cycles with `wr_done`. -/
def psRamDone (c : PsRamCfg) : PsRam → List PsRamIn → Nat
  | _, [] => 0
  | s, i :: is => s.wrDone.toNat + psRamDone c (psRamStep c s i) is

end Verif.Model
