import Verif.Model.DmaPsdpRam
/-!
Model of `rtl/dma_psdpram_async.v`, one segment (the segments do not interact): the RAM of
`rtl/dma_psdpram.v` with a clock for writes and a clock for reads. Simplified: at an instant with edges of
both clocks a read gets the word before the write; a memory block may return anything for such a read of a
word that is being written (`no_rw_check`).
-/
namespace Verif.Model

/-- An instant with an edge of `clk_wr`, of `clk_rd`, or of both: `rtl/dma_psdpram_async.v` lines 50-72. Of
`sig`, `rst` is not used, and of the rest what belongs to the clocks that have an edge. -/
structure PsaIn where
  wrEdge : Bool
  rdEdge : Bool
  rstWr : Bool := false
  rstRd : Bool := false
  sig : PsRamIn

/-- `rtl/dma_psdpram_async.v` lines 115-128 and 133-154: the edges of one instant. The bodies of the two
blocks are those of `rtl/dma_psdpram.v`, with a reset of their own. -/
def psaStep (c : PsRamCfg) (s : PsRam) (i : PsaIn) : PsRam :=
  let w := psRamStep c s { i.sig with rst := i.rstWr }
  let r := psRamStep c s { i.sig with rst := i.rstRd }
  { mem := if i.wrEdge then w.mem else s.mem
    wrDone := if i.wrEdge then w.wrDone else s.wrDone
    valid := if i.rdEdge then r.valid else s.valid
    data := if i.rdEdge then r.data else s.data }

/-- A history. -/
def psaRun (c : PsRamCfg) : PsRam → List PsaIn → PsRam
  | s, [] => s
  | s, i :: is => psaRun c (psaStep c s i) is

/-- The responses handed over: `rd_resp_valid && rd_resp_ready` at an edge of `clk_rd`, lines 158-159. -/
def psaResponses (c : PsRamCfg) : PsRam → List PsaIn → List RamWord
  | _, [] => []
  | s, i :: is =>
    (if i.rdEdge && (s.valid (c.pipeline - 1) && i.sig.respReady) then [s.data (c.pipeline - 1)] else []) ++
      psaResponses c (psaStep c s i) is

/-- The instants in which a read command is accepted (line 156), each with its number, and the address. -/
def psaAccepted (c : PsRamCfg) : Nat → PsRam → List PsaIn → List (Nat × Nat)
  | _, _, [] => []
  | k, s, i :: is =>
    (if i.rdEdge && (i.sig.rdValid && psRamCmdReady c s i.sig) then [(k, i.sig.rdAddr)] else []) ++
      psaAccepted c (k + 1) (psaStep c s i) is

/-- The number of edges of `clk_wr` with `wr_done`. -/
def psaDone (c : PsRamCfg) : PsRam → List PsaIn → Nat
  | _, [] => 0
  | s, i :: is => (i.wrEdge && s.wrDone).toNat + psaDone c (psaStep c s i) is

end Verif.Model
