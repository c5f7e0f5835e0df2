import Verif.Model.TlpDemux
/-!
Model of `rtl/pcie_tlp_fifo.v` with one segment per word (`IN_TLP_SEG_COUNT = OUT_TLP_SEG_COUNT = 1`), and with it of
`rtl/pcie_tlp_fifo_raw.v` with one segment and `CTRL_OUT_EN = 0`. One step is one clock edge; depth and widths are arbitrary.

Simplifications: the parallel RAMs for the fields of a segment (`seg_mem_data`, `seg_mem_hdr`, ...) are one memory of `TlpSeg`
values; the registers of the control output, which is not used then, and `count_reg`, which is not read with one segment,
are left out.
-/
namespace Verif.Model

/-- Parameters: `words` is `DEPTH/TLP_STRB_WIDTH`, `addrW` is `ADDR_WIDTH` (`rtl/pcie_tlp_fifo_raw.v` line 118), `mark` is
`WATERMARK/TLP_STRB_WIDTH` (line 380). -/
structure TffCfg where
  addrW : Nat
  words : Nat
  mark : Nat

/-- Registers and memory of `rtl/pcie_tlp_fifo_raw.v` lines 139-212 and 267-307. -/
structure Tff where
  wr : Nat := 0
  wrCur : Nat := 0
  rd : Nat := 0
  wrAddr : Nat := 0
  rdAddr : Nat := 0
  mem : Nat → TlpSeg := fun _ => {}
  rdSeg : TlpSeg := {}
  rdV : Bool := false
  out : TlpSeg := {}
  outV : Bool := false
  full : Bool := false
  half : Bool := false
  water : Bool := false

/-- Inputs of one clock cycle: `rst`, `in_tlp_valid`, the segment, `out_tlp_ready` (`rtl/pcie_tlp_fifo.v` lines 54-86). -/
structure TffIn where
  rst : Bool := false
  valid : Bool
  seg : TlpSeg
  ready : Bool

/-- `in_tlp_ready` (`rtl/pcie_tlp_fifo_raw.v` line 234 with `CTRL_OUT_EN = 0`). -/
def tffReady (s : Tff) : Bool := !s.full

/-- A word is transferred in (`rtl/pcie_tlp_fifo_raw.v` line 485). -/
def tffAcc (s : Tff) (i : TffIn) : Bool := tffReady s && i.valid

/-- `!out_tlp_valid || out_read_en` (`rtl/pcie_tlp_fifo_raw.v` line 579; `rtl/pcie_tlp_fifo.v` line 217). -/
def tffTake (s : Tff) (i : TffIn) : Bool := !s.outV || i.ready

/-- The condition of `rtl/pcie_tlp_fifo_raw.v` line 594: the register behind the memory may be loaded. -/
def tffLoad (s : Tff) (i : TffIn) : Bool := !s.rdV || tffTake s i

/-- `seg_mem_rd_en` (`rtl/pcie_tlp_fifo_raw.v` lines 594-596). -/
def tffRead (s : Tff) (i : TffIn) : Bool := tffLoad s i && s.wr != s.rd

/-- `$unsigned(wr_ptr_cur_reg - rd_ptr_reg)` (`rtl/pcie_tlp_fifo_raw.v` lines 378-380). -/
def tffCount (c : TffCfg) (s : Tff) : Nat := (s.wrCur + 2 ^ (c.addrW + 1) - s.rd) % 2 ^ (c.addrW + 1)

/-- `wr_ptr_cur_next` (`rtl/pcie_tlp_fifo_raw.v` lines 438 and 489). -/
def tffWrNext (c : TffCfg) (s : Tff) (i : TffIn) : Nat :=
  if tffAcc s i then (s.wrCur + 1) % 2 ^ (c.addrW + 1) else s.wrCur

/-- `rd_ptr_next` (`rtl/pcie_tlp_fifo_raw.v` lines 533 and 598). -/
def tffRdNext (c : TffCfg) (s : Tff) (i : TffIn) : Nat :=
  if tffRead s i then (s.rd + 1) % 2 ^ (c.addrW + 1) else s.rd

/-- One clock edge (`rtl/pcie_tlp_fifo_raw.v` lines 319-347, 377-393, 436-524, 578-603 and 765-832). In line 378 the bound
`words - 2` is a subtraction of 32-bit numbers: for less than two words the model differs from the code. -/
def tffStep (c : TffCfg) (s : Tff) (i : TffIn) : Tff :=
  { wr := if i.rst then 0 else if tffAcc s i && i.seg.eop then tffWrNext c s i else s.wr
    wrCur := if i.rst then 0 else tffWrNext c s i
    rd := if i.rst then 0 else tffRdNext c s i
    wrAddr := if i.rst then 0 else if tffAcc s i then tffWrNext c s i % 2 ^ c.addrW else s.wrAddr
    rdAddr := if i.rst then 0 else if tffRead s i then tffRdNext c s i % 2 ^ c.addrW else s.rdAddr
    mem := fun k => if tffAcc s i && k == s.wrAddr then i.seg else s.mem k
    rdSeg := if tffRead s i then s.mem s.rdAddr else s.rdSeg
    rdV := !i.rst && (if tffLoad s i then s.wr != s.rd else s.rdV)
    out := if tffTake s i then s.rdSeg else s.out
    outV := !i.rst && (if tffTake s i then s.rdV else s.outV)
    full := !i.rst && decide (c.words - 2 ≤ tffCount c s)
    half := !i.rst && decide (c.words / 2 ≤ tffCount c s)
    water := !i.rst && decide (c.mark ≤ tffCount c s) }

/-- State after a list of clock cycles. -/
def tffRun (c : TffCfg) : Tff → List TffIn → Tff
  | s, [] => s
  | s, i :: is => tffRun c (tffStep c s i) is

end Verif.Model
