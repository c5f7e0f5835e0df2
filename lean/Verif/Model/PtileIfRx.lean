import Verif.Model.TlpDemuxFifo
/-!
Model of `rtl/pcie_ptile_if_rx.v`, the receive side of the adapter for the Intel P-Tile hard IP, with as many TLP segments
per word at its outputs as at its input (`TLP_SEG_COUNT = SEG_COUNT`): the register for one row of segments and, behind it,
the TLP demultiplexer with FIFOs of `Model/TlpDemuxFifo.lean`. One step is one clock edge.

Simplifications: what one segment carries is one value of type `TlpSeg`; `rx_st_tlp_prfx`, `rx_st_vf_active`,
`rx_st_vf_num` and `rx_st_tlp_abort`, which the module does not read, are left out.
-/
namespace Verif.Model

/-- Parameters `SEG_COUNT`, `SEG_DATA_WIDTH/32` and `IO_BAR_INDEX` (`rtl/pcie_ptile_if_rx.v` lines 37-59). -/
structure PtRxCfg where
  segs : Nat
  dws : Nat
  ioBar : Nat

/-- The demultiplexer has two ports (`rtl/pcie_ptile_if_rx.v` line 178). -/
def PtRxCfg.tdm (c : PtRxCfg) : TdmCfg := { ports := 2, segs := c.segs }

/-- Inputs of one clock cycle (`rtl/pcie_ptile_if_rx.v` lines 62-103). The functions are indexed by the segment; `func` is the
whole vector `rx_st_func_num` of three bits per segment; `ready 0` is `rx_req_tlp_ready` and `ready 1` is
`rx_cpl_tlp_ready`. -/
structure PtRxIn where
  rst : Bool := false
  valid : Nat → Bool
  sop : Nat → Bool
  eop : Nat → Bool
  data : Nat → Nat
  empty : Nat → Nat
  hdr : Nat → Nat
  bar : Nat → Nat
  func : Nat
  ready : Nat → Bool

/-- The registers `rx_tlp_*_reg` and the demultiplexer (`rtl/pcie_ptile_if_rx.v` lines 133-140 and 177-240). -/
structure PtRx (St : Type) where
  valid : Nat → Bool
  word : Nat → TlpSeg
  dx : Tdf St

/-- `rx_st_strb` of segment `g` (`rtl/pcie_ptile_if_rx.v` lines 259-268). -/
def ptRxStrb (c : PtRxCfg) (i : PtRxIn) (g : Nat) : Nat :=
  if i.eop g then
    if i.sop g && !(i.hdr g).testBit 126 then 0 else (2 ^ c.dws - 1) >>> i.empty g
  else 2 ^ c.dws - 1

/-- `tlp_bar_id` of segment `g` (`rtl/pcie_ptile_if_rx.v` lines 270-274). -/
def ptRxBar (c : PtRxCfg) (i : PtRxIn) (g : Nat) : Nat :=
  if i.bar g = 6 then c.ioBar % 8 else if i.bar g = 7 then 6 else i.bar g

/-- `tlp_func_num` of segment `g`: `rx_st_func_num[2*seg +: 2]` (`rtl/pcie_ptile_if_rx.v` line 276). -/
def ptRxFunc (i : PtRxIn) (g : Nat) : Nat := i.func / 2 ^ (2 * g) % 4

/-- The register of segment `g` after a cycle in which the demultiplexer is ready (`rtl/pcie_ptile_if_rx.v` lines 279-298). -/
def ptRxSeg (c : PtRxCfg) (i : PtRxIn) (old : TlpSeg) (g : Nat) : TlpSeg :=
  if i.valid g then
    { data := i.data g, strb := ptRxStrb c i g, seq := 0, err := 0
      hdr := if i.sop g then i.hdr g else old.hdr
      bar := if i.sop g then ptRxBar c i g else old.bar
      func := if i.sop g then ptRxFunc i g else old.func
      sop := i.sop g, eop := i.eop g }
  else { old with strb := 0, sop := false, eop := false }

/-- `demux_select` (`rtl/pcie_ptile_if_rx.v` lines 167-169), for the header of a segment and a port. -/
def ptRxSelect (hdr p : Nat) : Bool :=
  if p = 1 then decide (hdr >>> 121 % 32 = 5) else decide (p = 0) && !decide (hdr >>> 121 % 32 = 5)

/-- The inputs of the demultiplexer (`rtl/pcie_ptile_if_rx.v` lines 162-240). -/
def ptRxDxIn {St : Type} (c : PtRxCfg) (s : PtRx St) (i : PtRxIn) : TdmIn :=
  { rst := i.rst, valid := s.valid
    word := fun g => { s.word g with seq := 0, err := 0 }
    select := fun k => ptRxSelect (s.word (k % c.segs)).hdr (k / c.segs)
    ready := i.ready }

/-- `fifo_tlp_ready`. -/
def ptRxTake {St : Type} (c : PtRxCfg) (F : TlpDev St) (s : PtRx St) (i : PtRxIn) : Bool :=
  tdfReady c.tdm F s.dx (ptRxDxIn c s i)

/-- One clock edge (`rtl/pcie_ptile_if_rx.v` lines 245-317). -/
def ptRxStep {St : Type} (c : PtRxCfg) (F : TlpDev St) (s : PtRx St) (i : PtRxIn) : PtRx St :=
  let take := ptRxTake c F s i
  { valid := fun g => !i.rst && (if take then i.valid g else s.valid g)
    word := fun g => if take then ptRxSeg c i (s.word g) g else s.word g
    dx := tdfStep c.tdm F s.dx (ptRxDxIn c s i) }

/-- `rx_st_ready` (`rtl/pcie_ptile_if_rx.v` line 155); `water` is the watermark output of one FIFO. -/
def ptRxReady {St : Type} (water : St → Bool) (s : PtRx St) : Bool := !(water (s.dx.fifo 0) || water (s.dx.fifo 1))

/-- State after a list of clock cycles. -/
def ptRxRun {St : Type} (c : PtRxCfg) (F : TlpDev St) : PtRx St → List PtRxIn → PtRx St
  | s, [] => s
  | s, i :: is => ptRxRun c F (ptRxStep c F s i) is


/-- The parameters of the FIFOs with one segment per word: depth `(2048/4)*2` and watermark `(2048/4)*2-TLP_STRB_WIDTH*28`
double words (`rtl/pcie_ptile_if_rx.v` lines 185-186), for `TLP_STRB_WIDTH = 2^w`; `ADDR_WIDTH` is
`$clog2(DEPTH/TLP_STRB_WIDTH)` (`rtl/pcie_tlp_fifo_raw.v` line 118). -/
def ptRxFifo (w : Nat) : TffCfg := { addrW := 10 - w, words := 2 ^ 10 / 2 ^ w, mark := (2 ^ 10 - 2 ^ w * 28) / 2 ^ w }

end Verif.Model
