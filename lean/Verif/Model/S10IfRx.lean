import Verif.Model.PtileIfRx
/-!
Model of `rtl/pcie_s10_if_rx.v`, the receive side of the adapter for the Intel Stratix 10 H-Tile/L-Tile hard IP, with as many
TLP segments per word at its outputs as at its input (`TLP_SEG_COUNT = SEG_COUNT`). The TLPs arrive with the header in front of
the payload, in segments of eight double words; the module takes the header out and shifts the payload. One step is one clock
edge.

Simplifications: what one segment carries is one value; the input register holds `rx_st_empty` and the end flag instead of
the strobes `rx_st_strb_int_reg`, `rx_st_strb_eop_int_reg` computed from them; `rx_st_strb_sop`, `rx_st_vf_active` and `rx_st_vf_num`,
which are stored and not used, are left out.
-/
namespace Verif.Model

/-- Parameters `SEG_COUNT` and `IO_BAR_INDEX` (`rtl/pcie_s10_if_rx.v` lines 36-52); `SEG_DATA_WIDTH` must be 256 (line 106). -/
structure S10RxCfg where
  segs : Nat
  ioBar : Nat

/-- The demultiplexer has two ports (`rtl/pcie_s10_if_rx.v` line 191). -/
def S10RxCfg.tdm (c : S10RxCfg) : TdmCfg := { ports := 2, segs := c.segs }

/-- One segment of `rx_st_data`, `rx_st_empty`, `rx_st_sop`, `rx_st_eop`, `rx_st_bar_range`, `rx_st_func_num`
(`rtl/pcie_s10_if_rx.v` lines 61-70). -/
structure S10Seg where
  data : Nat := 0
  empty : Nat := 0
  sop : Bool := false
  eop : Bool := false
  bar : Nat := 0
  func : Nat := 0
deriving DecidableEq

/-- Inputs of one clock cycle (`rtl/pcie_s10_if_rx.v` lines 55-95); `ready 0` is `rx_req_tlp_ready` and `ready 1` is
`rx_cpl_tlp_ready`. -/
structure S10RxIn where
  rst : Bool := false
  valid : Nat → Bool
  seg : Nat → S10Seg
  ready : Nat → Bool

/-- The registers `rx_st_*_int_reg` (`iv`, `iseg`), `tlp_hdr_4dw_reg` and `rx_tlp_*_reg`, and the demultiplexer
(`rtl/pcie_s10_if_rx.v` lines 122-149 and 190-255). -/
structure S10Rx (St : Type) where
  iv : Nat → Bool
  iseg : Nat → S10Seg
  dw4 : Bool
  valid : Nat → Bool
  word : Nat → TlpSeg
  dx : Tdf St

/-- `rx_st_strb` of a segment (`rtl/pcie_s10_if_rx.v` lines 287-293). -/
def s10Strb (x : S10Seg) : Nat := if x.eop then 255 >>> x.empty else 255

/-- `rx_st_strb_eop` of a segment (`rtl/pcie_s10_if_rx.v` lines 289-293). -/
def s10StrbEop (x : S10Seg) : Nat := if x.eop then 128 >>> x.empty else 0

/-- `tlp_hdr` of a segment (`rtl/pcie_s10_if_rx.v` lines 298-301). -/
def s10Hdr (x : S10Seg) : Nat :=
  x.data % 2 ^ 32 * 2 ^ 96 + x.data / 2 ^ 32 % 2 ^ 32 * 2 ^ 64 + x.data / 2 ^ 64 % 2 ^ 32 * 2 ^ 32 + x.data / 2 ^ 96 % 2 ^ 32

/-- `tlp_bar_id` of a segment (`rtl/pcie_s10_if_rx.v` lines 303-307). -/
def s10Bar (c : S10RxCfg) (x : S10Seg) : Nat := if x.bar = 6 then c.ioBar % 8 else if x.bar = 7 then 6 else x.bar

/-- `rx_st_valid_full`: the input register below, the input above (`rtl/pcie_s10_if_rx.v` line 155). -/
def s10V {St : Type} (c : S10RxCfg) (s : S10Rx St) (i : S10RxIn) (g : Nat) : Bool := if g < c.segs then s.iv g else i.valid (g - c.segs)

/-- The segments of the same vectors (`rtl/pcie_s10_if_rx.v` lines 151-161). -/
def s10X {St : Type} (c : S10RxCfg) (s : S10Rx St) (i : S10RxIn) (g : Nat) : S10Seg := if g < c.segs then s.iseg g else i.seg (g - c.segs)

/-- `tlp_hdr_4dw_next` before the segment `g` is looked at (`rtl/pcie_s10_if_rx.v` lines 317-324). -/
def s10Dw {St : Type} (c : S10RxCfg) (s : S10Rx St) (i : S10RxIn) : Nat → Bool
  | 0 => s.dw4
  | g + 1 => if s10V c s i g && (s10X c s i g).sop then (s10Hdr (s10X c s i g)).testBit 125 else s10Dw c s i g

/-- `3+tlp_hdr_4dw_next`. -/
def s10K (d : Bool) : Nat := 3 + d.toNat

/-- The segment ends its TLP with payload of its own: the condition of line 329 (`rtl/pcie_s10_if_rx.v`). -/
def s10Ends (d : Bool) (x : S10Seg) : Bool := x.sop || decide (s10StrbEop x >>> s10K d ≠ 0)

/-- What is loaded into the segment of the output register for the segment `x`; `y` is the next one, which is valid or not
(`rtl/pcie_s10_if_rx.v` lines 319-340). The shift of the whole vector by less than a segment reaches `x` and `y`. -/
def s10Word (c : S10RxCfg) (d : Bool) (x y : S10Seg) (vy : Bool) (old : TlpSeg) : TlpSeg :=
  { data := (x.data % 2 ^ 256 + 2 ^ 256 * y.data) >>> (32 * s10K d) % 2 ^ 256
    strb := if x.eop then s10Strb x >>> s10K d else (s10Strb x + 2 ^ 8 * s10Strb y) >>> s10K d % 2 ^ 8
    seq := 0, err := 0
    hdr := if x.sop then s10Hdr x else old.hdr
    bar := if x.sop then s10Bar c x else old.bar
    func := if x.sop then x.func % 4 else old.func
    sop := x.sop
    eop := if x.eop then s10Ends d x else vy && decide (s10StrbEop y &&& (if d then 15 else 7) ≠ 0) }

/-- The output register of segment `g` after a cycle in which the demultiplexer is ready (`rtl/pcie_s10_if_rx.v` lines 312-344). -/
def s10Load {St : Type} (c : S10RxCfg) (s : S10Rx St) (i : S10RxIn) (g : Nat) (old : TlpSeg) : TlpSeg :=
  if s10V c s i g then s10Word c (s10Dw c s i (g + 1)) (s10X c s i g) (s10X c s i (g + 1)) (s10V c s i (g + 1)) old
  else { old with strb := 0, sop := false, eop := false }

/-- `rx_tlp_valid_next` of segment `g` in such a cycle (`rtl/pcie_s10_if_rx.v` lines 329-340). -/
def s10Emit {St : Type} (c : S10RxCfg) (s : S10Rx St) (i : S10RxIn) (g : Nat) : Bool :=
  s10V c s i g && (if (s10X c s i g).eop then s10Ends (s10Dw c s i (g + 1)) (s10X c s i g) else s10V c s i (g + 1))

/-- `rx_st_valid_int_next` of segment `g` in such a cycle without input (`rtl/pcie_s10_if_rx.v` lines 333-339). -/
def s10Stay {St : Type} (c : S10RxCfg) (s : S10Rx St) (i : S10RxIn) (g : Nat) : Bool :=
  s10V c s i g && !(s10X c s i g).eop && !s10V c s i (g + 1)

/-- The inputs of the demultiplexer (`rtl/pcie_s10_if_rx.v` lines 169-255). -/
def s10DxIn {St : Type} (c : S10RxCfg) (s : S10Rx St) (i : S10RxIn) : TdmIn :=
  { rst := i.rst, valid := s.valid
    word := fun g => { s.word g with seq := 0, err := 0 }
    select := fun k => ptRxSelect (s.word (k % c.segs)).hdr (k / c.segs)
    ready := i.ready }

/-- `fifo_tlp_ready`. -/
def s10Take {St : Type} (c : S10RxCfg) (F : TlpDev St) (s : S10Rx St) (i : S10RxIn) : Bool :=
  tdfReady c.tdm F s.dx (s10DxIn c s i)

/-- `rx_st_valid` is not zero (`rtl/pcie_s10_if_rx.v` line 346). -/
def s10Any (c : S10RxCfg) (i : S10RxIn) : Bool := (List.range c.segs).any i.valid

/-- One clock edge (`rtl/pcie_s10_if_rx.v` lines 262-389). -/
def s10RxStep {St : Type} (c : S10RxCfg) (F : TlpDev St) (s : S10Rx St) (i : S10RxIn) : S10Rx St :=
  let take := s10Take c F s i
  { iv := fun g => !i.rst && (if s10Any c i then i.valid g else if take then s10Stay c s i g else s.iv g)
    iseg := if s10Any c i then i.seg else s.iseg
    dw4 := if take then s10Dw c s i c.segs else s.dw4
    valid := fun g => !i.rst && (if take then s10Emit c s i g else s.valid g)
    word := fun g => if take then s10Load c s i g (s.word g) else s.word g
    dx := tdfStep c.tdm F s.dx (s10DxIn c s i) }

/-- `rx_st_ready` (`rtl/pcie_s10_if_rx.v` line 167); `water` is the watermark output of one FIFO. -/
def s10RxReady {St : Type} (water : St → Bool) (s : S10Rx St) : Bool := !(water (s.dx.fifo 0) || water (s.dx.fifo 1))

/-- State after a list of clock cycles. -/
def s10RxRun {St : Type} (c : S10RxCfg) (F : TlpDev St) : S10Rx St → List S10RxIn → S10Rx St
  | s, [] => s
  | s, i :: is => s10RxRun c F (s10RxStep c F s i) is

/-- The parameters of the FIFOs with one segment of 256 bits per word: depth `(1024/4)*2` and watermark
`(1024/4)*2-TLP_STRB_WIDTH*20` double words (`rtl/pcie_s10_if_rx.v` lines 199-200). -/
def s10RxFifo : TffCfg := { addrW := 6, words := 512 / 8, mark := (512 - 8 * 20) / 8 }

/-- The parameters of the FIFOs with two segments of 256 bits per word (`rtl/pcie_s10_if_rx.v` lines 199-200). -/
def s10RxFifo2 : TfmCfg := { selW := 1, addrW := 5, words := 512 / 16, mark := (512 - 16 * 20) / 16 }

end Verif.Model
