import Verif.Model.TlpFifo
import Verif.Model.TlpMux
import Verif.Model.RamDemux
import Verif.Model.Counters
/-!
Model of `rtl/pcie_tlp_fifo_mux.v` with one segment per word (`IN_TLP_SEG_COUNT = OUT_TLP_SEG_COUNT = 1`), and with it of
`rtl/pcie_tlp_fifo_raw.v` with one segment and `CTRL_OUT_EN = 1`. One step is one clock edge; the number of ports, the depth
of the FIFOs, the kind of arbitration and all widths are arbitrary.

Simplifications: what one segment carries is one value of type `TlpSeg`; the registers of the control output of the FIFO
hold such a value, of which the code keeps the fields `strb`, `hdr`, `sop` and `eop`. Vectors over the ports are functions of
the port number. The segment offsets and counts, which are constant with one segment, and the outputs `fifo_half_full` and
`fifo_watermark`, which are outputs of the FIFOs, are left out.
-/
namespace Verif.Model

/-! ### FIFO with control output -/

/-- Registers of `rtl/pcie_tlp_fifo_raw.v` with `CTRL_OUT_EN = 1`: `d` are those of the data path (lines 139-212 and
267-307), the others those of the control path (`rd_ptr_ctrl_reg`, `seg_ctrl_mem_rd_addr_reg`, `ctrl_rd_*_reg`,
`ctrl_mem_rd_data_valid_reg`, `out_ctrl_tlp_*_reg`, `full_cur_ctrl_reg`). -/
structure Tfx where
  d : Tff := {}
  rdC : Nat := 0
  rdAddrC : Nat := 0
  rdSegC : TlpSeg := {}
  rdVC : Bool := false
  outC : TlpSeg := {}
  outVC : Bool := false
  fullC : Bool := false

/-- Inputs of one clock cycle: `ready` is `out_read_en`, `readyC` is `out_ctrl_read_en`. -/
structure TfxIn where
  rst : Bool := false
  valid : Bool
  seg : TlpSeg
  ready : Bool
  readyC : Bool

/-- `in_tlp_ready` (`rtl/pcie_tlp_fifo_raw.v` line 234). -/
def tfxReady (s : Tfx) : Bool := !(s.d.full || s.fullC)

/-- The inputs as the data path sees them: a word is transferred in only if neither full flag is set (`in_tlp_ready` in
`rtl/pcie_tlp_fifo_raw.v` line 485). -/
def tfxData (s : Tfx) (i : TfxIn) : TffIn := { rst := i.rst, valid := i.valid && !s.fullC, seg := i.seg, ready := i.ready }

/-- `!out_ctrl_tlp_valid || out_ctrl_read_en` (`rtl/pcie_tlp_fifo_raw.v` line 606). -/
def tfxTakeC (s : Tfx) (i : TfxIn) : Bool := !s.outVC || i.readyC

/-- The condition of `rtl/pcie_tlp_fifo_raw.v` line 616. -/
def tfxLoadC (s : Tfx) (i : TfxIn) : Bool := !s.rdVC || tfxTakeC s i

/-- `seg_ctrl_mem_rd_en` (`rtl/pcie_tlp_fifo_raw.v` lines 616-618). -/
def tfxReadC (s : Tfx) (i : TfxIn) : Bool := tfxLoadC s i && s.d.wr != s.rdC

/-- `rd_ptr_ctrl_next` (`rtl/pcie_tlp_fifo_raw.v` lines 534 and 620). -/
def tfxRdNextC (c : TffCfg) (s : Tfx) (i : TfxIn) : Nat :=
  if tfxReadC s i then (s.rdC + 1) % 2 ^ (c.addrW + 1) else s.rdC

/-- One clock edge (`rtl/pcie_tlp_fifo_raw.v` lines 319-393, 436-524, 578-627 and 765-832). -/
def tfxStep (c : TffCfg) (s : Tfx) (i : TfxIn) : Tfx :=
  { d := tffStep c s.d (tfxData s i)
    rdC := if i.rst then 0 else tfxRdNextC c s i
    rdAddrC := if i.rst then 0 else if tfxReadC s i then tfxRdNextC c s i % 2 ^ c.addrW else s.rdAddrC
    rdSegC := if tfxReadC s i then s.d.mem s.rdAddrC else s.rdSegC
    rdVC := !i.rst && (if tfxLoadC s i then s.d.wr != s.rdC else s.rdVC)
    outC := if tfxTakeC s i then s.rdSegC else s.outC
    outVC := !i.rst && (if tfxTakeC s i then s.rdVC else s.outVC)
    fullC := !i.rst && decide (c.words - 2 ≤ (s.d.wrCur + 2 ^ (c.addrW + 1) - s.rdC) % 2 ^ (c.addrW + 1)) }

/-! ### Multiplexer -/

/-- Parameters: `PORTS`, the arbitration (in `mux`, with one segment) and the FIFOs. -/
structure TxmCfg where
  mux : TmxCfg
  fifo : TffCfg

/-- `OUTPUT_FIFO_ADDR_WIDTH` (`rtl/pcie_tlp_fifo_mux.v` line 124). -/
def txmOutW : Nat := 5

/-- Registers of `rtl/pcie_tlp_fifo_mux.v` lines 139-157, 184 and 505-518; `fifo p` are the registers of the FIFO of port
`p`, `fc` those of `fc_count_inst`. -/
structure Txm where
  frame : Bool := false
  port : Nat := 0
  fifo : Nat → Tfx := fun _ => {}
  readEn : Nat → Bool := fun _ => false
  sel : Bool := false
  selPort : Nat := 0
  selSeqV : Nat → Bool := fun _ => false
  seqV : Nat → Bool := fun _ => false
  seq : Nat := 0
  out : OutFifo TlpSeg := { ring := { mem := fun _ => {} }, out := {} }
  fc : FcCount := {}

/-- Inputs of one clock cycle (`rtl/pcie_tlp_fifo_mux.v` lines 60-113). -/
structure TxmIn where
  rst : Bool := false
  valid : Nat → Bool
  seg : Nat → TlpSeg
  pause : Nat → Bool := fun _ => false
  ready : Bool

/-- `in_tlp_ready[p]` (`rtl/pcie_tlp_fifo_mux.v` line 223). -/
def txmReady (s : Txm) (p : Nat) : Bool := tfxReady (s.fifo p)

/-- `port_cyc` and `frame_cyc` after the arbitration (`rtl/pcie_tlp_fifo_mux.v` lines 354-407). -/
def txmArb (c : TxmCfg) (s : Txm) (i : TxmIn) : Nat × Bool :=
  if s.frame then (s.port, true)
  else tmxScan c.mux (fun p => !i.pause p && (s.fifo p).outVC) c.mux.ports (tmxFirst c.mux s.port) s.port

/-- A segment is selected in this cycle (`rtl/pcie_tlp_fifo_mux.v` lines 409-447; `out_tlp_ready_int` is line 544). -/
def txmCommit (c : TxmCfg) (s : Txm) (i : TxmIn) : Bool :=
  (txmArb c s i).2 && (s.fifo (txmArb c s i).1).outVC && !s.out.half

/-- `out_tlp_*_int` (`rtl/pcie_tlp_fifo_mux.v` lines 451-466). -/
def txmSeg (s : Txm) : TlpSeg := (s.fifo s.selPort).d.out

/-- `out_tlp_valid_int` (`rtl/pcie_tlp_fifo_mux.v` lines 459-461). -/
def txmSegV (s : Txm) : Bool := s.sel && (s.fifo s.selPort).d.outV

/-- The inputs of the FIFO of port `p`: `fifo_read_en_reg` and `fifo_ctrl_read_en` (`rtl/pcie_tlp_fifo_mux.v`
lines 212-264 and 438-439). -/
def txmFifoIn (c : TxmCfg) (s : Txm) (i : TxmIn) (p : Nat) : TfxIn :=
  { rst := i.rst, valid := i.valid p, seg := i.seg p, ready := s.readEn p
    readyC := txmCommit c s i && decide (p = (txmArb c s i).1) }

/-- What `fc_count_inst` sees (`rtl/pcie_tlp_fifo_mux.v` lines 273-298). -/
def txmFcIn (s : Txm) (i : TxmIn) : FcIn :=
  { rst := i.rst, hdr := (txmSeg s).hdr, valid := (txmSegV s).toNat, sop := (txmSeg s).sop.toNat, ready := true }

/-- One clock edge (`rtl/pcie_tlp_fifo_mux.v` lines 302-502 and 557-599). -/
def txmStep (c : TxmCfg) (s : Txm) (i : TxmIn) : Txm :=
  let a := txmArb c s i
  let go := txmCommit c s i
  { frame := if i.rst then false else if go then !(s.fifo a.1).outC.eop else s.frame
    port := if i.rst then 0 else if go then a.1 else s.port
    fifo := fun p => tfxStep c.fifo (s.fifo p) (txmFifoIn c s i p)
    readEn := fun p => !i.rst && (go && decide (p = a.1))
    sel := !i.rst && go
    selPort := a.1
    selSeqV := fun p => !i.rst && (go && !s.frame && decide (p = a.1))
    seqV := fun p => !i.rst && s.selSeqV p
    seq := (txmSeg s).seq
    out := outFifoStep txmOutW i.rst s.out (txmSegV s) (txmSeg s) i.ready
    fc := fcStep 1 (txmFcIn s i) }

/-- State after a list of clock cycles. -/
def txmRun (c : TxmCfg) : Txm → List TxmIn → Txm
  | s, [] => s
  | s, i :: is => txmRun c (txmStep c s i) is

end Verif.Model
