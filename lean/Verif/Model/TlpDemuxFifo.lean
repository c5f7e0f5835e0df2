import Verif.Model.TlpFifoSeg
/-!
Model of `rtl/pcie_tlp_demux.v` with `FIFO_ENABLE = 1`: the demultiplexer of `Model/TlpDemux.lean` with one TLP FIFO per port.
The FIFO is that of `Model/TlpFifo.lean` (one segment per word) or `Model/TlpFifoSeg.lean` (several segments per word).
-/
namespace Verif.Model

/-- A TLP FIFO as the demultiplexer sees it: its clock edge and `in_tlp_ready`. -/
structure TlpDev (St : Type) where
  step : St → TfmIn → St
  ready : St → Bool

/-- `pcie_tlp_fifo` with one segment per word. -/
def tffDev (f : TffCfg) : TlpDev Tff :=
  { step := fun s i => tffStep f s { rst := i.rst, valid := i.valid 0, seg := i.seg 0, ready := i.ready }
    ready := tffReady }

/-- `pcie_tlp_fifo` with several segments per word. -/
def tfmDev (f : TfmCfg) : TlpDev Tfm := { step := tfmStep f, ready := tfmReady }

/-- The demultiplexer and its FIFOs (`rtl/pcie_tlp_demux.v` lines 137-150 and 164-218). -/
structure Tdf (St : Type) where
  dm : Tdm
  fifo : Nat → St

/-- The inputs of the demultiplexer proper: `out_tlp_ready_int` comes from the FIFOs (`rtl/pcie_tlp_demux.v` lines 152 and 192). -/
def tdfDmIn {St : Type} (F : TlpDev St) (s : Tdf St) (i : TdmIn) : TdmIn := { i with ready := fun p => F.ready (s.fifo p) }

/-- The inputs of the FIFO of port `p` (`rtl/pcie_tlp_demux.v` lines 176-208). -/
def tdfFfIn {St : Type} (c : TdmCfg) (s : Tdf St) (i : TdmIn) (p : Nat) : TfmIn :=
  { rst := i.rst, valid := fun g => s.dm.valid (c.segs * p + g), seg := s.dm.word, ready := i.ready p }

/-- `in_tlp_ready` (`rtl/pcie_tlp_demux.v` line 154). -/
def tdfReady {St : Type} (c : TdmCfg) (F : TlpDev St) (s : Tdf St) (i : TdmIn) : Bool := tdmReady c s.dm (tdfDmIn F s i)

/-- One clock edge (`rtl/pcie_tlp_demux.v` lines 164-218 and 245-330). -/
def tdfStep {St : Type} (c : TdmCfg) (F : TlpDev St) (s : Tdf St) (i : TdmIn) : Tdf St :=
  { dm := tdmStep c s.dm (tdfDmIn F s i)
    fifo := fun p => F.step (s.fifo p) (tdfFfIn c s i p) }

/-- State after a list of clock cycles. -/
def tdfRun {St : Type} (c : TdmCfg) (F : TlpDev St) : Tdf St → List TdmIn → Tdf St
  | s, [] => s
  | s, i :: is => tdfRun c F (tdfStep c F s i) is

end Verif.Model
