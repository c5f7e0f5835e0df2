import Verif.Model.AxiMasterRd
import Verif.Model.AxiMasterWr
import Verif.Model.TlpDemux
import Verif.Model.Counters
/-!
Model of `rtl/pcie_axi_master.v`: a demultiplexer in front of the AXI master for reads and that for writes. One step is one
clock edge. The parts allow one TLP segment per word only (`rtl/pcie_axi_master_rd.v` and `rtl/pcie_axi_master_wr.v` check it), so
that `TLP_SEG_COUNT` is 1 here.

The demultiplexer carries headers and data as bit vectors (natural numbers), the masters have headers of four DWORDs and data as a
function from the byte lane.
-/
namespace Verif.Model

/-- `rtl/pcie_axi_master.v` lines 36-56: the data width is `2 ^ tb` bytes. -/
structure AxbCfg where
  tb : Nat
  addrW : Nat
  burst : Nat
  force64 : Bool

/-- `rtl/pcie_axi_master.v` lines 228-239: the parameters of the master for reads. -/
def AxbCfg.rd (c : AxbCfg) : AxrCfg := ⟨c.tb, c.addrW, c.burst, c.force64⟩

/-- `rtl/pcie_axi_master.v` lines 297-307: the parameters of the master for writes. -/
def AxbCfg.wr (c : AxbCfg) : AxwCfg := ⟨c.tb, c.addrW, c.burst, c.force64⟩

/-- `rtl/pcie_axi_master.v` lines 166-174: two ports, one segment. -/
def axbTdm : TdmCfg := ⟨2, 1⟩

/-- The state of the four instances, `rtl/pcie_axi_master.v` lines 166-362. -/
structure Axb where
  dm : Tdm
  rd : Axr
  wr : Axw
  pm : PulseMerge

/-- `rtl/pcie_axi_master.v` lines 57-132: the inputs in one cycle. -/
structure AxbIn where
  rst : Bool := false
  data : Nat
  hdr : Nat
  valid : Bool
  sop : Bool
  eop : Bool
  txReady : Bool
  awReady : Bool
  wReady : Bool
  arReady : Bool
  rData : Nat → UInt8
  rValid : Bool
  cid : Nat
  mps : Nat

/-- A header of 128 bits as four DWORDs, the first one in bits 127 to 96 (as in `rtl/pcie_axi_master_rd.v` lines 337-364). -/
def axbHdr (h : Nat) : TlpHdr := ⟨h / 2 ^ 96 % 2 ^ 32, h / 2 ^ 64 % 2 ^ 32, h / 2 ^ 32 % 2 ^ 32, h % 2 ^ 32⟩

/-- Byte `k` of a data word. -/
def axbData (d : Nat) (k : Nat) : UInt8 := UInt8.ofNat (d / 256 ^ k)

/-- `rtl/pcie_axi_master.v` lines 159-161: `select[1]`. -/
def axbIsWr (h : Nat) : Bool := h / 2 ^ 120 % 2 ^ 8 == 0x40 || h / 2 ^ 120 % 2 ^ 8 == 0x60

/-- `rtl/pcie_axi_master.v` lines 175-226: the inputs of the demultiplexer. -/
def axbDmIn (s : Axb) (i : AxbIn) : TdmIn :=
  { rst := i.rst
    valid := fun _ => i.valid
    word := fun _ => { data := i.data, hdr := i.hdr, sop := i.sop, eop := i.eop }
    select := fun k => if k = 1 then axbIsWr i.hdr else !axbIsWr i.hdr
    ready := fun p => if p = 0 then s.rd.rxReady else s.wr.ready }

/-- `rtl/pcie_axi_master.v` lines 240-295: the inputs of the master for reads. -/
def axbRdIn (s : Axb) (i : AxbIn) : AxrIn :=
  { rst := i.rst
    hdr := axbHdr (s.dm.word 0).hdr
    valid := s.dm.valid 0
    sop := (s.dm.word 0).sop
    eop := (s.dm.word 0).eop
    txReady := i.txReady
    arReady := i.arReady
    rData := i.rData
    rValid := i.rValid
    cid := i.cid
    mps := i.mps }

/-- `rtl/pcie_axi_master.v` lines 308-349: the inputs of the master for writes. -/
def axbWrIn (s : Axb) (i : AxbIn) : AxwIn :=
  { rst := i.rst
    data := axbData (s.dm.word 0).data
    hdr := axbHdr (s.dm.word 0).hdr
    valid := s.dm.valid 1
    sop := (s.dm.word 0).sop
    eop := (s.dm.word 0).eop
    awReady := i.awReady
    wReady := i.wReady }

/-- `rx_req_tlp_ready` (`rtl/pcie_axi_master.v` line 191). -/
def axbReady (s : Axb) (i : AxbIn) : Bool := tdmReady axbTdm s.dm (axbDmIn s i)

/-- One clock edge (`rtl/pcie_axi_master.v` lines 166-362); the error pulses are merged by a `pulse_merge` with two inputs and a
counter of four bits. -/
def axbStep (c : AxbCfg) (s : Axb) (i : AxbIn) : Axb :=
  { dm := tdmStep axbTdm s.dm (axbDmIn s i)
    rd := axrStep c.rd s.rd (axbRdIn s i)
    wr := axwStep c.wr s.wr (axbWrIn s i)
    pm := pmStep 2 4 s.pm (i.rst, s.rd.errUncor.toNat + 2 * s.wr.err.toNat) }

/-- A history. -/
def axbRun (c : AxbCfg) : Axb → List AxbIn → Axb
  | s, [] => s
  | s, i :: is => axbRun c (axbStep c s i) is

end Verif.Model
