import Verif.Model.RamDemux
/-!
Model of `rtl/dma_if_mux_rd.v` and `rtl/dma_if_mux_wr.v`: a descriptor multiplexer and a RAM
demultiplexer through which several clients share one DMA interface. `rtl/dma_if_mux.v` (lines 186-350)
is one of each side by side. Also of `rtl/pcie_axi_dma_desc_mux.v`, the descriptor multiplexer of the
AXI DMA engine.

Segments are numbered; a signal of all ports and segments is a function of the port and the segment.
-/
namespace Verif.Model

/-- `rtl/dma_if_mux_rd.v` lines 36-67, `rtl/dma_if_mux_wr.v` lines 36-71: parameters. -/
structure DimCfg where
  ports : Nat
  sSel : Nat
  mSel : Nat
  imm : Bool
  sTag : Nat
  mTag : Nat
  roundRobin : Bool
  lsb : Bool
deriving DecidableEq, Repr

/-- `rtl/dma_if_mux_wr.v` lines 138-152: the parameters of the descriptor multiplexer. -/
def DimCfg.desc (c : DimCfg) : DescMuxCfg :=
  ⟨c.ports, true, c.sSel, c.mSel, c.imm, c.sTag, c.mTag, c.roundRobin, c.lsb⟩

/-- `rtl/dma_if_mux_rd.v` lines 130-143: the same for reads, with `IMM_ENABLE(0)`. -/
def DimCfg.rdDesc (c : DimCfg) : DescMuxCfg :=
  ⟨c.ports, true, c.sSel, c.mSel, false, c.sTag, c.mTag, c.roundRobin, c.lsb⟩

/-- `rtl/dma_if_mux_rd.v` lines 189-197, `rtl/dma_if_mux_wr.v` lines 198-205: the parameters of the RAM
demultiplexer. -/
def DimCfg.demux (c : DimCfg) : DemuxCfg := ⟨c.ports, c.sSel, c.mSel⟩

/-- Descriptor and status inputs of one cycle: `rtl/dma_if_mux_rd.v` lines 80-98,
`rtl/dma_if_mux_wr.v` lines 86-106. -/
structure DimDescIn where
  rst : Bool := false
  /-- `s_axis_desc_valid` of each client -/
  dvalid : Nat → Bool
  desc : Nat → DmaDesc
  /-- `m_axis_desc_ready` -/
  dready : Bool
  stValid : Bool
  stTag : Nat
  stError : Nat

/-! ### Reads: the DMA interface writes to the RAMs -/

/-- State: descriptor multiplexer, status outputs, demultiplexer of each segment. -/
structure DimRd where
  mux : Mux DmaDesc DmaDesc
  status : DescStatus
  dx : Nat → WrDemux

/-- Inputs in one cycle: RAM commands of each segment (lines 110-116), ready and done of each client and
segment (lines 121-127). -/
structure DimRdIn extends DimDescIn where
  cmdValid : Nat → Bool
  cmd : Nat → WrCmd
  ramReady : Nat → Nat → Bool
  ramDone : Nat → Nat → Bool

/-- `rtl/dma_if_mux_rd.v` lines 171-179: the descriptor of client `p`; it has no immediate. -/
def dimRdDesc (i : DimDescIn) (p : Nat) : DmaDesc := { i.desc p with imm := 0, immEn := false }

/-- `rtl/dma_if_mux_rd.v` lines 144-187: the inputs of the descriptor multiplexer. -/
def dimRdMuxIn (i : DimDescIn) : MuxIn DmaDesc := ⟨i.rst, i.dvalid, dimRdDesc i, i.dready⟩

/-- `rtl/dma_if_mux_rd.v` lines 198-223: the inputs of the demultiplexer, segment `n`. -/
def dimRdDxIn (n : Nat) (i : DimRdIn) : WrDemuxIn :=
  ⟨i.rst, i.cmdValid n, i.cmd n, fun p => i.ramReady p n, fun p => i.ramDone p n⟩

/-- `rtl/dma_if_mux_rd.v`: one clock edge. -/
def dimRdStep (c : DimCfg) (s : DimRd) (i : DimRdIn) : DimRd :=
  { mux := muxStep c.rdDesc.mux s.mux (dimRdMuxIn i.toDimDescIn)
    status := descStatus c.rdDesc i.rst i.stValid i.stTag i.stError
    dx := fun n => wrDemuxStep c.demux (s.dx n) (dimRdDxIn n i) }

/-- A history. -/
def dimRdRun (c : DimCfg) : DimRd → List DimRdIn → DimRd
  | s, [] => s
  | s, i :: is => dimRdRun c (dimRdStep c s i) is

/-- The descriptors client `p` has handed over:
`s_axis_read_desc_valid[p] && s_axis_read_desc_ready[p]`. -/
def dimRdGiven (c : DimCfg) (p : Nat) : DimRd → List DimRdIn → List DmaDesc
  | _, [] => []
  | s, i :: is =>
    (if i.dvalid p && muxReady s.mux p then [dimRdDesc i.toDimDescIn p] else []) ++
      dimRdGiven c p (dimRdStep c s i) is

/-- The descriptors the DMA interface has taken: `m_axis_read_desc_valid && m_axis_read_desc_ready`. -/
def dimRdSent (c : DimCfg) : DimRd → List DimRdIn → List DmaDesc
  | _, [] => []
  | s, i :: is =>
    (if s.mux.skid.outV && i.dready then [s.mux.skid.out] else []) ++ dimRdSent c (dimRdStep c s i) is

/-- The commands of the DMA interface accepted on segment `n`:
`if_ram_wr_cmd_valid[n] && if_ram_wr_cmd_ready[n]`. -/
def dimRdCmds (c : DimCfg) (n : Nat) : DimRd → List DimRdIn → List WrCmd
  | _, [] => []
  | s, i :: is =>
    (if i.cmdValid n && wrCmdReady (s.dx n) then [i.cmd n] else []) ++ dimRdCmds c n (dimRdStep c s i) is

/-- The commands taken by segment `n` of the RAM of client `p`. -/
def dimRdRam (c : DimCfg) (p n : Nat) : DimRd → List DimRdIn → List WrCmd
  | _, [] => []
  | s, i :: is =>
    (if (s.dx n).skid.outV && (s.dx n).skid.out.1 == p && i.ramReady p n then [(s.dx n).skid.out.2] else []) ++
      dimRdRam c p n (dimRdStep c s i) is

/-- Completions reported by segment `n` of the RAM of client `p`. -/
def dimRdRamDone (p n : Nat) (is : List DimRdIn) : Nat := is.countP fun i => i.ramDone p n

/-- Completions reported to the DMA interface: cycles with `if_ram_wr_done[n]`. -/
def dimRdDone (c : DimCfg) (n : Nat) : DimRd → List DimRdIn → Nat
  | _, [] => 0
  | s, i :: is => (wrDone c.demux (s.dx n)).toNat + dimRdDone c n (dimRdStep c s i) is

/-! ### Writes: the DMA interface reads from the RAMs -/

/-- State: descriptor multiplexer, status outputs, demultiplexer of each segment. -/
structure DimWr (δ : Type) where
  mux : Mux DmaDesc DmaDesc
  status : DescStatus
  dx : Nat → RdDemux δ

/-- Inputs in one cycle: RAM commands and response ready of each segment (`rtl/dma_if_mux_wr.v` lines
118-124), ready and responses of each client and segment (lines 129-135). -/
structure DimWrIn (δ : Type) extends DimDescIn where
  cmdValid : Nat → Bool
  cmd : Nat → RdCmd
  ramReady : Nat → Nat → Bool
  respValid : Nat → Nat → Bool
  respData : Nat → Nat → δ
  respReady : Nat → Bool

/-- `rtl/dma_if_mux_wr.v` lines 153-196: the inputs of the descriptor multiplexer. -/
def dimWrMuxIn (i : DimDescIn) : MuxIn DmaDesc := ⟨i.rst, i.dvalid, i.desc, i.dready⟩

/-- `rtl/dma_if_mux_wr.v` lines 206-231: the inputs of the demultiplexer, segment `n`. -/
def dimWrDxIn {δ : Type} (n : Nat) (i : DimWrIn δ) : RdDemuxIn δ :=
  ⟨i.rst, i.cmdValid n, i.cmd n, fun p => i.ramReady p n, fun p => i.respValid p n, fun p => i.respData p n,
    i.respReady n⟩

/-- `rtl/dma_if_mux_wr.v`: one clock edge. -/
def dimWrStep {δ : Type} (c : DimCfg) (s : DimWr δ) (i : DimWrIn δ) : DimWr δ :=
  { mux := muxStep c.desc.mux s.mux (dimWrMuxIn i.toDimDescIn)
    status := descStatus c.desc i.rst i.stValid i.stTag i.stError
    dx := fun n => rdDemuxStep c.demux (s.dx n) (dimWrDxIn n i) }

/-- A history. -/
def dimWrRun {δ : Type} (c : DimCfg) : DimWr δ → List (DimWrIn δ) → DimWr δ
  | s, [] => s
  | s, i :: is => dimWrRun c (dimWrStep c s i) is

/-- The descriptors client `p` has handed over. -/
def dimWrGiven {δ : Type} (c : DimCfg) (p : Nat) : DimWr δ → List (DimWrIn δ) → List DmaDesc
  | _, [] => []
  | s, i :: is =>
    (if i.dvalid p && muxReady s.mux p then [i.desc p] else []) ++ dimWrGiven c p (dimWrStep c s i) is

/-- The descriptors the DMA interface has taken. -/
def dimWrSent {δ : Type} (c : DimCfg) : DimWr δ → List (DimWrIn δ) → List DmaDesc
  | _, [] => []
  | s, i :: is =>
    (if s.mux.skid.outV && i.dready then [s.mux.skid.out] else []) ++ dimWrSent c (dimWrStep c s i) is

/-- The commands of the DMA interface accepted on segment `n`. -/
def dimWrCmds {δ : Type} (c : DimCfg) (n : Nat) : DimWr δ → List (DimWrIn δ) → List RdCmd
  | _, [] => []
  | s, i :: is =>
    (if i.cmdValid n && rdCmdReady (s.dx n) then [i.cmd n] else []) ++ dimWrCmds c n (dimWrStep c s i) is

/-- The commands taken by segment `n` of the RAM of client `p`. -/
def dimWrRam {δ : Type} (c : DimCfg) (p n : Nat) : DimWr δ → List (DimWrIn δ) → List RdCmd
  | _, [] => []
  | s, i :: is =>
    (if (s.dx n).skid.outV && (s.dx n).skid.out.1 == p && i.ramReady p n then [(s.dx n).skid.out.2] else []) ++
      dimWrRam c p n (dimWrStep c s i) is

/-- The responses taken from segment `n` of the RAM of client `p`. -/
def dimWrTaken {δ : Type} (c : DimCfg) (p n : Nat) : DimWr δ → List (DimWrIn δ) → List δ
  | _, [] => []
  | s, i :: is =>
    (if i.respValid p n && rdRespReady (s.dx n) p then [i.respData p n] else []) ++
      dimWrTaken c p n (dimWrStep c s i) is

/-- The responses the DMA interface has taken on segment `n`. -/
def dimWrResp {δ : Type} (c : DimCfg) (n : Nat) : DimWr δ → List (DimWrIn δ) → List δ
  | _, [] => []
  | s, i :: is =>
    (if (s.dx n).out.valid && i.respReady n then [(s.dx n).out.out] else []) ++ dimWrResp c n (dimWrStep c s i) is

/-! ### `pcie_axi_dma_desc_mux` -/

/-- A descriptor: `rtl/pcie_axi_dma_desc_mux.v` lines 61-64. -/
structure AxiDmaDesc where
  pcieAddr : Nat
  axiAddr : Nat
  len : Nat
  tag : Nat
deriving DecidableEq, Repr

/-- Parameters: `rtl/pcie_axi_dma_desc_mux.v` lines 36-53. -/
structure AxiDescMuxCfg where
  ports : Nat
  sTag : Nat
  mTag : Nat
  roundRobin : Bool
  lsb : Bool
deriving DecidableEq, Repr

/-- `rtl/pcie_axi_dma_desc_mux.v` lines 157-168: the descriptor sent for descriptor `d` of port `p`. -/
def axiDescConv (c : AxiDescMuxCfg) (p : Nat) (d : AxiDmaDesc) : AxiDmaDesc :=
  { pcieAddr := d.pcieAddr
    axiAddr := d.axiAddr
    len := d.len
    tag :=
      if c.ports > 1 then d.tag % 2 ^ (c.mTag - clog2 c.ports) + p * 2 ^ (c.mTag - clog2 c.ports)
      else d.tag % 2 ^ c.mTag }

/-- `rtl/pcie_axi_dma_desc_mux.v` lines 95-273: the multiplexer is that of `rtl/dma_if_desc_mux.v`, line
by line, with these fields. -/
def AxiDescMuxCfg.mux (c : AxiDescMuxCfg) : MuxCfg AxiDmaDesc AxiDmaDesc :=
  { ports := c.ports
    roundRobin := c.roundRobin
    lsb := c.lsb
    last := fun _ => true
    conv := axiDescConv c }

/-- `rtl/pcie_axi_dma_desc_mux.v` lines 275-300: the status outputs after a clock edge. -/
def axiDescStatus (c : AxiDescMuxCfg) (rst valid : Bool) (tag error : Nat) : DescStatus :=
  { tag := tag % 2 ^ c.sTag
    error := error % 2 ^ 4
    valid := if rst then 0 else
      (valid.toNat <<< (if c.ports > 1 then tag % 2 ^ c.mTag / 2 ^ (c.mTag - clog2 c.ports) else 0)) %
        2 ^ c.ports }

end Verif.Model
