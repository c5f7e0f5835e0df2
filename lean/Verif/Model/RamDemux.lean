import Verif.Model.ArbMux
import Verif.Model.Ring
/-!
Model of `rtl/dma_ram_demux_rd.v` and `rtl/dma_ram_demux_wr.v`, one segment (the segments do not
interact).

Simplification: a one-hot valid vector is kept as a valid flag and a port number next to the payload; a
port number that is not below `PORTS` gives no valid bit, as in the code.
-/
namespace Verif.Model

/-! ### Output FIFO -/

/-- `rtl/dma_ram_demux_rd.v` lines 295-308: output FIFO and output register. -/
structure OutFifo (α : Type) where
  ring : Ring α
  half : Bool := false
  valid : Bool := false
  out : α

/-- `rtl/dma_ram_demux_rd.v` lines 313-334: one clock edge; `vin` and `x` are the internal word, `rdy` is
the output ready signal. -/
def outFifoStep {α : Type} (aw : Nat) (rst : Bool) (s : OutFifo α) (vin : Bool) (x : α) (rdy : Bool) : OutFifo α :=
  let push := !ringFull aw s.ring && vin
  let pop := !ringEmpty s.ring && (!s.valid || rdy)
  let r := if push then ringPush aw s.ring x else s.ring
  let r := if pop then ringPop aw r else r
  { ring := if rst then ringReset r else r
    half := decide (ringCount aw s.ring ≥ 2 ^ (aw - 1))
    valid := if rst then false else if pop then true else s.valid && !rdy
    out := if pop then ringHead aw s.ring else s.out }

/-! ### Command path -/

/-- Parameters: `rtl/dma_ram_demux_rd.v` lines 37-49. -/
structure DemuxCfg where
  ports : Nat
  sSel : Nat
  mSel : Nat
deriving DecidableEq, Repr

/-- `rtl/dma_ram_demux_rd.v` line 151; `rtl/dma_ram_demux_wr.v` line 160: `select_cmd`. -/
def demuxSelect (c : DemuxCfg) (sel : Nat) : Nat :=
  if c.ports > 1 then ((sel % 2 ^ c.mSel) >>> (c.mSel - clog2 c.ports)) % 2 ^ clog2 c.ports else 0

/-- `rtl/dma_ram_demux_rd.v` line 154: the select bits passed on. -/
def demuxSel (c : DemuxCfg) (sel : Nat) : Nat := sel % 2 ^ c.sSel

/-! ### `dma_ram_demux_rd` -/

/-- A read command: `rtl/dma_ram_demux_rd.v` lines 57-58. -/
structure RdCmd where
  sel : Nat
  addr : Nat
deriving DecidableEq, Repr

/-- Registers of one segment. -/
structure RdDemux (δ : Type) where
  skid : Skid (Nat × RdCmd)
  fifo : Ring Nat
  out : OutFifo δ

/-- Inputs in one cycle. -/
structure RdDemuxIn (δ : Type) where
  rst : Bool := false
  cmdValid : Bool
  cmd : RdCmd
  ramReady : Nat → Bool
  respValid : Nat → Bool
  respData : Nat → δ
  respReady : Bool

/-- `rtl/dma_ram_demux_rd.v` line 149: `ctrl_rd_cmd_ready`. -/
def rdCmdReady {δ : Type} (s : RdDemux δ) : Bool := s.skid.ready && !ringFull 5 s.fifo

/-- `rtl/dma_ram_demux_rd.v` lines 188-193: a command is taken by the port it is offered to. -/
def rdForward {δ : Type} (s : RdDemux δ) (i : RdDemuxIn δ) : Bool := s.skid.outV && i.ramReady s.skid.out.1

/-- `rtl/dma_ram_demux_rd.v` line 271: `ram_rd_resp_ready[p]`. -/
def rdRespReady {δ : Type} (s : RdDemux δ) (p : Nat) : Bool :=
  !s.out.half && !ringEmpty s.fifo && ringHead 5 s.fifo == p

/-- `rtl/dma_ram_demux_rd.v` line 281: `seg_ctrl_rd_resp_valid_int`. -/
def rdTake {δ : Type} (s : RdDemux δ) (i : RdDemuxIn δ) : Bool :=
  i.respValid (ringHead 5 s.fifo) && !s.out.half && !ringEmpty s.fifo

/-- `rtl/dma_ram_demux_rd.v`: one clock edge (lines 159-168, 193-243, 284-292, 313-334). -/
def rdDemuxStep {δ : Type} (c : DemuxCfg) (s : RdDemux δ) (i : RdDemuxIn δ) : RdDemux δ :=
  let accept := i.cmdValid && rdCmdReady s
  let sel := demuxSelect c i.cmd.sel
  let f := if accept then ringPush 5 s.fifo sel else s.fifo
  let f := if rdTake s i then ringPop 5 f else f
  { skid := skidStep i.rst s.skid (accept && decide (sel < c.ports)) (sel, ⟨demuxSel c i.cmd.sel, i.cmd.addr⟩)
      (rdForward s i)
    fifo := if i.rst then ringReset f else f
    out := outFifoStep 5 i.rst s.out (rdTake s i) (i.respData (ringHead 5 s.fifo)) i.respReady }

/-- A history. -/
def rdDemuxRun {δ : Type} (c : DemuxCfg) : RdDemux δ → List (RdDemuxIn δ) → RdDemux δ
  | s, [] => s
  | s, i :: is => rdDemuxRun c (rdDemuxStep c s i) is

/-- The commands accepted: `ctrl_rd_cmd_valid && ctrl_rd_cmd_ready`. -/
def rdAccepted {δ : Type} (c : DemuxCfg) : RdDemux δ → List (RdDemuxIn δ) → List RdCmd
  | _, [] => []
  | s, i :: is => (if i.cmdValid && rdCmdReady s then [i.cmd] else []) ++ rdAccepted c (rdDemuxStep c s i) is

/-- The commands taken by port `p`: `ram_rd_cmd_valid[p] && ram_rd_cmd_ready[p]`. -/
def rdForwarded {δ : Type} (c : DemuxCfg) (p : Nat) : RdDemux δ → List (RdDemuxIn δ) → List RdCmd
  | _, [] => []
  | s, i :: is =>
    (if s.skid.outV && s.skid.out.1 == p && i.ramReady p then [s.skid.out.2] else []) ++
      rdForwarded c p (rdDemuxStep c s i) is

/-- The responses taken from port `p`: `ram_rd_resp_valid[p] && ram_rd_resp_ready[p]`. -/
def rdTaken {δ : Type} (c : DemuxCfg) (p : Nat) : RdDemux δ → List (RdDemuxIn δ) → List δ
  | _, [] => []
  | s, i :: is =>
    (if i.respValid p && rdRespReady s p then [i.respData p] else []) ++ rdTaken c p (rdDemuxStep c s i) is

/-- The responses delivered: `ctrl_rd_resp_valid && ctrl_rd_resp_ready`. -/
def rdDelivered {δ : Type} (c : DemuxCfg) : RdDemux δ → List (RdDemuxIn δ) → List δ
  | _, [] => []
  | s, i :: is => (if s.out.valid && i.respReady then [s.out.out] else []) ++ rdDelivered c (rdDemuxStep c s i) is

/-! ### `dma_ram_demux_wr` -/

/-- A write command: `rtl/dma_ram_demux_wr.v` lines 59-62. -/
structure WrCmd where
  sel : Nat
  be : Nat
  addr : Nat
  data : Nat
deriving DecidableEq, Repr

/-- Registers of one segment. `count` and `done` are `done_count_reg` and `done_reg` of each port, `sel`
and `selV` are `select_resp_reg` and `select_resp_valid_reg`. -/
structure WrDemux where
  skid : Skid (Nat × WrCmd)
  fifo : Ring Nat
  count : Nat → Nat
  done : Nat → Bool
  sel : Nat := 0
  selV : Bool := false

/-- Inputs in one cycle. -/
structure WrDemuxIn where
  rst : Bool := false
  cmdValid : Bool
  cmd : WrCmd
  ramReady : Nat → Bool
  ramDone : Nat → Bool

/-- `rtl/dma_ram_demux_wr.v` line 158: `ctrl_wr_cmd_ready`. -/
def wrCmdReady (s : WrDemux) : Bool := s.skid.ready && !ringFull 5 s.fifo

/-- `rtl/dma_ram_demux_wr.v` lines 199-206: a command is taken by the port it is offered to. -/
def wrForward (s : WrDemux) (i : WrDemuxIn) : Bool := s.skid.outV && i.ramReady s.skid.out.1

/-- `rtl/dma_ram_demux_wr.v` line 306: `seg_ram_wr_done_ack[p]`. -/
def wrAck (s : WrDemux) (p : Nat) : Bool := s.done p && (s.selV && s.sel == p)

/-- `rtl/dma_ram_demux_wr.v` line 307: `ctrl_wr_done`. -/
def wrDone (c : DemuxCfg) (s : WrDemux) : Bool := (List.range c.ports).any fun p => wrAck s p

/-- `rtl/dma_ram_demux_wr.v` lines 288-294: `done_count_reg` of port `p`, without reset. -/
def wrCountNext (s : WrDemux) (i : WrDemuxIn) (p : Nat) : Nat :=
  if s.count p < 32 && i.ramDone p && !wrAck s p then s.count p + 1
  else if s.count p > 0 && !i.ramDone p && wrAck s p then s.count p - 1
  else s.count p

/-- `rtl/dma_ram_demux_wr.v` lines 288-294: `done_reg` of port `p`, without reset. -/
def wrDoneNext (s : WrDemux) (i : WrDemuxIn) (p : Nat) : Bool :=
  if s.count p < 32 && i.ramDone p && !wrAck s p then true
  else if s.count p > 0 && !i.ramDone p && wrAck s p then decide (s.count p > 1)
  else s.done p

/-- `rtl/dma_ram_demux_wr.v`: one clock edge (lines 170-179, 208-266, 287-300, 309-323). -/
def wrDemuxStep (c : DemuxCfg) (s : WrDemux) (i : WrDemuxIn) : WrDemux :=
  let accept := i.cmdValid && wrCmdReady s
  let sel := demuxSelect c i.cmd.sel
  let next := !s.selV || wrDone c s
  let pop := next && !ringEmpty s.fifo
  let f := if accept then ringPush 5 s.fifo sel else s.fifo
  let f := if pop then ringPop 5 f else f
  { skid := skidStep i.rst s.skid (accept && decide (sel < c.ports))
      (sel, ⟨demuxSel c i.cmd.sel, i.cmd.be, i.cmd.addr, i.cmd.data⟩) (wrForward s i)
    fifo := if i.rst then ringReset f else f
    count := fun p => if i.rst then 0 else wrCountNext s i p
    done := fun p => if i.rst then false else wrDoneNext s i p
    sel := if pop then ringHead 5 s.fifo else s.sel
    selV := if i.rst then false else if next then !ringEmpty s.fifo else s.selV }

/-- A history. -/
def wrDemuxRun (c : DemuxCfg) : WrDemux → List WrDemuxIn → WrDemux
  | s, [] => s
  | s, i :: is => wrDemuxRun c (wrDemuxStep c s i) is

/-- The commands accepted: `ctrl_wr_cmd_valid && ctrl_wr_cmd_ready`. -/
def wrAccepted (c : DemuxCfg) : WrDemux → List WrDemuxIn → List WrCmd
  | _, [] => []
  | s, i :: is => (if i.cmdValid && wrCmdReady s then [i.cmd] else []) ++ wrAccepted c (wrDemuxStep c s i) is

/-- The commands taken by port `p`: `ram_wr_cmd_valid[p] && ram_wr_cmd_ready[p]`. -/
def wrForwarded (c : DemuxCfg) (p : Nat) : WrDemux → List WrDemuxIn → List WrCmd
  | _, [] => []
  | s, i :: is =>
    (if s.skid.outV && s.skid.out.1 == p && i.ramReady p then [s.skid.out.2] else []) ++
      wrForwarded c p (wrDemuxStep c s i) is

/-- The number of completions reported by port `p`: cycles with `ram_wr_done[p]`. -/
def wrPortDone (p : Nat) (is : List WrDemuxIn) : Nat := is.countP fun i => i.ramDone p

/-- The number of completions reported to the controller: cycles with `ctrl_wr_done`. -/
def wrReported (c : DemuxCfg) : WrDemux → List WrDemuxIn → Nat
  | _, [] => 0
  | s, i :: is => (wrDone c s).toNat + wrReported c (wrDemuxStep c s i) is

end Verif.Model
