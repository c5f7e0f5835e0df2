import Verif.Model.ArbMux
/-!
Model of `rtl/pcie_us_axis_rc_demux.v` and `rtl/pcie_us_axis_cq_demux.v`. One step is one clock edge.

Simplifications: all payload signals of a word (`tdata`, `tkeep`, `tlast`, `tuser`) are one value of a type `α` with a
function `last`; a one-hot valid vector is kept as a valid flag and a port number next to the payload; the field
outputs, which are slices of `tdata`, are left out.
-/
namespace Verif.Model

/-- Parameter `M_COUNT` of the demultiplexers (`rtl/pcie_us_axis_rc_demux.v` line 36) and the `tlast` bit of a word. -/
structure ADemuxCfg (α : Type) where
  ports : Nat
  last : α → Bool

/-- Registers of `rtl/pcie_us_axis_rc_demux.v` lines 97-101 and 179-189, and of `rtl/pcie_us_axis_cq_demux.v` lines
101-105 and 229-242. -/
structure ADemux (α : Type) where
  sel : Nat := 0
  drop : Bool := false
  frame : Bool := false
  tready : Bool := false
  skid : Skid (Nat × α)

/-- Inputs of one clock cycle: `rst`, `enable`, `drop`, `select`, `s_axis_*` and `m_axis_*_tready`
(`rtl/pcie_us_axis_rc_demux.v` lines 46-77). -/
structure ADemuxIn (α : Type) where
  rst : Bool := false
  enable : Bool := true
  tvalid : Bool
  word : α
  drop : Bool := false
  select : Nat → Bool
  mready : Nat → Bool

/-- The loop over `select` (`rtl/pcie_us_axis_rc_demux.v` lines 141-146): it runs downwards, so the lowest selected
output wins. The pair is `select_ctl` and `drop_ctl` before line 147; `n` is the number of outputs not yet visited. -/
def demuxPick (sel : Nat → Bool) : (n i : Nat) → Nat × Bool
  | 0, _ => (0, true)
  | n + 1, i => if sel i then (i, false) else demuxPick sel n (i + 1)

/-- `s_axis_rc_tready` (`rtl/pcie_us_axis_rc_demux.v` line 112). -/
def adReady {α : Type} (s : ADemux α) (i : ADemuxIn α) : Bool := s.tready && i.enable

/-- `s_axis_rc_tvalid && s_axis_rc_tready`. -/
def adAccept {α : Type} (s : ADemux α) (i : ADemuxIn α) : Bool := i.tvalid && adReady s i

/-- Condition of `rtl/pcie_us_axis_rc_demux.v` line 136: start of a frame. -/
def adStart {α : Type} (s : ADemux α) (i : ADemuxIn α) : Bool := !s.frame && adAccept s i

/-- `select_ctl` (`rtl/pcie_us_axis_rc_demux.v` lines 120, 138-146). -/
def adSel {α : Type} (c : ADemuxCfg α) (s : ADemux α) (i : ADemuxIn α) : Nat :=
  if adStart s i then (demuxPick i.select c.ports 0).1 else s.sel

/-- `drop_ctl` (`rtl/pcie_us_axis_rc_demux.v` lines 122, 139-147). -/
def adDrop {α : Type} (c : ADemuxCfg α) (s : ADemux α) (i : ADemuxIn α) : Bool :=
  if adStart s i then (demuxPick i.select c.ports 0).2 || i.drop else s.drop

/-- `m_axis_rc_tready & m_axis_rc_tvalid` (`rtl/pcie_us_axis_rc_demux.v` line 203): the word in the output register is
taken. -/
def adForward {α : Type} (s : Skid (Nat × α)) (i : ADemuxIn α) : Bool := s.outV && i.mready s.out.1

/-- `m_axis_rc_tready_int_early` (`rtl/pcie_us_axis_rc_demux.v` line 203). -/
def adEarly {α : Type} (s : Skid (Nat × α)) (i : ADemuxIn α) : Bool := adForward s i || (!s.tempV && !s.outV)

/-- One clock edge of `pcie_us_axis_rc_demux` (`rtl/pcie_us_axis_rc_demux.v` lines 118-263), and of
`pcie_us_axis_cq_demux` when `AXIS_PCIE_DATA_WIDTH` is not 64 (`rtl/pcie_us_axis_cq_demux.v` lines 132-315: the same code;
the additional factor `frame_ctl` in line 198 is true whenever the other factors are). -/
def adStep {α : Type} (c : ADemuxCfg α) (s : ADemux α) (i : ADemuxIn α) : ADemux α :=
  let fin := adAccept s i && c.last i.word
  { sel := if i.rst then 0 else if adStart s i && !c.last i.word then adSel c s i else s.sel
    drop := !i.rst && (if fin then false else if adStart s i then adDrop c s i else s.drop)
    frame := !i.rst && (if fin then false else if adStart s i then true else s.frame)
    tready := !i.rst && (adEarly s.skid i || adDrop c s i)
    skid := skidStep i.rst s.skid (adAccept s i && !adDrop c s i) (adSel c s i, i.word) (adForward s.skid i) }

/-- State after a list of clock cycles. -/
def adRun {α : Type} (c : ADemuxCfg α) : ADemux α → List (ADemuxIn α) → ADemux α
  | s, [] => s
  | s, i :: is => adRun c (adStep c s i) is

/-- What happens at the input in the cycles in which a word is accepted: the word with `select` and `drop`. -/
def adAccepted {α : Type} (c : ADemuxCfg α) : ADemux α → List (ADemuxIn α) → List (ADemuxIn α)
  | _, [] => []
  | s, i :: is => (if adAccept s i then [i] else []) ++ adAccepted c (adStep c s i) is

/-- The words handed over at output `p` (`m_axis_rc_tvalid[p] && m_axis_rc_tready[p]`). -/
def adForwarded {α : Type} (c : ADemuxCfg α) (p : Nat) : ADemux α → List (ADemuxIn α) → List α
  | _, [] => []
  | s, i :: is =>
    (if s.skid.outV && s.skid.out.1 == p && i.mready p then [s.skid.out.2] else []) ++
      adForwarded c p (adStep c s i) is

/-! ### `pcie_us_axis_cq_demux` with `AXIS_PCIE_DATA_WIDTH = 64`

The fields that decide about a packet are in its second word, so the first word waits in a register. -/

/-- Registers for `AXIS_PCIE_DATA_WIDTH = 64`: those of `ADemux` and `temp_s_axis_cq_*_reg`
(`rtl/pcie_us_axis_cq_demux.v` lines 107-111). -/
structure CqDemux (α : Type) extends ADemux α where
  tempV : Bool := false
  temp : α

/-- `s_axis_cq_tready` (`rtl/pcie_us_axis_cq_demux.v` line 122). -/
def cqReady {α : Type} (s : CqDemux α) (i : ADemuxIn α) : Bool := (s.tready || !s.tempV) && i.enable

/-- `s_axis_cq_tvalid && s_axis_cq_tready`. -/
def cqAccept {α : Type} (s : CqDemux α) (i : ADemuxIn α) : Bool := i.tvalid && cqReady s i

/-- Condition of `rtl/pcie_us_axis_cq_demux.v` line 160: start of a frame. -/
def cqStart {α : Type} (s : CqDemux α) (i : ADemuxIn α) : Bool := !s.frame && s.tempV && cqAccept s i

/-- `select_ctl` (`rtl/pcie_us_axis_cq_demux.v` lines 134, 162-170). -/
def cqSel {α : Type} (c : ADemuxCfg α) (s : CqDemux α) (i : ADemuxIn α) : Nat :=
  if cqStart s i then (demuxPick i.select c.ports 0).1 else s.sel

/-- `drop_ctl` (`rtl/pcie_us_axis_cq_demux.v` lines 136, 163-171). -/
def cqDrop {α : Type} (c : ADemuxCfg α) (s : CqDemux α) (i : ADemuxIn α) : Bool :=
  if cqStart s i then (demuxPick i.select c.ports 0).2 || i.drop else s.drop

/-- `temp_s_axis_cq_tvalid_reg && s_axis_cq_tready && !drop_ctl && frame_ctl` (`rtl/pcie_us_axis_cq_demux.v` line 192). -/
def cqMove {α : Type} (c : ADemuxCfg α) (s : CqDemux α) (i : ADemuxIn α) : Bool :=
  s.tempV && cqReady s i && !cqDrop c s i && (cqStart s i || s.frame)

/-- One clock edge of `pcie_us_axis_cq_demux` with `AXIS_PCIE_DATA_WIDTH = 64` (`rtl/pcie_us_axis_cq_demux.v` lines
132-315). `rst` does not clear `temp_s_axis_cq_tvalid_reg` (lines 216-226). -/
def cqStep {α : Type} (c : ADemuxCfg α) (s : CqDemux α) (i : ADemuxIn α) : CqDemux α :=
  let fin := s.tempV && cqReady s i && c.last s.temp
  { sel := if i.rst then 0 else if cqStart s i && !fin then cqSel c s i else s.sel
    drop := !i.rst && (if fin then false else if cqStart s i then cqDrop c s i else s.drop)
    frame := !i.rst && (if fin then false else if cqStart s i then true else s.frame)
    tready := !i.rst && (adEarly s.skid i || cqDrop c s i)
    skid := skidStep i.rst s.skid (cqMove c s i) (cqSel c s i, s.temp) (adForward s.skid i)
    tempV := cqAccept s i || (s.tempV && !(cqReady s i && !cqDrop c s i && (cqStart s i || s.frame)))
    temp := if cqAccept s i then i.word else s.temp }

/-- State after a list of clock cycles. -/
def cqRun {α : Type} (c : ADemuxCfg α) : CqDemux α → List (ADemuxIn α) → CqDemux α
  | s, [] => s
  | s, i :: is => cqRun c (cqStep c s i) is

/-- What happens at the input in the cycles in which a word is accepted. -/
def cqAccepted {α : Type} (c : ADemuxCfg α) : CqDemux α → List (ADemuxIn α) → List (ADemuxIn α)
  | _, [] => []
  | s, i :: is => (if cqAccept s i then [i] else []) ++ cqAccepted c (cqStep c s i) is

/-- The words handed over at output `p`. -/
def cqForwarded {α : Type} (c : ADemuxCfg α) (p : Nat) : CqDemux α → List (ADemuxIn α) → List α
  | _, [] => []
  | s, i :: is =>
    (if s.skid.outV && s.skid.out.1 == p && i.mready p then [s.skid.out.2] else []) ++
      cqForwarded c p (cqStep c s i) is

end Verif.Model
