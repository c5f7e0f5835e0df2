/-!
Model of `rtl/pcie_tlp_demux.v` with `FIFO_ENABLE = 0`, and of `rtl/pcie_tlp_demux_bar.v` around it. One step is one
clock edge; the numbers of ports and of segments are arbitrary.

Simplifications: what one segment carries (its slices of `tlp_data`, `tlp_strb`, `tlp_hdr`, ...) is one value of type
`TlpSeg`; bit vectors are functions from the bit number to `Bool`. Numbers kept in `TlpSeg` are not bounded by their
widths, because the module only copies them. The outputs `match_tlp_*`, which are wires from the inputs, and the
constant outputs `fifo_half_full` and `fifo_watermark` are left out.
-/
namespace Verif.Model

/-- What one TLP segment carries next to its valid bit (`rtl/pcie_tlp_demux.v` lines 64-73 and 79-88). -/
structure TlpSeg where
  data : Nat := 0
  strb : Nat := 0
  hdr : Nat := 0
  seq : Nat := 0
  bar : Nat := 0
  func : Nat := 0
  err : Nat := 0
  sop : Bool := false
  eop : Bool := false
  deriving DecidableEq, Repr

/-- Parameters `PORTS` and `IN_TLP_SEG_COUNT` (`rtl/pcie_tlp_demux.v` lines 37 and 47). -/
structure TdmCfg where
  ports : Nat
  segs : Nat

/-- Registers of `rtl/pcie_tlp_demux.v` lines 137-150. `valid` is `out_tlp_valid_reg`, indexed as in the code:
bit `IN_TLP_SEG_COUNT*port + seg`. -/
structure Tdm where
  sel : Nat := 0
  drop : Bool := false
  frame : Bool := false
  word : Nat → TlpSeg := fun _ => {}
  valid : Nat → Bool := fun _ => false

/-- Inputs of one clock cycle (`rtl/pcie_tlp_demux.v` lines 58-103). `drop` is indexed by the segment, `select` as in the
code by `IN_TLP_SEG_COUNT*port + seg`, `ready` (`out_tlp_ready`) by the port. -/
structure TdmIn where
  rst : Bool := false
  enable : Bool := true
  valid : Nat → Bool
  word : Nat → TlpSeg
  drop : Nat → Bool := fun _ => false
  select : Nat → Bool
  ready : Nat → Bool

/-- `in_tlp_ready` (`rtl/pcie_tlp_demux.v` line 154; with `FIFO_ENABLE = 0` line 234 makes `out_tlp_ready_int` the input
`out_tlp_ready`). -/
def tdmReady (c : TdmCfg) (s : Tdm) (i : TdmIn) : Bool :=
  ((List.range (c.ports * c.segs)).all (fun k => !s.valid k) || (List.range c.ports).all i.ready) && i.enable

/-- The loop over the ports of `rtl/pcie_tlp_demux.v` lines 281-289, for the ports below `n`: `select_next` and
`drop_next`. The loop runs upwards, so the highest selected port wins. -/
def tdmPick (sel : Nat → Bool) : Nat → Nat × Bool
  | 0 => (0, true)
  | n + 1 => if sel n then (n, false) else tdmPick sel n

/-- The variables of the loop over the segments. -/
structure TdmVar where
  sel : Nat
  drop : Bool
  frame : Bool
  valid : Nat → Bool

/-- The start of a TLP in segment `g` (`rtl/pcie_tlp_demux.v` lines 279-294). -/
def tdmSop (c : TdmCfg) (i : TdmIn) (g : Nat) (v : TdmVar) : TdmVar :=
  if (i.word g).sop then
    let p := tdmPick (fun port => i.select (c.segs * port + g)) c.ports
    { v with frame := true, sel := p.1, drop := if i.drop g then true else p.2 }
  else v

/-- One pass of the loop over the segments (`rtl/pcie_tlp_demux.v` lines 277-303). -/
def tdmSeg (c : TdmCfg) (i : TdmIn) (v : TdmVar) (g : Nat) : TdmVar :=
  if i.valid g then
    let v := tdmSop c i g v
    let v := if v.frame && !v.drop then { v with valid := fun k => if k = c.segs * v.sel + g then true else v.valid k } else v
    if (i.word g).eop then { v with frame := false, drop := false } else v
  else v

/-- The variables before the loop (`rtl/pcie_tlp_demux.v` lines 246-262): the valid bits of the ports that are ready are
cleared. -/
def tdmVar0 (c : TdmCfg) (s : Tdm) (i : TdmIn) : TdmVar :=
  { sel := s.sel, drop := s.drop, frame := s.frame
    valid := fun k => s.valid k && !((List.range c.ports).any fun p => i.ready p && decide (c.segs * p ≤ k ∧ k < c.segs * p + c.segs)) }

/-- The variables at the end of the combinational block (`rtl/pcie_tlp_demux.v` lines 245-305). -/
def tdmVar1 (c : TdmCfg) (s : Tdm) (i : TdmIn) : TdmVar :=
  if tdmReady c s i then (List.range c.segs).foldl (tdmSeg c i) (tdmVar0 c s i) else tdmVar0 c s i

/-- One clock edge (`rtl/pcie_tlp_demux.v` lines 245-330). -/
def tdmStep (c : TdmCfg) (s : Tdm) (i : TdmIn) : Tdm :=
  let v := tdmVar1 c s i
  { sel := if i.rst then 0 else v.sel
    drop := !i.rst && v.drop
    frame := !i.rst && v.frame
    word := if tdmReady c s i then i.word else s.word
    valid := fun k => !i.rst && v.valid k }

/-- State after a list of clock cycles. -/
def tdmRun (c : TdmCfg) : Tdm → List TdmIn → Tdm
  | s, [] => s
  | s, i :: is => tdmRun c (tdmStep c s i) is

/-- The parameters of `rtl/pcie_tlp_demux_bar.v` that matter for the selection (lines 57-61). -/
structure TdmBarCfg where
  base : Nat := 0
  stride : Nat := 1
  ids : Nat := 0

/-- `calcBarIds` (`rtl/pcie_tlp_demux_bar.v` lines 110-121): the number of port `i`; `base` and `stride` are 3-bit inputs
and `bar` is a 3-bit variable. -/
def tdmCalc (base stride : Nat) : Nat → Nat
  | 0 => base % 8
  | i + 1 => (tdmCalc base stride i + stride % 8) % 8

/-- `BAR_IDS_INT[3*m +: 3]` (`rtl/pcie_tlp_demux_bar.v` line 123). -/
def tdmBarId (b : TdmBarCfg) (m : Nat) : Nat :=
  if b.ids ≠ 0 then b.ids / 8 ^ m % 8 else tdmCalc b.base b.stride m

/-- The checks of `rtl/pcie_tlp_demux_bar.v` lines 128-147: no number above 5, and none twice. -/
def tdmBarOk (c : TdmCfg) (b : TdmBarCfg) : Bool :=
  (List.range c.ports).all fun m => decide (tdmBarId b m ≤ 5) &&
    (List.range c.ports).all fun n => !(decide (m < n) && tdmBarId b m == tdmBarId b n)

/-- The inputs of the `pcie_tlp_demux` inside `pcie_tlp_demux_bar`: `drop` is 0 and bit `m*IN_TLP_SEG_COUNT + n` of `select`
compares the BAR number of segment `n` with that of port `m` (`rtl/pcie_tlp_demux_bar.v` lines 151-164). -/
def tdmBarIn (c : TdmCfg) (b : TdmBarCfg) (i : TdmIn) : TdmIn :=
  { i with
    drop := fun _ => false
    select := fun k => (i.word (k % c.segs)).bar == tdmBarId b (k / c.segs) }

end Verif.Model
