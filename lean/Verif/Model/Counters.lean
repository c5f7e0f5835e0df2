import Verif.Basic.Lanes
/-!
Models of `rtl/pulse_merge.v`, `rtl/pcie_tlp_fc_count.v` and `rtl/pcie_ptile_fc_counter.v`.
-/
namespace Verif.Model

/-! ### `pulse_merge` -/

/-- `rtl/pulse_merge.v` lines 48-49: registers. -/
structure PulseMerge where
  count : Nat := 0
  pulse : Bool := false
deriving DecidableEq, Repr

/-- `rtl/pulse_merge.v` lines 64-66: the loop adding one input bit after the other, `n` bits left. -/
def pmAdd (cw x : Nat) : (n i count : Nat) → Nat
  | 0, _, count => count
  | n + 1, i, count => pmAdd cw x n (i + 1) ((count + (x.testBit i).toNat) % 2 ^ cw)

/-- `rtl/pulse_merge.v` lines 56-77: one clock edge, with inputs `rst` and `pulse_in`. -/
def pmStep (iw cw : Nat) (s : PulseMerge) (i : Bool × Nat) : PulseMerge :=
  if i.1 then {}
  else
    { count := pmAdd cw i.2 iw 0 (if s.count > 0 then s.count - 1 else s.count)
      pulse := decide (s.count > 0) }

/-- The states after each clock edge of a history. -/
def pmTrace (iw cw : Nat) : PulseMerge → List (Bool × Nat) → List PulseMerge
  | _, [] => []
  | s, i :: is => pmStep iw cw s i :: pmTrace iw cw (pmStep iw cw s i) is

/-! ### `pcie_tlp_fc_count` -/

/-- `rtl/pcie_tlp_fc_count.v` lines 72-75. -/
inductive FcType
  | p | np | cpl
deriving DecidableEq, Repr

/-- `rtl/pcie_tlp_fc_count.v` lines 77-116, `tlp_fc_type`; the default `2'bxx` matches none of the
comparisons of lines 153-162 and is `none`. -/
def tlpFcType : Nat → Option FcType
  | 0b00000000 => some .np
  | 0b00100000 => some .np
  | 0b00000001 => some .np
  | 0b00100001 => some .np
  | 0b01000000 => some .p
  | 0b01100000 => some .p
  | 0b00000010 => some .np
  | 0b01000010 => some .np
  | 0b00000100 => some .np
  | 0b01000100 => some .np
  | 0b00000101 => some .np
  | 0b01000101 => some .np
  | 0b00110000 => some .p
  | 0b00110001 => some .p
  | 0b00110010 => some .p
  | 0b00110011 => some .p
  | 0b00110100 => some .p
  | 0b00110101 => some .p
  | 0b01110000 => some .p
  | 0b01110001 => some .p
  | 0b01110010 => some .p
  | 0b01110011 => some .p
  | 0b01110100 => some .p
  | 0b01110101 => some .p
  | 0b00001010 => some .cpl
  | 0b01001010 => some .cpl
  | 0b00001011 => some .cpl
  | 0b01001011 => some .cpl
  | 0b01001100 => some .np
  | 0b01101100 => some .np
  | 0b01001101 => some .np
  | 0b01101101 => some .np
  | 0b01001110 => some .np
  | 0b01101110 => some .np
  | _ => none

/-- `rtl/pcie_tlp_fc_count.v` lines 121-126: registers. -/
structure FcCount where
  ph : Nat := 0
  pd : Nat := 0
  nph : Nat := 0
  npd : Nat := 0
  cplh : Nat := 0
  cpld : Nat := 0
deriving DecidableEq, Repr

/-- Inputs of the credit counter in one cycle. -/
structure FcIn where
  rst : Bool := false
  hdr : Nat
  valid : Nat
  sop : Nat
  ready : Bool
deriving DecidableEq, Repr

/-- `rtl/pcie_tlp_fc_count.v` lines 147-150: `seg_fc_d`. -/
def segFcD (hdr seg : Nat) : Nat :=
  if hdr.testBit (seg * 128 + 126) then
    let len := (hdr >>> (seg * 128 + 96)) % 2 ^ 9
    (((if len = 0 then 2 ^ 9 else 0) + len + 3) >>> 2) % 2 ^ 12
  else 0

/-- `rtl/pcie_tlp_fc_count.v` lines 146-163: one segment. -/
def fcSeg (i : FcIn) (seg : Nat) (s : FcCount) : FcCount :=
  if i.sop.testBit seg && i.valid.testBit seg && i.ready then
    match tlpFcType ((i.hdr >>> (seg * 128 + 120)) % 2 ^ 8) with
    | some .p => { s with ph := (s.ph + 1) % 2 ^ 4, pd := (s.pd + segFcD i.hdr seg) % 2 ^ 9 }
    | some .np => { s with nph := (s.nph + 1) % 2 ^ 4, npd := (s.npd + segFcD i.hdr seg) % 2 ^ 9 }
    | some .cpl => { s with cplh := (s.cplh + 1) % 2 ^ 4, cpld := (s.cpld + segFcD i.hdr seg) % 2 ^ 9 }
    | none => s
  else s

/-- `rtl/pcie_tlp_fc_count.v` lines 137-183: the outputs after a clock edge. -/
def fcStep (segCount : Nat) (i : FcIn) : FcCount :=
  if i.rst then {} else (List.range segCount).foldl (fun s seg => fcSeg i seg s) {}

/-! ### `pcie_ptile_fc_counter` -/

/-- `rtl/pcie_ptile_fc_counter.v` lines 49-52: registers. -/
structure PtileFc where
  cap : Nat := 0
  limit : Nat := 0
  inc : Nat := 0
  av : Nat := 0
deriving DecidableEq, Repr

/-- Inputs of the P-Tile credit counter in one cycle; `sel` is `tx_cdts_limit_tdm_idx == INDEX`. -/
structure PtileIn where
  rst : Bool := false
  limit : Nat
  sel : Bool
  dec : Nat
deriving DecidableEq, Repr

/-- `rtl/pcie_ptile_fc_counter.v` lines 65-71: next `fc_av_reg`. The comparisons are exact for
`WIDTH ≤ 30`, where the operands are extended to 32 bits. -/
def ptileAv (s : PtileFc) (dec : Nat) : Nat :=
  let x : Int := (s.av : Int) - (dec : Int) + (s.inc : Int)
  if x < 0 then 0 else if x > (s.cap : Int) then s.cap else x.toNat

/-- `rtl/pcie_ptile_fc_counter.v` lines 56-79: one clock edge. -/
def ptileStep (w : Nat) (s : PtileFc) (i : PtileIn) : PtileFc :=
  if i.rst then {}
  else if i.sel then
    { cap := if s.cap = 0 then i.limit % 2 ^ w else s.cap
      inc := (i.limit % 2 ^ w + 2 ^ w - s.limit) % 2 ^ w
      limit := i.limit % 2 ^ w
      av := ptileAv s (i.dec % 2 ^ w) }
  else { s with av := ptileAv s (i.dec % 2 ^ w) }

/-- A history of clock edges. -/
def ptileRun (w : Nat) : PtileFc → List PtileIn → PtileFc
  | s, [] => s
  | s, i :: is => ptileRun w (ptileStep w s i) is

end Verif.Model
