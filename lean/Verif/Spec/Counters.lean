import Verif.Model.Counters
import Verif.Spec.PcieIf
/-! Specifications of the pulse and credit counters. -/
namespace Verif.Spec
open Verif.Model (FcType FcIn)

/-! ### Pulses -/

/-- Number of pulses in an input word of `iw` bits. -/
def ones (iw x : Nat) : Nat := ((List.range iw).map fun i => (x.testBit i).toNat).sum

/-- Starting with `q` pulses waiting and emitting one per cycle, there are never `2^cw` or more waiting. -/
def PulsesFit (iw cw : Nat) : Nat → List Nat → Prop
  | _, [] => True
  | q, x :: xs => q - 1 + ones iw x < 2 ^ cw ∧ PulsesFit iw cw (q - 1 + ones iw x) xs

/-! ### Credits of a TLP -/

/-- Flow control class of a format/type byte: memory writes and messages are posted, completions
are completions, everything else is non-posted. -/
def fcClass (fmtType : Nat) : FcType :=
  if fmtType % 32 = 0 ∧ fmtType.testBit 6 = true then .p
  else if fmtType % 32 / 8 = 2 then .p
  else if fmtType % 32 = 0b01010 ∨ fmtType % 32 = 0b01011 then .cpl
  else .np

/-- The format/type bytes of the TLPs that PCI Express defines (prefixes excluded): fmt is bits 7-5. -/
def DefinedTlp (fmtType : Nat) : Prop :=
  let fmt := fmtType / 32
  let typ := fmtType % 32
  fmt < 4 ∧
  ((typ = 0) ∨ (typ = 1 ∧ fmt < 2) ∨ (typ = 2 ∧ fmt % 2 = 0) ∨ (typ = 4 ∧ fmt % 2 = 0) ∨
   (typ = 5 ∧ fmt % 2 = 0) ∨ (16 ≤ typ ∧ typ ≤ 21 ∧ fmt % 2 = 1) ∨
   ((typ = 10 ∨ typ = 11) ∧ fmt % 2 = 0) ∨ (12 ≤ typ ∧ typ ≤ 14 ∧ 2 ≤ fmt))

instance (x : Nat) : Decidable (DefinedTlp x) := by unfold DefinedTlp; infer_instance

/-- The header on segment `seg`. -/
def segHdr (i : FcIn) (seg : Nat) : Nat := i.hdr / 2 ^ (seg * 128) % 2 ^ 128

/-- A TLP starts on segment `seg` in this cycle. -/
def tlpStarts (i : FcIn) (seg : Nat) : Bool := i.sop.testBit seg && i.valid.testBit seg && i.ready

/-- Data credits of a TLP: one per 4 DWORDs of payload, rounded up. -/
def dataCredits (hdr : Nat) : Nat := (announced hdr + 3) / 4

/-- Number of TLPs of class `c` that start in a cycle. -/
def headerTotal (segCount : Nat) (i : FcIn) (c : FcType) : Nat :=
  ((List.range segCount).filter fun seg =>
    tlpStarts i seg && decide (fcClass (segHdr i seg / 2 ^ 120) = c)).length

/-- Data credits of the TLPs of class `c` that start in a cycle. -/
def dataTotal (segCount : Nat) (i : FcIn) (c : FcType) : Nat :=
  (((List.range segCount).filter fun seg =>
    tlpStarts i seg && decide (fcClass (segHdr i seg / 2 ^ 120) = c)).map fun seg =>
      dataCredits (segHdr i seg)).sum

/-! ### Credit limits -/

/-- The last limit advertised, `l` if none. -/
def lastLimit (l : Nat) : List (Nat × Nat) → Nat
  | [] => l
  | (l', _) :: is => lastLimit l' is

/-- Credits consumed in a history of (limit, consumed) pairs. -/
def consumed (is : List (Nat × Nat)) : Nat := (is.map Prod.snd).sum

/-- A history of (advertised limit, credits consumed) pairs that respects flow control for a receiver
with room for `cap` credits. `prev` and `last` are the last two limits, `used` the credits consumed so
far: limits only grow, are never more than `cap` above what was consumed, and no more is consumed than
the limit that the counter has had time to register allows. -/
def FlowOk (cap : Nat) : (prev last used : Nat) → List (Nat × Nat) → Prop
  | _, _, _, [] => True
  | prev, last, used, (l, d) :: is =>
    last ≤ l ∧ l ≤ used + cap ∧ used + d ≤ prev ∧ FlowOk cap last l (used + d) is

end Verif.Spec
