import Verif.Model.Arbiter
import Verif.Basic.Vec
/-!
Model of `rtl/pcie_us_msi.v` and `rtl/pcie_s10_msi.v`.

The two shims share their interrupt registers and the arbiter (`MsiCore`). Vectors are functions of the bit number; only
bits below `MSI_COUNT` are read. Constant outputs and `pending_status` (a copy of a register) are left out.
-/
namespace Verif.Model

/-- `rtl/pcie_us_msi.v` lines 69-75 and 97-112, `rtl/pcie_s10_msi.v` lines 64-70 and 87-102: the registers that the
two shims have in common, and the arbiter. -/
structure MsiCore where
  active : Bool := false
  irq : Nat → Bool := fun _ => false
  last : Nat → Bool := fun _ => false
  pend : Nat → Bool := fun _ => false
  mask : Nat → Bool := fun _ => false
  arb : Arb := {}

/-- What the common part reads in one cycle. `start` is the enable that gates a new message, `enable` the one that
enters the mask; `done` says that the hard IP core has answered, `clear` that it has sent the message. -/
structure MsiCoreIn where
  rst : Bool := false
  irq : Nat → Bool
  enable : Bool
  start : Bool
  multiple : Nat
  masked : Nat → Bool
  done : Bool
  clear : Bool

/-- `rtl/pcie_us_msi.v` line 90, `rtl/pcie_s10_msi.v` line 79: `message_enable_mask`, bit `k`. -/
def msgEnable (multiple k : Nat) : Bool :=
  if multiple > 4 then decide (k < 32) else decide (k < 2 ^ multiple)

/-- `rtl/pcie_us_msi.v` lines 97-103, `rtl/pcie_s10_msi.v` lines 87-93. -/
def msiArb (n : Nat) : ArbCfg := ⟨n, true, true, true, true⟩

/-- `rtl/pcie_us_msi.v` line 107, `rtl/pcie_s10_msi.v` line 97. -/
def msiRequest (n : Nat) (s : MsiCore) : Nat :=
  vec n fun k => s.pend k && s.mask k && !s.arb.grant.testBit k

/-- `rtl/pcie_us_msi.v` lines 125-126, `rtl/pcie_s10_msi.v` lines 115-116: a message starts. -/
def msiStart (s : MsiCore) (i : MsiCoreIn) : Bool := !s.active && i.start && s.arb.valid

/-- `rtl/pcie_us_msi.v` lines 130-131, `rtl/pcie_s10_msi.v` lines 120-121: a message is answered. -/
def msiAnswered (s : MsiCore) (i : MsiCoreIn) : Bool := s.active && i.done

/-- `rtl/pcie_us_msi.v` lines 97-157, `rtl/pcie_s10_msi.v` lines 87-145: one clock edge of the common part. -/
def msiCoreStep (n : Nat) (s : MsiCore) (i : MsiCoreIn) : MsiCore :=
  if i.rst then {}
  else
    { active := if s.active then !i.done else i.start && s.arb.valid
      irq := i.irq
      last := s.irq
      pend := fun k => (s.pend k || (s.irq k && !s.last k)) &&
        !(msiAnswered s i && i.clear && s.arb.grant.testBit k)
      mask := fun k => !i.masked k && msgEnable i.multiple k && i.enable
      arb := arbStep (msiArb n) s.arb
        { rst := false, request := msiRequest n s
          acknowledge := if msiAnswered s i then s.arb.grant else 0 } }

/-! ### UltraScale -/

/-- `rtl/pcie_us_msi.v` lines 69-77: all registers. `int` is `cfg_interrupt_msi_int`. -/
structure UsMsi where
  core : MsiCore := {}
  int : Nat := 0

/-- `rtl/pcie_us_msi.v` lines 39-66: the inputs. `enable` is the vector `cfg_interrupt_msi_enable`. -/
structure UsMsiIn where
  rst : Bool := false
  irq : Nat → Bool
  enable : Nat
  mmenable : Nat
  data : Nat → Bool
  sent : Bool
  fail : Bool

/-- `rtl/pcie_us_msi.v` lines 90, 119, 126, 131 and 132: what the common part sees. -/
def UsMsiIn.core (i : UsMsiIn) : MsiCoreIn :=
  { rst := i.rst, irq := i.irq, enable := i.enable.testBit 0, start := i.enable % 16 != 0, multiple := i.mmenable % 8
    masked := i.data, done := i.sent || i.fail, clear := i.sent }

/-- `rtl/pcie_us_msi.v` lines 114-157. -/
def usMsiStep (n : Nat) (s : UsMsi) (i : UsMsiIn) : UsMsi :=
  { core := msiCoreStep n s.core i.core
    int := if i.rst then 0 else if msiStart s.core i.core then s.core.arb.grant else 0 }

/-- State after a list of clock cycles. -/
def usMsiRun (n : Nat) : UsMsi → List UsMsiIn → UsMsi
  | s, [] => s
  | s, i :: is => usMsiRun n (usMsiStep n s i) is

/-! ### Stratix 10 -/

/-- `rtl/pcie_s10_msi.v` lines 64-72: all registers. `core.active` is `app_msi_req`, `num` is `app_msi_num`. -/
structure S10Msi where
  core : MsiCore := {}
  num : Nat := 0

/-- `rtl/pcie_s10_msi.v` lines 39-61: the inputs. -/
structure S10MsiIn where
  rst : Bool := false
  irq : Nat → Bool
  enable : Bool
  multiple : Nat
  masked : Nat → Bool
  ack : Bool

/-- `rtl/pcie_s10_msi.v` lines 79, 109, 116 and 121. -/
def S10MsiIn.core (i : S10MsiIn) : MsiCoreIn :=
  { rst := i.rst, irq := i.irq, enable := i.enable, start := i.enable, multiple := i.multiple % 8
    masked := i.masked, done := i.ack, clear := i.ack }

/-- `rtl/pcie_s10_msi.v` lines 104-145. -/
def s10MsiStep (n : Nat) (s : S10Msi) (i : S10MsiIn) : S10Msi :=
  { core := msiCoreStep n s.core i.core
    num := if i.rst then 0 else if msiStart s.core i.core then s.core.arb.encoded % 32 else s.num }

/-- State after a list of clock cycles. -/
def s10MsiRun (n : Nat) : S10Msi → List S10MsiIn → S10Msi
  | s, [] => s
  | s, i :: is => s10MsiRun n (s10MsiStep n s i) is

end Verif.Model
