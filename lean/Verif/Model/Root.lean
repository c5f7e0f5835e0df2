import Verif.Model.Fabric
import Verif.Model.Enum
/-!
The root complex of `tb/pcie.py` on top of the fabric: the hardware seen by configuration accesses
and enumeration, and freshly constructed functions.
-/
namespace Verif.Model

/-- `tb/pcie.py` lines 3374-3393: `downstream_send` hands a TLP to the host bridge, and completions
that leave the host bridge upstream are received by the root complex. Requests of devices
to the root complex do not take part in configuration accesses and are left out. -/
def netBus : Bus Net := fun n t => do
  let (n, os) ← n.recv t
  some (n, os.filterMap fun o => match o with
    | .reply c => if c.isCpl then some c else none
    | _ => none)

/-- `tb/pcie.py` lines 820-830, 1018 and 1361: the capabilities registered by a function, and
the capability pointer (lines 1696-1701). -/
def withCaps (caps : List CapArgs) (s : ConfigState) : Option ConfigState := do
  let l ← registerCaps capStart [] caps
  some { s with capabilities := l, cap_ptr := capPtr l }

/-- The capabilities of a `Function` (lines 830 and 1018). -/
def functionCaps : List CapArgs :=
  [{ cap_id := PCIE_CAP_ID, length := 15, read := some PCIE_CAP_ID, write := some PCIE_CAP_ID },
   { cap_id := PM_CAP_ID, length := 2, read := some PM_CAP_ID, write := some PM_CAP_ID }]

/-- The capability of a function with `MSICapability` (line 1361). -/
def msiCaps : List CapArgs :=
  [{ cap_id := MSI_CAP_ID, length := 6, read := some MSI_CAP_ID, write := some MSI_CAP_ID }]

/-- `tb/pcie.py` lines 2893-2904 and 3231-3251, the host bridge of a new root complex. -/
def hostBridge : Bridge :=
  { root := true
    sub_bus_num := 255
    io_base := 0x80000000
    io_limit := 0x80000000
    mem_base := 0x80000000
    mem_limit := 0x80000000
    prefetchable_mem_base := 0x8000000000000000
    prefetchable_mem_limit := 0x8000000000000000 }

end Verif.Model
