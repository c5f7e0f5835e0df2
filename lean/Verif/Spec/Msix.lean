import Verif.Model.Msix
import Verif.Spec.Header
/-! Specification of MSI-X pending bits. -/
namespace Verif.Spec
open Verif.Model

/-- Whether vector `x` has an unanswered request after an edge, given whether it had one before: a request
accepted for `x` makes one, a TLP presented for `x` ends it. -/
def unansweredNext (c : MsixCfg) (s : Msix) (i : MsixIn) (u : Nat → Bool) : Nat → Bool := fun x =>
  if msixPresents c s i = true ∧ s.irq.irqIndex = x then false
  else if msixAccepts s i = true ∧ i.irqIndex % 2 ^ c.idxW = x then true
  else u x

/-- The vectors with an unanswered request after a history. -/
def unanswered (c : MsixCfg) : (Nat → Bool) → Msix → List MsixIn → Nat → Bool
  | u, _, [] => u
  | u, s, i :: is => unanswered c (unansweredNext c s i u) (msixStep c s i) is

/-- In the history a TLP is presented for `x`. -/
def SentIn (c : MsixCfg) (x : Nat) : Msix → List MsixIn → Prop
  | _, [] => False
  | s, i :: is => (msixPresents c s i = true ∧ s.irq.irqIndex = x) ∨ SentIn c x (msixStep c s i) is

/-- The vector is masked in the table: bit 0 of the vector control DWORD. -/
def vecMasked (tbl : Nat → RamWord) (x : Nat) : Bool := (tbl (2 * x + 1) 4).toNat.testBit 0

/-- The 64-bit message address of a vector in the table. -/
def vecAddr (tbl : Nat → RamWord) (x : Nat) : Nat :=
  ((List.range 8).map fun l => (tbl (2 * x) l).toNat * 256 ^ l).sum

/-- The 32-bit message data of a vector in the table. -/
def vecData (tbl : Nat → RamWord) (x : Nat) : Nat :=
  ((List.range 4).map fun l => (tbl (2 * x + 1) l).toNat * 256 ^ l).sum

/-- The module as configured into the device (the `initial` values of its registers): nothing pending. -/
structure MsixPowerUp (c : MsixCfg) (s : Msix) : Prop where
  idle : s.irq.state = .idle
  rdy : s.irq.irqReady = false
  idx : s.irq.irqIndex < 2 ^ c.idxW
  pba : ∀ b, s.irq.pba b = 0
  pbaRd : s.irq.pbaRd = 0

/-- A cycle without reset or new requests in which the host has enabled and not masked the function,
writes nothing to the table, and takes TLPs. -/
structure MsixQuiet (i : MsixIn) : Prop where
  rst : i.rst = false
  irq : i.irqValid = false
  en : i.enable = true
  mask : i.mask = false
  tlp : i.tlpReady = true
  aw : i.awvalid = false

/-- The memory write of one DWORD that delivers an MSI-X message. -/
def msixMessage (force64 : Bool) (rid : PcieId) (addr data : Nat) : Tlp :=
  { fmt := if 2 ^ 32 ≤ addr ∨ force64 = true then 3 else 2, type := 0, length := 1, requester_id := rid,
    first_be := 15, last_be := 0, tag := 0, address := addr, data := [data] }

/-- Four header DWORDs and a data DWORD encode a TLP of one data DWORD with an address. -/
structure EncodesWrite (t : Tlp) (h : MsixTlp) : Prop where
  dw0 : Dw0Layout t h.dw0
  dw1 : ReqDw1Layout t h.dw1
  addr32 : t.fmt = 2 → h.dw2 = t.address
  addr64 : t.fmt = 3 → h.dw2 = t.address / 2 ^ 32 ∧ h.dw3 = t.address % 2 ^ 32
  data : t.data = [h.data]

end Verif.Spec
