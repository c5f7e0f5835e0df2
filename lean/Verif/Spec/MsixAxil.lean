import Verif.Model.Msix
/-!
Specification of the AXI lite interface of the MSI-X module: the vector table is a byte addressed memory of
`16 * 2^IRQ_INDEX_WIDTH` bytes, and the pending bit array is read through the upper half of the address space.
-/
namespace Verif.Spec
open Verif Verif.Model

/-- The address is in the upper half of the address space. -/
def axilUpper (c : MsixCfg) (addr : Nat) : Bool := decide (2 ^ (c.addrW - 1) ≤ addr % 2 ^ c.addrW)

/-- Bytes of the table, by byte address. -/
def tblFlat (tbl : Nat → RamWord) : Nat → UInt8 := fun a => tbl (a / 8) (a % 8)

/-- Bytes of the pending bit array, by byte address. -/
def pbaFlat (pba : Nat → Nat) : Nat → UInt8 := fun a => UInt8.ofNat (pba (a / 8) / 2 ^ (8 * (a % 8)))

/-- First byte of the data bus word an address is in; the memory has `16 * 2^IRQ_INDEX_WIDTH` bytes. -/
def axilBase (c : MsixCfg) (addr : Nat) : Nat := addr % (16 * 2 ^ c.idxW) / 2 ^ c.strbLog * 2 ^ c.strbLog

/-- A write of the enabled bytes of the data bus to the memory. -/
def memWriteBus (c : MsixCfg) (m : Nat → UInt8) (addr : Nat) (data : Nat → UInt8) (strb : Nat → Bool) : Nat → UInt8 := fun a =>
  if axilBase c addr ≤ a ∧ a < axilBase c addr + 2 ^ c.strbLog ∧ strb (a - axilBase c addr) = true
  then data (a - axilBase c addr) else m a

/-- The data bus word at an address. -/
def memReadBus (c : MsixCfg) (m : Nat → UInt8) (addr : Nat) : List UInt8 :=
  (List.range (2 ^ c.strbLog)).map fun l => m (axilBase c addr + l)

/-- What has happened on the bus: the memory as the accepted writes make it, the answers that the accepted
reads should get, the answers that were taken, the numbers of accepted writes and of write responses, and the
pending bit array one cycle ago. -/
structure AxilLog where
  mem : Nat → UInt8
  expected : List (List UInt8) := []
  returned : List (List UInt8) := []
  writes : Nat := 0
  resps : Nat := 0
  prevPba : Nat → Nat := fun _ => 0

/-- The events of one cycle. -/
def axilLogNext (c : MsixCfg) (s : Msix) (i : MsixIn) (L : AxilLog) : AxilLog :=
  { mem := if i.awvalid && i.wvalid && s.axil.wready && !axilUpper c i.awaddr then
        memWriteBus c L.mem i.awaddr i.wdata i.wstrb else L.mem
    expected := if i.arvalid && s.axil.arready then
        L.expected ++ [memReadBus c (if axilUpper c i.araddr then pbaFlat L.prevPba else L.mem) i.araddr]
      else L.expected
    returned := if s.axil.rvalid && i.rready then
        L.returned ++ [(List.range (2 ^ c.strbLog)).map s.axil.rdata] else L.returned
    writes := L.writes + (i.awvalid && i.wvalid && s.axil.wready).toNat
    resps := L.resps + (s.axil.bvalid && i.bready).toNat
    prevPba := s.irq.pba }

/-- The events of a history. -/
def axilLog (c : MsixCfg) : Msix → AxilLog → List MsixIn → AxilLog
  | _, L, [] => L
  | s, L, i :: is => axilLog c (msixStep c s i) (axilLogNext c s i L) is

/-- The master holds a request until it is accepted, as AXI requires. -/
def AxilHeld (c : MsixCfg) : Msix → List MsixIn → Prop
  | s, i :: j :: is =>
    (i.awvalid = true → s.axil.wready = false → j.awvalid = true ∧ j.awaddr = i.awaddr) ∧
    (i.wvalid = true → s.axil.wready = false → j.wvalid = true ∧ j.wdata = i.wdata ∧ j.wstrb = i.wstrb) ∧
    (i.arvalid = true → s.axil.arready = false → j.arvalid = true ∧ j.araddr = i.araddr) ∧
    AxilHeld c (msixStep c s i) (j :: is)
  | _, _ => True

end Verif.Spec
