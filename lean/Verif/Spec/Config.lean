/-!
Specification of configuration register writes (PCI Local Bus Specification 6.2.2, PCI Express
Base Specification 7.8): every bit of a register is read-only, read/write, or read-only with
write-1-to-clear; byte enables select the lanes that are written.
-/
namespace Verif.Spec

/-- Attributes of a 32-bit register: the read/write bits and the write-1-to-clear bits. All other
bits are read-only. -/
structure RegAttr where
  rw : Nat := 0
  w1c : Nat := 0

/-- Value of bit `i` after writing `data` with byte enables `mask` over the value `old`. -/
def writtenBit (a : RegAttr) (old data mask i : Nat) : Bool :=
  if mask.testBit (i / 8) && a.rw.testBit i then data.testBit i
  else if mask.testBit (i / 8) && a.w1c.testBit i && data.testBit i then false
  else old.testBit i

/-- Attributes of the registers of the PCI Express capability (PCI Express Base Specification
3.0, 7.8), for ports without a slot-specific restriction. Writing bit 15 of Device Control and
bit 5 of Link Control triggers an action; both read as 0. -/
def pcieCapAttr : Nat → RegAttr
  | 2 => { rw := 0x7fff, w1c := 0xf0000 }      -- Device Control / Status
  | 4 => { rw := 0xfdb, w1c := 0xc0000000 }    -- Link Control / Status
  | 6 => { rw := 0x1fff, w1c := 0x11f0000 }    -- Slot Control / Status
  | 7 => { rw := 0x1f }                        -- Root Control / Capabilities
  | 8 => { w1c := 0x10000 }                    -- Root Status
  | 10 => { rw := 0xe7ff }                     -- Device Control 2
  | 12 => { rw := 0xffbf }                     -- Link Control 2 / Status 2 (bit 6 HwInit)
  | _ => {}

/-- Attributes of the implemented bits of the type 0 header (PCI Local Bus Specification 6.1-6.2):
command bits 2, 6, 8, 10; error bits of the status register; cache line size, latency timer and
BIST; base address registers with writable bits `barMask`; expansion ROM address; interrupt line
(and pin, which the PCI specification has read-only). -/
def headerAttr (barMask : List Nat) : Nat → RegAttr
  | 1 => { rw := 0x544, w1c := 0xf9000000 }
  | 3 => { rw := 0xff00ffff }
  | 4 => { rw := barMask.getD 0 0 }
  | 5 => { rw := barMask.getD 1 0 }
  | 6 => { rw := barMask.getD 2 0 }
  | 7 => { rw := barMask.getD 3 0 }
  | 8 => { rw := barMask.getD 4 0 }
  | 9 => { rw := barMask.getD 5 0 }
  | 12 => { rw := 0xffffffff }
  | 15 => { rw := 0xffff }
  | _ => {}

/-- Attributes of registers 4 to 15 of the type 1 header (PCI-to-PCI Bridge Architecture
Specification 3.2): two base address registers, bus numbers and secondary latency timer, I/O
base and limit (upper nibble of each byte) with the secondary status, memory and prefetchable base and limit (upper 12
bits of each half), upper 32 bits of the prefetchable window, upper 16 bits of the I/O window,
expansion ROM address, interrupt line (and pin) and bridge control. -/
def bridgeAttr (barMask : List Nat) : Nat → RegAttr
  | 4 => { rw := barMask.getD 0 0 }
  | 5 => { rw := barMask.getD 1 0 }
  | 6 => { rw := 0xffffffff }
  | 7 => { rw := 0xf0f0, w1c := 0xf9000000 }
  | 8 => { rw := 0xfff0fff0 }
  | 9 => { rw := 0xfff0fff0 }
  | 10 => { rw := 0xffffffff }
  | 11 => { rw := 0xffffffff }
  | 12 => { rw := 0xffffffff }
  | 14 => { rw := 0xffffffff }
  | 15 => { rw := 0x43ffff }
  | _ => {}

/-- Attributes of the MSI capability registers (PCI Local Bus Specification 6.8.1) for a function
with (`addr64`) or without 64-bit addresses. -/
def msiAttr (addr64 : Bool) (r : Nat) : RegAttr :=
  if r = 0 then { rw := 0x710000 }
  else if r = 1 then { rw := 0xfffffffc }
  else if addr64 then
    if r = 2 then { rw := 0xffffffff } else if r = 3 then { rw := 0xffff }
    else if r = 4 then { rw := 0xffffffff } else {}
  else if r = 2 then { rw := 0xffff } else if r = 3 then { rw := 0xffffffff } else {}

/-- Attributes of the MSI-X capability registers (PCI Local Bus Specification 6.8.2): function
mask and enable. -/
def msixAttr : Nat → RegAttr
  | 0 => { rw := 0xc0000000 }
  | _ => {}

/-- Attributes of register `r` of the capability with the given ID: power management (1) is
read-only, MSI (5), PCI Express (0x10), MSI-X (0x11). -/
def capAttr (addr64 : Bool) (cap r : Nat) : RegAttr :=
  if cap = 0x05 then msiAttr addr64 r
  else if cap = 0x10 then pcieCapAttr r
  else if cap = 0x11 then msixAttr r
  else {}

/-! ### Base address registers -/

/-- A base address register (a pair for 64-bit ones) claiming `2 ^ k` bytes from `base`. -/
inductive BarDesc where
  | unused
  | io (k base : Nat)
  | mem32 (k base : Nat) (prefetch : Bool)
  | mem64 (k base : Nat) (prefetch : Bool)

/-- Naturally aligned windows inside the address space, of at least 4 (I/O) or 16 (memory) and
less than 4 G bytes. -/
def BarDesc.Valid : BarDesc → Prop
  | .unused => True
  | .io k base => 2 ≤ k ∧ k < 32 ∧ 2 ^ k ∣ base ∧ base < 2 ^ 32
  | .mem32 k base _ => 4 ≤ k ∧ k < 32 ∧ 2 ^ k ∣ base ∧ base < 2 ^ 32
  | .mem64 k base _ => 4 ≤ k ∧ k < 32 ∧ 2 ^ k ∣ base ∧ base < 2 ^ 64

/-- Register contents (PCI Local Bus Specification 6.2.5): bit 0 I/O, bit 2 64-bit, bit 3
prefetchable, address in the upper bits. -/
def BarDesc.values : BarDesc → List Nat
  | .unused => [0]
  | .io _ base => [base + 1]
  | .mem32 _ base pf => [base + if pf then 8 else 0]
  | .mem64 _ base pf => [base % 2 ^ 32 + 4 + (if pf then 8 else 0), base / 2 ^ 32]

/-- Writable bits. -/
def BarDesc.masks : BarDesc → List Nat
  | .unused => [0]
  | .io k _ => [2 ^ 32 - 2 ^ k]
  | .mem32 k _ _ => [2 ^ 32 - 2 ^ k]
  | .mem64 k _ _ => [2 ^ 32 - 2 ^ k, 2 ^ 32 - 1]

/-- The window claimed in I/O (`io = true`) or memory space, as (base, size). -/
def BarDesc.window (d : BarDesc) (io : Bool) : Option (Nat × Nat) :=
  match d, io with
  | .io k base, true => some (base, 2 ^ k)
  | .mem32 k base _, false => some (base, 2 ^ k)
  | .mem64 k base _, false => some (base, 2 ^ k)
  | _, _ => none

/-- The BARs hit by an address, as (index of the BAR, offset from its base), in index order. -/
def barHits (addr : Nat) (io : Bool) : Nat → List BarDesc → List (Nat × Nat)
  | _, [] => []
  | idx, d :: ds =>
    (match d.window io with
     | some (base, size) => if base ≤ addr ∧ addr < base + size then [(idx, addr - base)] else []
     | none => []) ++ barHits addr io (idx + d.values.length) ds

end Verif.Spec
