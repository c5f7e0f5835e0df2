/-!
Independent specification of byte enables and of flat memory, used by the properties about
memory requests. Nothing here refers to the model of the code.
-/
namespace Verif.Spec

/-- A byte-addressed memory. -/
abbrev Mem := Nat → UInt8

/-- The memory after storing `data` at byte address `addr`. -/
def store (m : Mem) (addr : Nat) (data : List UInt8) : Mem := fun a =>
  if addr ≤ a ∧ a < addr + data.length then data.getD (a - addr) 0 else m a

/-- The `n` bytes of memory starting at `addr`. -/
def load (m : Mem) (addr n : Nat) : List UInt8 := (List.range n).map fun i => m (addr + i)

/-- Byte enables (PCI Express Base Specification, 2.2.5): a request names `length` DWORDs from
the DWORD-aligned byte address `address`. Byte lane `a % 4` of the first DWORD is transferred
iff the corresponding bit of `first_be` is set, that of the last DWORD (if it is not the
first) iff the bit of `last_be` is set, and all bytes in between are transferred. -/
def enabled (address length first_be last_be a : Nat) : Bool :=
  decide (address ≤ a ∧ a < address + 4 * length) &&
    (if a - address < 4 then first_be.testBit (a % 4)
     else if address + 4 * length ≤ a + 4 then last_be.testBit (a % 4)
     else true)

/-- Effect of a memory write request with DWORD-aligned `address` and the given byte enables
and payload bytes: exactly the enabled bytes change. -/
def applyWrite (m : Mem) (address length first_be last_be : Nat) (payload : List UInt8) : Mem :=
  fun a => if enabled address length first_be last_be a then payload.getD (a - address) 0 else m a

end Verif.Spec
