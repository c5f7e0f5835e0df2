import Verif.Model.Config
import Verif.Model.Region
import Verif.Model.MemOps
/-!
Model of `Function.configure_bar`, `Function.match_bar` and of MSI/MSI-X interrupt generation in
`tb/pcie.py`. Exceptions are `none`.
-/
namespace Verif.Model

/-- `tb/pcie.py` lines 1712-1731, `configure_bar(idx, size, ext, prefetch, io)` on the lists `bar`
and `bar_mask`. `0xffffffff & (~mask >> 32)` with the infinite two's complement `~` is the
complement of `mask >> 32` in 32 bits. `math.log(0)` raises. -/
def configureBar (bar bar_mask : List Nat) (idx size : Nat) (ext prefetch io : Bool) :
    Option (List Nat × List Nat) :=
  if size = 0 then none else
  let mask := 2 ^ ceilLog2 size - 1
  if idx ≥ bar.length ∨ (ext ∧ idx + 1 ≥ bar.length) then none
  else if io then
    some (bar.set idx 1, bar_mask.set idx (andNot 0xfffffffc mask))
  else
    let bar := bar.set idx 0
    let bar_mask := bar_mask.set idx (andNot 0xfffffff0 mask)
    let (bar, bar_mask) :=
      if ext then
        ((bar.set idx (bar.getD idx 0 ||| 4)).set (idx + 1) 0,
         bar_mask.set (idx + 1) (andNot 0xffffffff (mask >>> 32)))
      else (bar, bar_mask)
    let bar := if prefetch then bar.set idx (bar.getD idx 0 ||| 8) else bar
    some (bar, bar_mask)

/-- `tb/pcie.py` lines 1733-1770, `match_bar(addr, io)`. The two lists are the unvisited parts of
`bar` and `bar_mask`, `idx` the position; a 64-bit BAR in the last position raises. -/
def matchBar (addr : Nat) (io : Bool) : (idx : Nat) → (bar bar_mask : List Nat) → Option (List (Nat × Nat))
  | idx, bar_val :: bar, bar_mask :: masks =>
    if bar_mask = 0 then matchBar addr io (idx + 1) bar masks
    else if bar_val &&& 1 ≠ 0 then do
      let rest ← matchBar addr io (idx + 1) bar masks
      if io ∧ addr &&& bar_mask = bar_val &&& bar_mask then some ((idx, andNot addr bar_mask) :: rest)
      else some rest
    else if bar_val &&& 4 ≠ 0 then
      match bar, masks with
      | bar_hi :: bar, mask_hi :: masks => do
        let bar_val := bar_val ||| (bar_hi <<< 32)
        let bar_mask := bar_mask ||| (mask_hi <<< 32)
        let rest ← matchBar addr io (idx + 2) bar masks
        if ¬ io ∧ addr &&& bar_mask = bar_val &&& bar_mask then some ((idx, andNot addr bar_mask) :: rest)
        else some rest
      | _, _ => none
    else do
      let rest ← matchBar addr io (idx + 1) bar masks
      if ¬ io ∧ addr &&& bar_mask = bar_val &&& bar_mask then some ((idx, andNot addr bar_mask) :: rest)
      else some rest
  | _, _, _ => some []

/-- Little-endian bytes of a DWORD, `struct.pack('<L', data)`; raises for larger values. -/
def packDword (data : Nat) : Option (List UInt8) :=
  if data < 2 ^ 32 then
    some [UInt8.ofNat data, UInt8.ofNat (data >>> 8), UInt8.ofNat (data >>> 16), UInt8.ofNat (data >>> 24)]
  else none

/-- `tb/pcie.py` lines 1464-1473, `issue_msi_interrupt(number)`, the TLPs sent by a function with
identifier `id` and maximum payload size `mps`. -/
def issueMsi (s : MsiState) (bme : Bool) (id : PcieId) (mps number attr tc : Nat) : Option (List Tlp) :=
  if ¬ s.enable then some []
  else if number ≥ 2 ^ s.multiple_message_enable ∨ number ≥ 2 ^ s.multiple_message_capable then some []
  else do
    let data ← packDword (andNot s.message_data (2 ^ s.multiple_message_enable - 1) ||| number)
    Function.memWrite bme id mps attr tc s.message_address data

/-- `tb/pcie.py` lines 1527-1532, `issue_msix_interrupt(addr, data)`. -/
def issueMsix (s : MsixState) (bme : Bool) (id : PcieId) (mps addr data attr tc : Nat) : Option (List Tlp) :=
  if ¬ s.enable then some []
  else do
    let data ← packDword data
    Function.memWrite bme id mps attr tc addr data

end Verif.Model
