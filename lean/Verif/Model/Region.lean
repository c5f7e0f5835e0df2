import Verif.Model.MemOps
/-!
Model of the memory regions of `tb/pcie.py`: `MemoryEndpoint.read_region`/`write_region` on a
`bytearray`, and `RootComplex.alloc_region`, `find_region`, `read_region`, `write_region` on
`mmap` objects. Regions with user callbacks are not modelled.
-/
namespace Verif.Model

/-- `tb/pcie.py` lines 2242-2248, `MemoryEndpoint.read_region` for a `bytearray` region. An empty
`bytearray` is falsy, so it raises. -/
def MemoryEndpoint.readRegion (region : List UInt8) (addr length : Nat) : Option (List UInt8) :=
  if region = [] then none else some (pySlice region addr (addr + length))

/-- `tb/pcie.py` lines 2250-2256, `MemoryEndpoint.write_region` for a `bytearray` region. Slice
assignment past the end extends the `bytearray`. -/
def MemoryEndpoint.writeRegion (region : List UInt8) (addr : Nat) (data : List UInt8) :
    Option (List UInt8) :=
  if region = [] then none else some (pySetSlice region addr (addr + data.length) data)

/-- `tb/pcie.py` lines 2364-2420, `MemoryEndpoint.handle_mem_read_tlp`; `m` is the result of
`match_bar(tlp.address)` (`Verif.Model.Bar`), `regions` the BAR regions. -/
def MemoryEndpoint.handleMemRead (regions : Nat → List UInt8) (id : PcieId) (mps : Nat)
    (m : List (Nat × Nat)) (tlp : Tlp) : Option (List Tlp) :=
  match m with
  | [(region, addr)] => Model.handleMemRead (readRegion (regions region)) id mps tlp addr
  | _ =>
    let cpl := urCompletion tlp id
    if cpl.check then some [cpl] else none

/-- `tb/pcie.py` lines 2422-2483, `MemoryEndpoint.handle_mem_write_tlp`. Returns the regions
afterwards. -/
def MemoryEndpoint.handleMemWrite (regions : Nat → List UInt8) (m : List (Nat × Nat)) (tlp : Tlp) :
    Option (Nat → List UInt8) :=
  match m with
  | [(region, addr)] => do
    let r ← Model.handleMemWrite writeRegion tlp addr (regions region)
    some fun k => if k = region then r else regions k
  | _ => some regions

/-- One entry of `RootComplex.regions`: the tuple `(addr, size, mem)` (`tb/pcie.py` line 3290). -/
structure Region where
  base : Nat
  size : Nat
  mem : List UInt8
deriving DecidableEq, Repr

/-- `tb/pcie.py` line 3312: `region[0] <= addr < region[0]+region[1]`. -/
def Region.contains (r : Region) (addr : Nat) : Bool :=
  decide (r.base ≤ addr ∧ addr < r.base + r.size)

/-- `tb/pcie.py` lines 3310-3314, `find_region` (and 3316-3320, `find_io_region`). -/
def findRegion (rs : List Region) (addr : Nat) : Option Region :=
  rs.find? (·.contains addr)

/-- `tb/pcie.py` lines 3322-3333, `read_region` (and 3348-3359, `read_io_region`). -/
def readRegion (rs : List Region) (addr length : Nat) : Option (List UInt8) :=
  match findRegion rs addr with
  | none => none
  | some r => some (pySlice r.mem (addr - r.base) (addr - r.base + length))

/-- `tb/pcie.py` lines 3335-3346, `write_region` (and 3361-3372, `write_io_region`). The region
found first is updated in place. Slice assignment to an `mmap` raises when the clipped slice and
the data differ in length. -/
def writeRegion : List Region → Nat → List UInt8 → Option (List Region)
  | [], _, _ => none
  | r :: rs, addr, data =>
    if r.contains addr then
      if (pySlice r.mem (addr - r.base) (addr - r.base + data.length)).length = data.length then
        some ({ r with mem := pySetSlice r.mem (addr - r.base) (addr - r.base + data.length) data } :: rs)
      else none
    else do
      let rs ← writeRegion rs addr data
      some (r :: rs)

/-- `math.ceil(math.log(size, 2))` for `size ≥ 1` in exact arithmetic. (CPython computes it in
floating point; `math.log(2**29, 2)` for example is slightly above 29.) -/
def ceilLog2 (size : Nat) : Nat := if size ≤ 1 then 0 else (size - 1).log2 + 1

/-- The allocator state of `RootComplex` (`tb/pcie.py` lines 3257-3264). -/
structure Alloc where
  limit : Nat := 0
  regions : List Region := []
deriving DecidableEq, Repr

/-- `tb/pcie.py` lines 3282-3294, `alloc_region` without callbacks (and 3296-3308,
`alloc_io_region`). `math.log(0)` raises. Returns the state and the address. -/
def Alloc.alloc (s : Alloc) (size : Nat) : Option (Alloc × Nat) :=
  if size = 0 then none
  else
    let addr := align s.limit (2 ^ ceilLog2 size - 1)
    some (⟨addr + size - 1, s.regions ++ [⟨addr, size, List.replicate size 0⟩]⟩, addr)

/-- A sequence of `alloc_region` calls. -/
def Alloc.allocs : Alloc → List Nat → Option Alloc
  | s, [] => some s
  | s, size :: sizes => do
    let (s, _) ← s.alloc size
    s.allocs sizes

/-- `tb/pcie.py` lines 3528-3584, `RootComplex.handle_mem_read_tlp`. -/
def RootComplex.handleMemRead (rs : List Region) (mps : Nat) (tlp : Tlp) : Option (List Tlp) :=
  match findRegion rs tlp.address with
  | some _ => Model.handleMemRead (readRegion rs) ⟨0, 0, 0⟩ mps tlp tlp.address
  | none =>
    let cpl := urCompletion tlp ⟨0, 0, 0⟩
    if cpl.check then some [cpl] else none

/-- `tb/pcie.py` lines 3586-3646, `RootComplex.handle_mem_write_tlp`. -/
def RootComplex.handleMemWrite (rs : List Region) (tlp : Tlp) : Option (List Region) :=
  match findRegion rs tlp.address with
  | some _ => Model.handleMemWrite writeRegion tlp tlp.address rs
  | none => some rs

/-- `tb/pcie.py` lines 3967-4020, `RootComplex.mem_read`. -/
def RootComplex.memRead (rs : List Region) (respond : Tlp → Option (List Tlp))
    (nextTag : Nat → Nat) (mrrs attr tc tag addr length : Nat) : Option (List UInt8 × List Tlp) :=
  match findRegion rs addr with
  | some _ => do
    let d ← readRegion rs addr length
    some (d, [])
  | none => memReadLoop respond nextTag mrrs attr tc tag addr length

/-- `tb/pcie.py` lines 4054-4080, `RootComplex.mem_write`. Returns the regions and the TLPs sent. -/
def RootComplex.memWrite (rs : List Region) (mps attr tc addr : Nat) (data : List UInt8) :
    Option (List Region × List Tlp) :=
  match findRegion rs addr with
  | some _ => do
    let rs ← writeRegion rs addr data
    some (rs, [])
  | none => do
    let ts ← RootComplex.memWriteExt mps attr tc addr data
    some (rs, ts)

end Verif.Model
