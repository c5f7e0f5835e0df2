import Verif.Model.Tlp
/-!
Model of the memory operations in `tb/pcie.py`: request splitting (`mem_read`, `mem_write` of
`Function` and `RootComplex`), completion generation and write handling (`handle_mem_read_tlp`,
`handle_mem_write_tlp`, `handle_io_read_tlp`, `handle_io_write_tlp` of `MemoryEndpoint` and
`RootComplex`) and completion consumption.

Generators are modelled as functions that return the list of TLPs passed to `send`; `none` is a
raised exception, a failed assertion, or waiting forever for a completion that never comes.
Logging, timing and `timeout` are not modelled.
-/
namespace Verif.Model

/-- Python slice `l[a:b]` for non-negative bounds. -/
def pySlice {α : Type} (l : List α) (a b : Nat) : List α := (l.take b).drop a

/-- Python `bytearray` slice assignment `l[a:b] = d` for non-negative bounds. -/
def pySetSlice {α : Type} (l : List α) (a b : Nat) (d : List α) : List α :=
  l.take a ++ d ++ l.drop (max a b)

/-- `tb/pcie.py` lines 1995-1998, 2080-2083, 3986-3989 and 4071-4074: bytes carried by the next
TLP when `rem` bytes remain, with `lim` the size setting (`max_payload_size` or
`max_read_request_size`). -/
def chunkLen (addr rem lim : Nat) : Nat :=
  min (min rem ((128 <<< lim) - firstPad addr)) (0x1000 - (addr &&& 0xfff))

theorem chunkLen_pos (addr rem lim : Nat) (h : 0 < rem) : 0 < chunkLen addr rem lim := by
  unfold chunkLen firstPad
  have h1 : addr &&& 0xfff = addr % 4096 := and_4095 addr
  have h2 : 128 ≤ 128 <<< lim := by
    rw [Nat.shiftLeft_eq]; exact Nat.le_mul_of_pos_right _ (Nat.two_pow_pos lim)
  rw [h1]
  omega

theorem chunkLen_le (addr rem lim : Nat) : chunkLen addr rem lim ≤ rem := by
  unfold chunkLen; omega

/-- `tb/pcie.py` lines 2070-2089 (`Function.mem_write`) and 4061-4080 (`RootComplex.mem_write`),
the splitting loop. The model keeps the data not yet sent (`data[n:]`) instead of `n`. -/
def memWriteLoop (requester : PcieId) (mps attr tc : Nat) (addr : Nat) (data : List UInt8) :
    Option (List Tlp) :=
  if h : 0 < data.length then do
    let tlp : Tlp := {}
    let tlp := tlp.setFmtType (if addr > 0xffffffff then TLP_MEM_WRITE_64 else TLP_MEM_WRITE)
    let tlp := { tlp with requester_id := requester, attr := attr, tc := tc }
    let byte_length := chunkLen addr data.length mps
    let tlp ← tlp.setBeData addr (data.take byte_length)
    if tlp.check then
      let rest ← memWriteLoop requester mps attr tc (addr + byte_length) (data.drop byte_length)
      pure (tlp :: rest)
    else none
  else some []
termination_by data.length
decreasing_by
  have := chunkLen_pos addr data.length mps h
  simp only [List.length_drop]; omega

/-- `tb/pcie.py` lines 2063-2089, `Function.mem_write`: the TLPs sent. -/
def Function.memWrite (bus_master_enable : Bool) (id : PcieId) (mps attr tc : Nat) (addr : Nat)
    (data : List UInt8) : Option (List Tlp) :=
  if bus_master_enable then memWriteLoop id mps attr tc addr data else some []

/-- `tb/pcie.py` lines 4061-4080, `RootComplex.mem_write` for an address outside the root
complex's own regions (lines 4057-4059 are modelled in `Verif.Model.Region`). -/
def RootComplex.memWriteExt (mps attr tc : Nat) (addr : Nat) (data : List UInt8) :
    Option (List Tlp) :=
  memWriteLoop ⟨0, 0, 0⟩ mps attr tc addr data

/-- `tb/pcie.py` lines 3996-4015 and 2005-2024: the inner loop that consumes completions until
`byte_length` bytes have been received. Returns the data and the completions left in the queue.
`m` never decreases in the model: a completion shorter than its own offset is `none`. -/
def consumeCpls (byte_length m : Nat) (data : List UInt8) :
    List Tlp → Option (List UInt8 × List Tlp)
  | [] => if m < byte_length then none else some (data, [])
  | cpl :: rest =>
    if m < byte_length then do
      if cpl.status ≠ CPL_STATUS_SC then none
      if ¬ (cpl.byte_count + 3 + (cpl.lower_address &&& 3) ≥ cpl.length * 4) then none
      if ¬ (cpl.byte_count = byte_length - m) then none
      if cpl.data.length < cpl.length then none
      let d ← bytesOfDwords (cpl.data.take cpl.length)
      let offset := cpl.lower_address &&& 3
      if d.length < offset then none
      consumeCpls byte_length (m + (d.length - offset))
        (data ++ pySlice d offset (offset + cpl.byte_count)) rest
    else some (data, cpl :: rest)

/-- `tb/pcie.py` lines 3976-3990, the request TLP built by `RootComplex.mem_read` (`be_len` is the
length passed to `set_be`; `Function.mem_read`, lines 1985-1999, passes the total length). -/
def readRequest (requester : PcieId) (tag attr tc addr be_len : Nat) : Tlp :=
  let tlp : Tlp := {}
  let tlp := tlp.setFmtType (if addr > 0xffffffff then TLP_MEM_READ_64 else TLP_MEM_READ)
  let tlp := { tlp with requester_id := requester, tag := tag, attr := attr, tc := tc }
  tlp.setBe addr be_len

/-- `tb/pcie.py` lines 3975-4020, the loop of `RootComplex.mem_read` for an address outside the
root complex's own regions. `respond` gives, for each request sent, the completions that arrive
for its tag, in order. `nextTag` abstracts `get_free_tag` (modelled in `Verif.Model.Tags`).
Returns the data read and the requests sent. `rem` is `length - n`. -/
def memReadLoop (respond : Tlp → Option (List Tlp)) (nextTag : Nat → Nat) (mrrs attr tc : Nat)
    (tag addr rem : Nat) : Option (List UInt8 × List Tlp) :=
  if h : 0 < rem then do
    let tag := nextTag tag
    let byte_length := chunkLen addr rem mrrs
    let tlp := readRequest ⟨0, 0, 0⟩ tag attr tc addr byte_length
    if tlp.check then
      let cpls ← respond tlp
      let (d, _) ← consumeCpls byte_length 0 [] cpls
      let (rest, reqs) ← memReadLoop respond nextTag mrrs attr tc tag (addr + byte_length)
        (rem - byte_length)
      pure (d ++ rest, tlp :: reqs)
    else none
  else some ([], [])
termination_by rem
decreasing_by
  have := chunkLen_pos addr rem mrrs h
  omega

/-- `tb/pcie.py` lines 1984-2029, the loop of `Function.mem_read`. Differs from the root complex
in line 1999, which passes the total `length` to `set_be`. -/
def Function.memReadLoop (respond : Tlp → Option (List Tlp)) (nextTag : Nat → Nat) (id : PcieId)
    (mrrs attr tc length : Nat) (tag addr rem : Nat) : Option (List UInt8 × List Tlp) :=
  if h : 0 < rem then do
    let tag := nextTag tag
    let byte_length := chunkLen addr rem mrrs
    let tlp := readRequest id tag attr tc addr length
    if tlp.check then
      let cpls ← respond tlp
      let (d, _) ← consumeCpls byte_length 0 [] cpls
      let (rest, reqs) ← Function.memReadLoop respond nextTag id mrrs attr tc length tag
        (addr + byte_length) (rem - byte_length)
      pure (d ++ rest, tlp :: reqs)
    else none
  else some ([], [])
termination_by rem
decreasing_by
  have := chunkLen_pos addr rem mrrs h
  omega

/-- `tb/pcie.py` lines 1976-2029, `Function.mem_read`. The inner `none` is the Python value `None`
returned when bus mastering is disabled. -/
def Function.memRead (bus_master_enable : Bool) (respond : Tlp → Option (List Tlp))
    (nextTag : Nat → Nat) (id : PcieId) (mrrs attr tc tag addr length : Nat) :
    Option (Option (List UInt8) × List Tlp) :=
  if bus_master_enable then do
    let (d, reqs) ← Function.memReadLoop respond nextTag id mrrs attr tc length tag addr length
    some (some d, reqs)
  else some (none, [])

/-- `tb/pcie.py` lines 2392-2397 and 3556-3561: DWORDs in the next completion. -/
def cplDwLen (addr rem mps : Nat) : Nat :=
  if rem > 32 <<< mps then (32 <<< mps) - ((addr &&& 0x7c) >>> 2) else rem

theorem cplDwLen_pos (addr rem mps : Nat) (h : 0 < rem) : 0 < cplDwLen addr rem mps := by
  unfold cplDwLen
  have h2 : 32 ≤ 32 <<< mps := by
    rw [Nat.shiftLeft_eq]; exact Nat.le_mul_of_pos_right _ (Nat.two_pow_pos mps)
  rw [and_7c, Nat.shiftRight_eq_div_pow]
  split <;> omega

/-- `tb/pcie.py` lines 2388-2409 and 3552-3573: the completion splitting loop. `data` is the
DWORD-expanded region content; `m`, `n` and `addr` are the loop variables. `byte_length - n` is
never negative while the loop runs for requests whose byte enables are 4-bit values (shown in
the proofs), so truncated subtraction is exact. -/
def cplLoop (tlp : Tlp) (completer : PcieId) (mps : Nat) (data : List UInt8)
    (dw_length byte_length : Nat) (m n addr : Nat) : Option (List Tlp) :=
  if h : m < dw_length then do
    let cpl := ({} : Tlp).setCompletionData tlp completer
    let cpl_dw_length := cplDwLen addr (dw_length - m) mps
    let cpl := { cpl with byte_count := byte_length - n, lower_address := addr &&& 0x7f }
    let cpl ← cpl.setData (pySlice data (m * 4) ((m + cpl_dw_length) * 4))
    if cpl.check then
      let rest ← cplLoop tlp completer mps data dw_length byte_length (m + cpl_dw_length)
        (n + (cpl_dw_length * 4 - (addr &&& 3))) (addr + (cpl_dw_length * 4 - (addr &&& 3)))
      pure (cpl :: rest)
    else none
  else some []
termination_by dw_length - m
decreasing_by
  have := cplDwLen_pos addr (dw_length - m) mps (by omega)
  omega

/-- `tb/pcie.py` lines 2374-2409 and 3537-3573: `handle_mem_read_tlp` once the target region is
known. `addr` is the address within the region's address space (BAR offset for an endpoint,
absolute address for the root complex); `read` is `read_region`. -/
def handleMemRead (read : Nat → Nat → Option (List UInt8)) (completer : PcieId) (mps : Nat)
    (tlp : Tlp) (addr : Nat) : Option (List Tlp) :=
  if tlp.length * 4 > 0x1000 - (addr &&& 0xfff) then some []
  else do
    let data ← read addr (tlp.length * 4)
    cplLoop tlp completer mps data tlp.length tlp.getBeByteCount 0 0
      (tlp.address + tlp.getFirstBeOffset)

/-- The local variables of the run-length loops in `handle_mem_write_tlp`
(`tb/pcie.py` lines 2431-2477, 3592-3639) and `handle_io_write_tlp`. -/
structure RunState (σ : Type) where
  mem : σ
  offset : Nat
  start : Option Nat

/-- `tb/pcie.py` lines 2449-2451 (and 2470-2472, 2476-2477, 3611-3613, ...): write the pending run,
if it is not empty. `wr` is `write_region`. -/
def flushRun {σ : Type} (wr : σ → Nat → List UInt8 → Option σ) (addr : Nat) (data : List UInt8)
    (s : RunState σ) : Option σ :=
  match s.start with
  | some st => if s.offset ≠ st then wr s.mem (addr + st) (pySlice data st s.offset) else some s.mem
  | none => some s.mem

/-- `tb/pcie.py` lines 2445-2453: one byte lane of the first (or last) DWORD. -/
def runStep {σ : Type} (wr : σ → Nat → List UInt8 → Option σ) (addr : Nat) (data : List UInt8)
    (mask : Nat) (s : RunState σ) (k : Nat) : Option (RunState σ) :=
  if mask &&& (1 <<< k) ≠ 0 then
    some ⟨s.mem, s.offset + 1, some (s.start.getD s.offset)⟩
  else do
    let mem ← flushRun wr addr data s
    some ⟨mem, s.offset + 1, none⟩

/-- `tb/pcie.py` lines 2444-2453: `for k in range(4)`. -/
def runDword {σ : Type} (wr : σ → Nat → List UInt8 → Option σ) (addr : Nat) (data : List UInt8)
    (mask : Nat) (s : RunState σ) : Option (RunState σ) :=
  [0, 1, 2, 3].foldlM (runStep wr addr data mask) s

/-- `tb/pcie.py` lines 2435-2477 and 3597-3639: `handle_mem_write_tlp` once the target region is
known; `addr` as in `handleMemRead`. Returns the memory afterwards. -/
def handleMemWrite {σ : Type} (wr : σ → Nat → List UInt8 → Option σ) (tlp : Tlp) (addr : Nat)
    (mem : σ) : Option σ :=
  if tlp.length * 4 > 0x1000 - (addr &&& 0xfff) then some mem
  else do
    let data ← tlp.getData
    let s ← runDword wr addr data tlp.first_be ⟨mem, 0, none⟩
    let s := if tlp.length > 2 then
        ⟨s.mem, s.offset + (tlp.length - 2) * 4, some (s.start.getD s.offset)⟩
      else s
    let s ← if tlp.length > 1 then runDword wr addr data tlp.last_be s else some s
    flushRun wr addr data s

/-- `tb/pcie.py` lines 2318-2351 and 3483-3515: `handle_io_write_tlp` once the target region is
known. Returns the memory and the completion. -/
def handleIoWrite {σ : Type} (wr : σ → Nat → List UInt8 → Option σ) (completer : PcieId)
    (tlp : Tlp) (addr : Nat) (mem : σ) : Option (σ × Tlp) :=
  if tlp.length ≠ 1 then none
  else do
    let cpl := ({} : Tlp).setCompletion tlp completer
    let data ← tlp.getData
    let s ← runDword wr addr data tlp.first_be ⟨mem, 0, none⟩
    let mem ← flushRun wr addr data s
    let cpl := { cpl with byte_count := 4 }
    if cpl.check then some (mem, cpl) else none

/-- `tb/pcie.py` lines 2264-2299 and 3431-3465: `handle_io_read_tlp` once the target region is
known. The run-length loop is the one of the write handler with `data[start:offset] = read(...)`
in place of the region write, so the "memory" threaded through it is the buffer `data`. -/
def handleIoRead (read : Nat → Nat → Option (List UInt8)) (completer : PcieId) (tlp : Tlp)
    (addr : Nat) : Option Tlp :=
  if tlp.length ≠ 1 then none
  else do
    let cpl := ({} : Tlp).setCompletionData tlp completer
    let wr : List UInt8 → Nat → List UInt8 → Option (List UInt8) := fun buf a lanes => do
      let d ← read a lanes.length
      some (pySetSlice buf (a - addr) (a - addr + lanes.length) d)
    let s ← runDword wr addr [0, 0, 0, 0] tlp.first_be ⟨[0, 0, 0, 0], 0, none⟩
    let buf ← flushRun wr addr [0, 0, 0, 0] s
    let cpl ← cpl.setData buf
    let cpl := { cpl with byte_count := 4, length := 1 }
    if cpl.check then some cpl else none

/-- `tb/pcie.py` lines 2411-2420 and 3575-3584: no region matched. -/
def urCompletion (tlp : Tlp) (completer : PcieId) : Tlp := ({} : Tlp).setUrCompletion tlp completer

end Verif.Model
