import Verif.Model.Util
/-!
Model of class `TLP` in `tb/pcie.py` (lines 329-721).

`TLP.th` is modelled although `TLP.__eq__` ignores it. The copy constructor is modelled by
`Tlp.copy`. Exceptions (`struct.error`, `IndexError`, "Unknown TLP type") are `none`.
-/
namespace Verif.Model

/-- `tb/pcie.py` lines 32-36, TLP formats. -/
abbrev FMT_3DW : Nat := 0
abbrev FMT_4DW : Nat := 1
abbrev FMT_3DW_DATA : Nat := 2
abbrev FMT_4DW_DATA : Nat := 3

/-- `tb/pcie.py` lines 38-71, the `(fmt, type)` pairs used by the modelled code. -/
abbrev TLP_MEM_READ : Nat × Nat := (FMT_3DW, 0x00)
abbrev TLP_MEM_READ_64 : Nat × Nat := (FMT_4DW, 0x00)
abbrev TLP_MEM_READ_LOCKED : Nat × Nat := (FMT_3DW, 0x01)
abbrev TLP_MEM_READ_LOCKED_64 : Nat × Nat := (FMT_4DW, 0x01)
abbrev TLP_MEM_WRITE : Nat × Nat := (FMT_3DW_DATA, 0x00)
abbrev TLP_MEM_WRITE_64 : Nat × Nat := (FMT_4DW_DATA, 0x00)
abbrev TLP_IO_READ : Nat × Nat := (FMT_3DW, 0x02)
abbrev TLP_IO_WRITE : Nat × Nat := (FMT_3DW_DATA, 0x02)
abbrev TLP_CFG_READ_0 : Nat × Nat := (FMT_3DW, 0x04)
abbrev TLP_CFG_WRITE_0 : Nat × Nat := (FMT_3DW_DATA, 0x04)
abbrev TLP_CFG_READ_1 : Nat × Nat := (FMT_3DW, 0x05)
abbrev TLP_CFG_WRITE_1 : Nat × Nat := (FMT_3DW_DATA, 0x05)
abbrev TLP_MSG_TO_RC : Nat × Nat := (FMT_4DW, 0x10)
abbrev TLP_MSG_ADDR : Nat × Nat := (FMT_4DW, 0x11)
abbrev TLP_MSG_ID : Nat × Nat := (FMT_4DW, 0x12)
abbrev TLP_MSG_BCAST : Nat × Nat := (FMT_4DW, 0x13)
abbrev TLP_MSG_LOCAL : Nat × Nat := (FMT_4DW, 0x14)
abbrev TLP_MSG_GATHER : Nat × Nat := (FMT_4DW, 0x15)
abbrev TLP_MSG_DATA_TO_RC : Nat × Nat := (FMT_4DW_DATA, 0x10)
abbrev TLP_MSG_DATA_ADDR : Nat × Nat := (FMT_4DW_DATA, 0x11)
abbrev TLP_MSG_DATA_ID : Nat × Nat := (FMT_4DW_DATA, 0x12)
abbrev TLP_MSG_DATA_BCAST : Nat × Nat := (FMT_4DW_DATA, 0x13)
abbrev TLP_MSG_DATA_LOCAL : Nat × Nat := (FMT_4DW_DATA, 0x14)
abbrev TLP_MSG_DATA_GATHER : Nat × Nat := (FMT_4DW_DATA, 0x15)
abbrev TLP_CPL : Nat × Nat := (FMT_3DW, 0x0A)
abbrev TLP_CPL_DATA : Nat × Nat := (FMT_3DW_DATA, 0x0A)
abbrev TLP_CPL_LOCKED : Nat × Nat := (FMT_3DW, 0x0B)
abbrev TLP_CPL_LOCKED_DATA : Nat × Nat := (FMT_3DW_DATA, 0x0B)
abbrev TLP_FETCH_ADD : Nat × Nat := (FMT_3DW_DATA, 0x0C)
abbrev TLP_FETCH_ADD_64 : Nat × Nat := (FMT_4DW_DATA, 0x0C)
abbrev TLP_SWAP : Nat × Nat := (FMT_3DW_DATA, 0x0D)
abbrev TLP_SWAP_64 : Nat × Nat := (FMT_4DW_DATA, 0x0D)
abbrev TLP_CAS : Nat × Nat := (FMT_3DW_DATA, 0x0E)
abbrev TLP_CAS_64 : Nat × Nat := (FMT_4DW_DATA, 0x0E)

/-- `tb/pcie.py` lines 110-113, completion status codes. -/
abbrev CPL_STATUS_SC : Nat := 0
abbrev CPL_STATUS_UR : Nat := 1
abbrev CPL_STATUS_CRS : Nat := 2
abbrev CPL_STATUS_CA : Nat := 4

/-- `tb/pcie.py` lines 330-352, attributes of `TLP` with their initial values.
`data` is the list of payload DWORDs. -/
structure Tlp where
  fmt : Nat := 0
  type : Nat := 0
  tc : Nat := 0
  th : Nat := 0
  td : Nat := 0
  ep : Nat := 0
  attr : Nat := 0
  at_ : Nat := 0
  length : Nat := 0
  completer_id : PcieId := ⟨0, 0, 0⟩
  status : Nat := 0
  bcm : Nat := 0
  byte_count : Nat := 0
  requester_id : PcieId := ⟨0, 0, 0⟩
  dest_id : PcieId := ⟨0, 0, 0⟩
  tag : Nat := 0
  first_be : Nat := 0
  last_be : Nat := 0
  lower_address : Nat := 0
  address : Nat := 0
  register_number : Nat := 0
  data : List Nat := []
deriving DecidableEq, Repr, Inhabited

/-- `tb/pcie.py` lines 377-379, property `fmt_type`. -/
def Tlp.fmt_type (t : Tlp) : Nat × Nat := (t.fmt, t.type)

/-- `tb/pcie.py` lines 381-383, setter of `fmt_type`. -/
def Tlp.setFmtType (t : Tlp) (v : Nat × Nat) : Tlp := { t with fmt := v.1, type := v.2 }

/-- `tb/pcie.py` lines 354-375, copy construction `TLP(tlp)`. The attribute `th` is not
copied and stays 0. -/
def Tlp.copy (t : Tlp) : Tlp := { t with th := 0 }

/-- `tb/pcie.py` lines 409-436, `TLP.check`. Line 416 tests `0 > self.length > 1024`, which
no integer satisfies; it is kept as written. -/
def Tlp.check (t : Tlp) : Bool :=
  let c1 := if t.fmt = FMT_3DW_DATA ∨ t.fmt = FMT_4DW_DATA then
      decide (t.length = t.data.length) && !(decide (0 > t.length ∧ t.length > 1024))
    else true
  let c2 := if t.fmt_type = TLP_MEM_READ ∨ t.fmt_type = TLP_MEM_READ_64 ∨
        t.fmt_type = TLP_MEM_READ_LOCKED ∨ t.fmt_type = TLP_MEM_READ_LOCKED_64 ∨
        t.fmt_type = TLP_MEM_WRITE ∨ t.fmt_type = TLP_MEM_WRITE_64 then
      !(decide (t.length * 4 > 0x1000 - (t.address &&& 0xfff)))
    else true
  let c3 := if t.fmt_type = TLP_IO_READ ∨ t.fmt_type = TLP_IO_WRITE then
      decide (t.length = 1) && decide (t.last_be = 0)
    else true
  let c4 := if t.fmt_type = TLP_CPL_DATA then
      !(decide (t.byte_count + (t.lower_address &&& 3) + 3 < t.length * 4))
    else true
  c1 && c2 && c3 && c4

/-- `tb/pcie.py` lines 438-449, `TLP.set_completion(tlp, completer_id, has_data, status)`. -/
def Tlp.setCompletion (self tlp : Tlp) (completer_id : PcieId) (has_data : Bool := false)
    (status : Nat := CPL_STATUS_SC) : Tlp :=
  { self.setFmtType (if has_data then TLP_CPL_DATA else TLP_CPL) with
    requester_id := tlp.requester_id
    completer_id := completer_id
    status := status
    attr := tlp.attr
    tag := tlp.tag
    tc := tlp.tc }

/-- `tb/pcie.py` lines 451-453, `TLP.set_completion_data`. -/
def Tlp.setCompletionData (self tlp : Tlp) (completer_id : PcieId) : Tlp :=
  self.setCompletion tlp completer_id true

/-- `tb/pcie.py` lines 455-457, `TLP.set_ur_completion`. -/
def Tlp.setUrCompletion (self tlp : Tlp) (completer_id : PcieId) : Tlp :=
  self.setCompletion tlp completer_id false CPL_STATUS_UR

/-- `tb/pcie.py` lines 459-461, `TLP.set_crs_completion`. -/
def Tlp.setCrsCompletion (self tlp : Tlp) (completer_id : PcieId) : Tlp :=
  self.setCompletion tlp completer_id false CPL_STATUS_CRS

/-- `tb/pcie.py` lines 463-465, `TLP.set_ca_completion`. -/
def Tlp.setCaCompletion (self tlp : Tlp) (completer_id : PcieId) : Tlp :=
  self.setCompletion tlp completer_id false CPL_STATUS_CA

/-- `tb/pcie.py` line 470: `first_pad = addr % 4`. -/
def firstPad (addr : Nat) : Nat := addr % 4

/-- `tb/pcie.py` line 471: `last_pad = 3 - (addr+length-1) % 4`. Python's `%` is
non-negative, so `(addr+length-1) % 4 = (addr+length+3) % 4` also for `addr = length = 0`. -/
def lastPad (addr length : Nat) : Nat := 3 - (addr + length + 3) % 4

/-- `tb/pcie.py` lines 467-479, `TLP.set_be(addr, length)`; the returned pair is
`(firstPad addr, lastPad addr length)`. Line 472 uses floating point division followed by
`math.ceil`; it is modelled by the exact ceiling. -/
def Tlp.setBe (t : Tlp) (addr length : Nat) : Tlp :=
  let first_pad := firstPad addr
  let last_pad := lastPad addr length
  let len := (length + first_pad + last_pad + 3) / 4
  let first_be := (0xf <<< first_pad) &&& 0xf
  let last_be := 0xf >>> last_pad
  let t := { t with address := andNot addr 3, length := len }
  if len = 1 then { t with first_be := first_be &&& last_be, last_be := 0 }
  else { t with first_be := first_be, last_be := last_be }

/-- `struct.unpack('<L', b)[0]` on four bytes, used at `tb/pcie.py` line 485. -/
def dwordOfBytes (b0 b1 b2 b3 : UInt8) : Nat :=
  b0.toNat + 256 * b1.toNat + 65536 * b2.toNat + 16777216 * b3.toNat

/-- `tb/pcie.py` lines 483-486, the loop of `set_data`. `struct.unpack` raises on a final
slice shorter than four bytes (`none`). -/
def dwordsOfBytes : List UInt8 → Option (List Nat)
  | [] => some []
  | b0 :: b1 :: b2 :: b3 :: rest =>
    (dwordsOfBytes rest).map (dwordOfBytes b0 b1 b2 b3 :: ·)
  | _ => none

/-- `tb/pcie.py` lines 481-486, `TLP.set_data`. -/
def Tlp.setData (t : Tlp) (data : List UInt8) : Option Tlp :=
  (dwordsOfBytes data).map fun ws => { t with data := ws, length := ws.length }

/-- `tb/pcie.py` lines 488-492, `TLP.set_be_data`. -/
def Tlp.setBeData (t : Tlp) (addr : Nat) (data : List UInt8) : Option Tlp :=
  let t := { t with address := andNot addr 3 }
  (t.setBe addr data.length).setData
    (List.replicate (firstPad addr) 0 ++ data ++ List.replicate (lastPad addr data.length) 0)

/-- `struct.pack('<L', dw)`, used at `tb/pcie.py` line 497; raises for values of 2^32 or
more (`none`). -/
def bytesOfDword (dw : Nat) : Option (List UInt8) :=
  if dw < 2 ^ 32 then
    some [UInt8.ofNat (dw % 256), UInt8.ofNat (dw / 256 % 256), UInt8.ofNat (dw / 65536 % 256),
      UInt8.ofNat (dw / 16777216 % 256)]
  else none

/-- `tb/pcie.py` lines 495-498, the loop of `get_data`. -/
def bytesOfDwords : List Nat → Option (List UInt8)
  | [] => some []
  | w :: ws => do
    let b ← bytesOfDword w
    let r ← bytesOfDwords ws
    pure (b ++ r)

/-- `tb/pcie.py` lines 494-498, `TLP.get_data`. -/
def Tlp.getData (t : Tlp) : Option (List UInt8) := bytesOfDwords t.data

/-- `tb/pcie.py` lines 500-509, `TLP.get_first_be_offset`. -/
def Tlp.getFirstBeOffset (t : Tlp) : Nat :=
  if t.first_be &&& 0x7 = 0 then 3
  else if t.first_be &&& 0x3 = 0 then 2
  else if t.first_be &&& 0x1 = 0 then 1
  else 0

/-- `tb/pcie.py` lines 511-524, `TLP.get_last_be_offset`. -/
def Tlp.getLastBeOffset (t : Tlp) : Nat :=
  let be := if t.length = 1 then t.first_be else t.last_be
  if be &&& 0xf = 0x1 then 3
  else if be &&& 0xe = 0x2 then 2
  else if be &&& 0xc = 0x4 then 1
  else 0

/-- `tb/pcie.py` lines 526-528, `TLP.get_be_byte_count`. Truncated subtraction differs from
Python only for `length = 0`, which no caller uses. -/
def Tlp.getBeByteCount (t : Tlp) : Nat :=
  t.length * 4 - t.getFirstBeOffset - t.getLastBeOffset

/-- `tb/pcie.py` lines 530-532, `TLP.get_lower_address`. Python gives `+` precedence over
`&`, so the expression is `address & (0x7c + offset)`. -/
def Tlp.getLowerAddress (t : Tlp) : Nat :=
  t.address &&& (0x7c + t.getFirstBeOffset)

/-- `tb/pcie.py` lines 534-543, `TLP.get_size`; other formats return `None`. -/
def Tlp.getSize (t : Tlp) : Option Nat :=
  if t.fmt = FMT_3DW then some 12
  else if t.fmt = FMT_3DW_DATA then some (12 + t.data.length * 4)
  else if t.fmt = FMT_4DW then some 16
  else if t.fmt = FMT_4DW_DATA then some (16 + t.data.length * 4)
  else none

/-- `tb/pcie.py` lines 545-547, `TLP.get_wire_size`. -/
def Tlp.getWireSize (t : Tlp) : Option Nat := t.getSize.map (· + 12)

/-- `tb/pcie.py` lines 549-551, `TLP.get_data_credits`: `int((len(data)+3)/4)`. -/
def Tlp.getDataCredits (t : Tlp) : Nat := (t.data.length + 3) / 4

/-- The configuration request types tested at `tb/pcie.py` lines 581-582 and 640-641. -/
def isCfg (ft : Nat × Nat) : Bool :=
  ft = TLP_CFG_READ_0 || ft = TLP_CFG_WRITE_0 || ft = TLP_CFG_READ_1 || ft = TLP_CFG_WRITE_1

/-- The request types tested at `tb/pcie.py` lines 569-574 and 629-634. -/
def isRequest (ft : Nat × Nat) : Bool :=
  isCfg ft || ft = TLP_MEM_READ || ft = TLP_MEM_READ_64 || ft = TLP_MEM_READ_LOCKED ||
  ft = TLP_MEM_READ_LOCKED_64 || ft = TLP_MEM_WRITE || ft = TLP_MEM_WRITE_64 ||
  ft = TLP_IO_READ || ft = TLP_IO_WRITE

/-- The completion types tested at `tb/pcie.py` lines 593-594 and 648-649 (and in `handle_tlp`,
lines 1790-1791). -/
def isCompletion (ft : Nat × Nat) : Bool :=
  ft = TLP_CPL || ft = TLP_CPL_DATA || ft = TLP_CPL_LOCKED || ft = TLP_CPL_LOCKED_DATA

/-- `tb/pcie.py` lines 557-567, DWORD 0 of `TLP.pack`. -/
def Tlp.packDw0 (t : Tlp) : Nat :=
  (t.length &&& 0x3ff) ||| ((t.at_ &&& 0x3) <<< 10) ||| ((t.attr &&& 0x3) <<< 12) |||
  ((t.ep &&& 1) <<< 14) ||| ((t.td &&& 1) <<< 15) ||| ((t.th &&& 1) <<< 16) |||
  ((t.attr &&& 0x4) <<< 16) ||| ((t.tc &&& 0x7) <<< 20) ||| ((t.type &&& 0x1f) <<< 24) |||
  ((t.fmt &&& 0x7) <<< 29)

/-- `tb/pcie.py` lines 575-579, DWORD 1 of a request. -/
def Tlp.packReqDw1 (t : Tlp) : Nat :=
  (t.first_be &&& 0xf) ||| ((t.last_be &&& 0xf) <<< 4) ||| ((t.tag &&& 0xff) <<< 8) |||
  (t.requester_id.toInt <<< 16)

/-- `tb/pcie.py` lines 595-599, DWORD 1 of a completion. -/
def Tlp.packCplDw1 (t : Tlp) : Nat :=
  (t.byte_count &&& 0xfff) ||| ((t.bcm &&& 1) <<< 12) ||| ((t.status &&& 0x7) <<< 13) |||
  (t.completer_id.toInt <<< 16)

/-- `tb/pcie.py` lines 600-603, DWORD 2 of a completion. -/
def Tlp.packCplDw2 (t : Tlp) : Nat :=
  (t.lower_address &&& 0x7f) ||| ((t.tag &&& 0xff) <<< 8) ||| (t.requester_id.toInt <<< 16)

/-- `tb/pcie.py` lines 587-592, the address DWORDs of a memory or IO request. The variable `l`
is not cleared after the upper DWORD is appended, so its bits are or-ed into the lower one. -/
def Tlp.packAddr (t : Tlp) : List Nat :=
  if t.fmt = FMT_4DW ∨ t.fmt = FMT_4DW_DATA then
    let l := (t.address >>> 32) &&& 0xffffffff
    [l, l ||| (t.address &&& 0xfffffffc)]
  else [t.address &&& 0xfffffffc]

/-- `tb/pcie.py` lines 553-610, `TLP.pack`. -/
def Tlp.pack (t : Tlp) : Option (List Nat) :=
  let payload := if t.fmt = FMT_3DW_DATA ∨ t.fmt = FMT_4DW_DATA then t.data else []
  if isRequest t.fmt_type then
    if isCfg t.fmt_type then
      some ([t.packDw0, t.packReqDw1,
        ((t.register_number &&& 0x3ff) <<< 2) ||| (t.dest_id.toInt <<< 16)] ++ payload)
    else some ([t.packDw0, t.packReqDw1] ++ t.packAddr ++ payload)
  else if isCompletion t.fmt_type then
    some ([t.packDw0, t.packCplDw1, t.packCplDw2] ++ payload)
  else none

/-- `tb/pcie.py` lines 614-627, the fields `TLP.unpack` takes from DWORD 0. -/
def Tlp.unpackDw0 (t : Tlp) (p0 : Nat) : Tlp :=
  let t := { t with
    length := p0 &&& 0x3ff
    at_ := (p0 >>> 10) &&& 0x3
    attr := ((p0 >>> 12) &&& 0x3) ||| ((p0 >>> 16) &&& 0x4)
    ep := (p0 >>> 14) &&& 1
    td := (p0 >>> 15) &&& 1
    th := (p0 >>> 16) &&& 1
    tc := (p0 >>> 20) &&& 0x7
    type := (p0 >>> 24) &&& 0x1f
    fmt := (p0 >>> 29) &&& 0x7 }
  if (t.fmt = FMT_3DW_DATA ∨ t.fmt = FMT_4DW_DATA) ∧ t.length = 0 then { t with length := 1024 }
  else t

/-- `tb/pcie.py` lines 663-666, the payload slice of `TLP.unpack`. -/
def Tlp.unpackData (t : Tlp) (pkt : List Nat) : Tlp :=
  if t.fmt = FMT_3DW_DATA then { t with data := pkt.drop 3 }
  else if t.fmt = FMT_4DW_DATA then { t with data := pkt.drop 4 }
  else t

/-- `tb/pcie.py` lines 635-638, the fields `TLP.unpack` takes from DWORD 1 of a request. -/
def Tlp.unpackReqDw1 (t : Tlp) (p1 : Nat) : Tlp :=
  { t with
    first_be := p1 &&& 0xf
    last_be := (p1 >>> 4) &&& 0xf
    tag := (p1 >>> 8) &&& 0xff
    requester_id := PcieId.fromInt (p1 >>> 16) }

/-- `tb/pcie.py` lines 650-659, the fields `TLP.unpack` takes from a completion header. -/
def Tlp.unpackCpl (t : Tlp) (p1 p2 : Nat) : Tlp :=
  let bc := p1 &&& 0xfff
  { t with
    byte_count := if bc = 0 then 4096 else bc
    bcm := (p1 >>> 12) &&& 1
    status := (p1 >>> 13) &&& 0x7
    completer_id := PcieId.fromInt (p1 >>> 16)
    lower_address := p2 &&& 0x7f
    tag := (p2 >>> 8) &&& 0xff
    requester_id := PcieId.fromInt (p2 >>> 16) }

/-- `tb/pcie.py` lines 612-668, `TLP.unpack`, on an existing TLP `t`. Index errors and the
unknown type exception are `none`. Kept as written: line 642 shifts by `0x3ff` instead of
masking; line 645 reads `pkt[3]`; line 647 reads `pkt[4]` twice. -/
def Tlp.unpack (t : Tlp) (pkt : List Nat) : Option Tlp := do
  let p0 ← pkt[0]?
  let t := t.unpackDw0 p0
  if isRequest t.fmt_type then
    let p1 ← pkt[1]?
    let t := t.unpackReqDw1 p1
    if isCfg t.fmt_type then
      let p2 ← pkt[2]?
      pure (Tlp.unpackData { t with
        register_number := (p2 >>> 2) >>> 0x3ff
        dest_id := PcieId.fromInt (p2 >>> 16) } pkt)
    else if t.fmt = FMT_3DW ∨ t.fmt = FMT_3DW_DATA then
      let p3 ← pkt[3]?
      pure (Tlp.unpackData { t with address := p3 &&& 0xfffffffc } pkt)
    else if t.fmt = FMT_4DW ∨ t.fmt = FMT_4DW_DATA then
      let p4 ← pkt[4]?
      pure (Tlp.unpackData { t with
        address := ((p4 &&& 0xffffffff) <<< 32) ||| (p4 &&& 0xfffffffc) } pkt)
    else pure (t.unpackData pkt)
  else if isCompletion t.fmt_type then
    let p1 ← pkt[1]?
    let p2 ← pkt[2]?
    pure (Tlp.unpackData (t.unpackCpl p1 p2) pkt)
  else none

/-- `tb/pcie.py` lines 670-695, `TLP.__eq__` (the attribute `th` is not compared). -/
def Tlp.pyEq (a b : Tlp) : Prop := { a with th := 0 } = { b with th := 0 }

instance (a b : Tlp) : Decidable (a.pyEq b) := inferInstanceAs (Decidable (_ = _))

end Verif.Model
