import Verif.Model.Tlp
/-!
Model of the UltraScale descriptor code in `tb/pcie_us.py` (lines 59-591) and of the parity code in
`tb/pcie_if.py` (lines 76-101, 170-180). Exceptions and failed assertions are `none`.
Not modelled: `__repr__` and the stream sources and sinks that move frames over AXI stream.
-/
namespace Verif.Model

/-- `tb/pcie_us.py` lines 32-47, request type codes of the CQ and RQ descriptors. -/
abbrev REQ_MEM_READ : Nat := 0
abbrev REQ_MEM_WRITE : Nat := 1
abbrev REQ_IO_READ : Nat := 2
abbrev REQ_IO_WRITE : Nat := 3
abbrev REQ_MEM_FETCH_ADD : Nat := 4
abbrev REQ_MEM_SWAP : Nat := 5
abbrev REQ_MEM_CAS : Nat := 6
abbrev REQ_MEM_READ_LOCKED : Nat := 7
abbrev REQ_CFG_READ_0 : Nat := 8
abbrev REQ_CFG_READ_1 : Nat := 9
abbrev REQ_CFG_WRITE_0 : Nat := 10
abbrev REQ_CFG_WRITE_1 : Nat := 11

/-- `tb/pcie_us.py` lines 60-62 and `tb/pcie_if.py` lines 77-79 and 91-93: the three folding
steps `d ^= d >> 4; d ^= d >> 2; d ^= d >> 1`. -/
def parityFold (d : Nat) : Nat :=
  let d := d ^^^ (d >>> 4)
  let d := d ^^^ (d >>> 2)
  d ^^^ (d >>> 1)

/-- `tb/pcie_us.py` lines 59-67, `dword_parity`. -/
def dwordParity (d : Nat) : Nat :=
  let d := parityFold d
  let p := d &&& 0x1
  let p := p ||| ((d &&& 0x100) >>> 7)
  let p := p ||| ((d &&& 0x10000) >>> 14)
  p ||| ((d &&& 0x1000000) >>> 21)

/-- `tb/pcie_if.py` lines 76-87, `dword_parity`. -/
def dwordParityIf (d : Nat) : Nat :=
  let d := parityFold d
  let p := d &&& 0x1
  let p := if d &&& 0x100 ≠ 0 then p ||| 0x2 else p
  let p := if d &&& 0x10000 ≠ 0 then p ||| 0x4 else p
  if d &&& 0x1000000 ≠ 0 then p ||| 0x8 else p

/-- `tb/pcie_if.py` lines 96-100, the `while d` loop of `parity` with `b = 1 << k`. -/
def parityLoop (d k p : Nat) : Nat :=
  if d = 0 then p
  else parityLoop (d >>> 8) (k + 1) (if d &&& 0x1 ≠ 0 then p ||| (1 <<< k) else p)
termination_by d
decreasing_by rw [Nat.shiftRight_eq_div_pow]; omega

/-- `tb/pcie_if.py` lines 90-101, `parity`. -/
def parityIf (d : Nat) : Nat := parityLoop (parityFold d) 0 0

/-- `tb/pcie_if.py` lines 104-131, the attributes of `PcieIfFrame` that parity covers. -/
structure IfFrame where
  tlp_prfx : Nat := 0
  hdr : Nat := 0
  data : List Nat := []
  tlp_prfx_par : Nat := 0
  hdr_par : Nat := 0
  parity : List Nat := []
deriving DecidableEq, Repr, Inhabited

/-- `tb/pcie_if.py` lines 170-173, `PcieIfFrame.update_parity`. -/
def IfFrame.updateParity (f : IfFrame) : IfFrame :=
  { f with
    parity := f.data.map fun d => dwordParityIf d ^^^ 0xf
    hdr_par := parityIf f.hdr
    tlp_prfx_par := dwordParityIf f.tlp_prfx }

/-- `tb/pcie_if.py` lines 175-180, `PcieIfFrame.check_parity`. -/
def IfFrame.checkParity (f : IfFrame) : Bool :=
  decide (f.parity = f.data.map fun d => dwordParityIf d ^^^ 0xf) &&
  decide (f.hdr_par = parityIf f.hdr) && decide (f.tlp_prfx_par = dwordParityIf f.tlp_prfx)

/-- `tb/pcie_us.py` lines 70-78, attributes of `USPcieFrame`. -/
structure UsFrame where
  data : List Nat := []
  byte_en : List Nat := []
  parity : List Nat := []
  first_be : Nat := 0
  last_be : Nat := 0
  discontinue : Bool := false
  seq_num : Nat := 0
deriving DecidableEq, Repr, Inhabited

/-- `tb/pcie_us.py` lines 89-90, `USPcieFrame.update_parity`. -/
def UsFrame.updateParity (f : UsFrame) : UsFrame :=
  { f with parity := f.data.map fun d => dwordParity d ^^^ 0xf }

/-- `tb/pcie_us.py` lines 92-93, `USPcieFrame.check_parity`. -/
def UsFrame.checkParity (f : UsFrame) : Bool :=
  decide (f.parity = f.data.map fun d => dwordParity d ^^^ 0xf)

/-- `tb/pcie_us.py` lines 120-129, attributes of `TLP_us`. -/
structure TlpUs extends Tlp where
  bar_id : Nat := 0
  bar_aperture : Nat := 0
  completer_id_enable : Bool := false
  requester_id_enable : Bool := false
  discontinue : Bool := false
  seq_num : Nat := 0
  error_code : Nat := 0
deriving DecidableEq, Repr, Inhabited

/-- `tb/pcie_us.py` lines 143-145 and 349-351: the request types with an address. -/
def isAddrReq (ft : Nat × Nat) : Bool :=
  ft = TLP_IO_READ || ft = TLP_IO_WRITE || ft = TLP_MEM_READ || ft = TLP_MEM_READ_64 ||
  ft = TLP_MEM_WRITE || ft = TLP_MEM_WRITE_64

/-- `tb/pcie_us.py` lines 346-347: the configuration request types. -/
def isCfgReq (ft : Nat × Nat) : Bool :=
  ft = TLP_CFG_READ_0 || ft = TLP_CFG_READ_1 || ft = TLP_CFG_WRITE_0 || ft = TLP_CFG_WRITE_1

/-- `tb/pcie_us.py` lines 274-275 and 487-488: the completion types. -/
def isCpl (ft : Nat × Nat) : Bool :=
  ft = TLP_CPL || ft = TLP_CPL_DATA || ft = TLP_CPL_LOCKED || ft = TLP_CPL_LOCKED_DATA

/-- `tb/pcie_us.py` lines 153-168 and 363-386: request type code of a TLP type. -/
def reqCode (ft : Nat × Nat) : Nat :=
  if ft = TLP_MEM_READ ∨ ft = TLP_MEM_READ_64 then REQ_MEM_READ
  else if ft = TLP_MEM_WRITE ∨ ft = TLP_MEM_WRITE_64 then REQ_MEM_WRITE
  else if ft = TLP_IO_READ then REQ_IO_READ
  else if ft = TLP_IO_WRITE then REQ_IO_WRITE
  else if ft = TLP_FETCH_ADD ∨ ft = TLP_FETCH_ADD_64 then REQ_MEM_FETCH_ADD
  else if ft = TLP_SWAP ∨ ft = TLP_SWAP_64 then REQ_MEM_SWAP
  else if ft = TLP_CAS ∨ ft = TLP_CAS_64 then REQ_MEM_CAS
  else if ft = TLP_MEM_READ_LOCKED ∨ ft = TLP_MEM_READ_LOCKED_64 then REQ_MEM_READ_LOCKED
  else if ft = TLP_CFG_READ_0 then REQ_CFG_READ_0
  else if ft = TLP_CFG_READ_1 then REQ_CFG_READ_1
  else if ft = TLP_CFG_WRITE_0 then REQ_CFG_WRITE_0
  else if ft = TLP_CFG_WRITE_1 then REQ_CFG_WRITE_1
  else 0

/-- `tb/pcie_us.py` lines 207-224 and 418-443: TLP type of a request type code. The configuration
codes are accepted by `unpack_us_rq` only. -/
def reqType (cfg : Bool) (code : Nat) : Option (Nat × Nat) :=
  if code = REQ_MEM_READ then some TLP_MEM_READ
  else if code = REQ_MEM_WRITE then some TLP_MEM_WRITE
  else if code = REQ_IO_READ then some TLP_IO_READ
  else if code = REQ_IO_WRITE then some TLP_IO_WRITE
  else if code = REQ_MEM_FETCH_ADD then some TLP_FETCH_ADD
  else if code = REQ_MEM_SWAP then some TLP_SWAP
  else if code = REQ_MEM_CAS then some TLP_CAS
  else if code = REQ_MEM_READ_LOCKED then some TLP_MEM_READ_LOCKED
  else if cfg && code = REQ_CFG_READ_0 then some TLP_CFG_READ_0
  else if cfg && code = REQ_CFG_READ_1 then some TLP_CFG_READ_1
  else if cfg && code = REQ_CFG_WRITE_0 then some TLP_CFG_WRITE_0
  else if cfg && code = REQ_CFG_WRITE_1 then some TLP_CFG_WRITE_1
  else none

/-- `tb/pcie_us.py` lines 190-195, 255-260, 526-531, 577-582: byte enables of the payload DWORDs. -/
def payloadBe (n first last : Nat) : List Nat :=
  (if n ≥ 1 then [first] else []) ++ (if n > 2 then List.replicate (n - 2) 0xf else []) ++
  (if n > 1 then [last] else [])

/-- `tb/pcie_us.py` lines 147-151 and 352-356: first two descriptor DWORDs of an address request. -/
def TlpUs.addrDw (t : TlpUs) : List Nat :=
  [(t.at_ &&& 0x3) ||| (t.address &&& 0xfffffffc), (t.address &&& 0xffffffff00000000) >>> 32]

/-- `tb/pcie_us.py` lines 152-170, 362-389: third descriptor DWORD of a request. -/
def TlpUs.reqDw2 (t : TlpUs) : Nat :=
  (t.length &&& 0x7ff) ||| (reqCode t.fmt_type <<< 11) ||| (t.requester_id.toInt <<< 16)

/-- `tb/pcie_us.py` lines 171-177: fourth descriptor DWORD of a completer request. -/
def TlpUs.cqDw3 (t : TlpUs) : Nat :=
  (t.tag &&& 0xff) ||| ((t.completer_id.function &&& 0xff) <<< 8) ||| ((t.bar_id &&& 0x7) <<< 16) |||
  ((t.bar_aperture &&& 0x3f) <<< 19) ||| ((t.tc &&& 0x7) <<< 25) ||| ((t.attr &&& 0x7) <<< 28)

/-- `tb/pcie_us.py` lines 140-202, `pack_us_cq`. -/
def TlpUs.packCq (t : TlpUs) : Option UsFrame :=
  if isAddrReq t.fmt_type then
    let pkt : UsFrame :=
      { data := t.addrDw ++ [t.reqDw2, t.cqDw3] ++ t.data
        first_be := t.first_be
        last_be := t.last_be
        discontinue := t.discontinue
        byte_en := [0, 0, 0, 0] ++ payloadBe t.data.length t.first_be t.last_be }
    some pkt.updateParity
  else none

/-- `tb/pcie_us.py` lines 236-240 and 457-461: 64-bit formats for addresses above 4 GB. -/
def fmtFor (fmt address : Nat) : Nat :=
  if address > 0xffffffff then
    if fmt = FMT_3DW then FMT_4DW else if fmt = FMT_3DW_DATA then FMT_4DW_DATA else fmt
  else fmt

/-- `tb/pcie_us.py` lines 204-269, `unpack_us_cq`. Codes with bit 3 set are rejected by the type
table, so the branch `req_type & 8 == 0` is always taken. -/
def TlpUs.unpackCq (u : TlpUs) (pkt : UsFrame) (check : Bool) : Option TlpUs := do
  let dw2 ← pkt.data[2]?
  let ft ← reqType false ((dw2 >>> 11) &&& 0xf)
  let dw3 ← pkt.data[3]?
  let dw0 ← pkt.data[0]?
  let dw1 ← pkt.data[1]?
  let address := (dw1 <<< 32) ||| (dw0 &&& 0xfffffffc)
  let data := pkt.data.drop 4
  let byteEn := [0, 0, 0, 0] ++ payloadBe data.length pkt.first_be pkt.last_be
  if byteEn ≠ pkt.byte_en then none
  else if check && !pkt.checkParity then none
  else some { u with
    fmt := fmtFor ft.1 address
    type := ft.2
    length := dw2 &&& 0x7ff
    requester_id := PcieId.fromInt (dw2 >>> 16)
    tag := dw3 &&& 0xff
    tc := (dw3 >>> 25) &&& 0x7
    attr := (dw3 >>> 28) &&& 0x7
    at_ := dw0 &&& 3
    address := address
    completer_id := ⟨0, 0, (dw3 >>> 8) &&& 0xff⟩
    bar_id := (dw3 >>> 16) &&& 7
    bar_aperture := (dw3 >>> 19) &&& 0x3f
    first_be := pkt.first_be
    last_be := pkt.last_be
    discontinue := pkt.discontinue
    data := data }

/-- `tb/pcie_us.py` lines 277-284: first descriptor DWORD of a completer completion. -/
def TlpUs.ccDw0 (t : TlpUs) : Nat :=
  (t.lower_address &&& 0x7f) ||| ((t.at_ &&& 3) <<< 8) ||| ((t.byte_count &&& 0x1fff) <<< 16) |||
  (if t.fmt_type = TLP_CPL_LOCKED ∨ t.fmt_type = TLP_CPL_LOCKED_DATA then 1 <<< 29 else 0)

/-- `tb/pcie_us.py` lines 285-289, 497-501: second descriptor DWORD of a completion. -/
def TlpUs.cplDw1 (t : TlpUs) : Nat :=
  (t.length &&& 0x7ff) ||| ((t.status &&& 0x7) <<< 11) ||| (t.requester_id.toInt <<< 16)

/-- `tb/pcie_us.py` lines 290-295: third descriptor DWORD of a completer completion, and lines
390-396: fourth descriptor DWORD of a requester request, with the enable bit as argument;
lines 502-506, the same without an enable bit. -/
def TlpUs.idDw (t : TlpUs) (enable : Bool) : Nat :=
  (t.tag &&& 0xff) ||| (t.completer_id.toInt <<< 8) ||| (if enable then 1 <<< 24 else 0) |||
  ((t.tc &&& 0x7) <<< 25) ||| ((t.attr &&& 0x7) <<< 28)

/-- `tb/pcie_us.py` lines 271-307, `pack_us_cc`. -/
def TlpUs.packCc (t : TlpUs) : Option UsFrame :=
  if isCpl t.fmt_type then
    let pkt : UsFrame :=
      { data := [t.ccDw0, t.cplDw1, t.idDw t.completer_id_enable] ++ t.data
        discontinue := t.discontinue }
    some pkt.updateParity
  else none

/-- `tb/pcie_us.py` lines 310, 315-316, 319-320 (and 541, 546-547, 550-551): format and type of an
unpacked completion. -/
def cplType (dw0 length : Nat) : Nat × Nat :=
  let ft := if dw0 &&& (1 <<< 29) ≠ 0 then TLP_CPL_LOCKED else TLP_CPL
  (if length > 0 then FMT_3DW_DATA else ft.1, ft.2)

/-- `tb/pcie_us.py` lines 309-338, `unpack_us_cc`. -/
def TlpUs.unpackCc (u : TlpUs) (pkt : UsFrame) (check : Bool) : Option TlpUs := do
  let dw0 ← pkt.data[0]?
  let dw1 ← pkt.data[1]?
  let dw2 ← pkt.data[2]?
  let length := dw1 &&& 0x7ff
  if check && !pkt.checkParity then none
  else some { u with
    fmt := (cplType dw0 length).1
    type := (cplType dw0 length).2
    lower_address := dw0 &&& 0x7f
    at_ := (dw0 >>> 8) &&& 3
    byte_count := (dw0 >>> 16) &&& 0x1fff
    length := length
    status := (dw1 >>> 11) &&& 7
    requester_id := PcieId.fromInt (dw1 >>> 16)
    completer_id := PcieId.fromInt (dw2 >>> 8)
    completer_id_enable := decide ((dw2 >>> 24) &&& 1 ≠ 0)
    tag := dw2 &&& 0xff
    tc := (dw2 >>> 25) &&& 0x7
    attr := (dw2 >>> 28) &&& 0x7
    discontinue := pkt.discontinue
    data := if length > 0 then (pkt.data.drop 3).take length else u.data }

/-- `tb/pcie_us.py` lines 340-413, `pack_us_rq`. -/
def TlpUs.packRq (t : TlpUs) : Option UsFrame :=
  if isAddrReq t.fmt_type || isCfgReq t.fmt_type then
    let pkt : UsFrame :=
      { data := (if isAddrReq t.fmt_type then t.addrDw
            else [(t.register_number &&& 0x3ff) <<< 2, 0]) ++
          [t.reqDw2, t.idDw t.requester_id_enable] ++ t.data
        first_be := t.first_be
        last_be := t.last_be
        discontinue := t.discontinue
        seq_num := t.seq_num }
    some pkt.updateParity
  else none

/-- `tb/pcie_us.py` lines 415-482, `unpack_us_rq`. -/
def TlpUs.unpackRq (u : TlpUs) (pkt : UsFrame) (check : Bool) : Option TlpUs := do
  let dw2 ← pkt.data[2]?
  let code := (dw2 >>> 11) &&& 0xf
  let ft ← reqType true code
  let dw3 ← pkt.data[3]?
  let dw0 ← pkt.data[0]?
  let dw1 ← pkt.data[1]?
  let address := (dw1 <<< 32) ||| (dw0 &&& 0xfffffffc)
  if check && !pkt.checkParity then none
  else some { u with
    fmt := if code < 8 then fmtFor ft.1 address else ft.1
    type := ft.2
    length := dw2 &&& 0x7ff
    requester_id := PcieId.fromInt (dw2 >>> 16)
    tag := dw3 &&& 0xff
    tc := (dw3 >>> 25) &&& 0x7
    attr := (dw3 >>> 28) &&& 0x7
    at_ := if code < 8 then dw0 &&& 3 else u.at_
    address := if code < 8 then address else u.address
    register_number := if code < 8 then u.register_number else (dw0 >>> 2) &&& 0x3ff
    completer_id := PcieId.fromInt (dw3 >>> 8)
    requester_id_enable := decide ((dw3 >>> 24) &&& 1 ≠ 0)
    first_be := pkt.first_be
    last_be := pkt.last_be
    discontinue := pkt.discontinue
    seq_num := pkt.seq_num
    data := pkt.data.drop 4 }

/-- `tb/pcie_us.py` lines 490-496: first descriptor DWORD of a requester completion. -/
def TlpUs.rcDw0 (t : TlpUs) : Nat :=
  (t.lower_address &&& 0xfff) ||| ((t.error_code &&& 0xf) <<< 12) |||
  ((t.byte_count &&& 0x1fff) <<< 16) |||
  (if t.fmt_type = TLP_CPL_LOCKED ∨ t.fmt_type = TLP_CPL_LOCKED_DATA then 1 <<< 29 else 0)

/-- `tb/pcie_us.py` lines 514-531 and 565-582: byte enables of a completion, from its lower address,
byte count, length field and number of payload DWORDs. `(4 - byte_count - lower_address) & 3` is an
integer expression that may be negative. -/
def cplBe (lower_address byte_count length n : Nat) : List Nat :=
  let first := (0xf <<< (lower_address &&& 3)) &&& 0xf
  let last := if byte_count + (lower_address &&& 3) > length * 4 then 0xf
    else 0xf >>> (((4 : Int) - byte_count - lower_address) % 4).toNat
  [0, 0, 0] ++ (if n = 1 then payloadBe n (first &&& last) 0 else payloadBe n first last)

/-- `tb/pcie_us.py` lines 484-538, `pack_us_rc`. -/
def TlpUs.packRc (t : TlpUs) : Option UsFrame :=
  if isCpl t.fmt_type then
    let pkt : UsFrame :=
      { data := [t.rcDw0, t.cplDw1, t.idDw false] ++ t.data
        discontinue := t.discontinue
        byte_en := cplBe t.lower_address t.byte_count t.length t.data.length }
    some pkt.updateParity
  else none

/-- `tb/pcie_us.py` lines 540-591, `unpack_us_rc`. -/
def TlpUs.unpackRc (u : TlpUs) (pkt : UsFrame) (check : Bool) : Option TlpUs := do
  let dw0 ← pkt.data[0]?
  let dw1 ← pkt.data[1]?
  let dw2 ← pkt.data[2]?
  let lower_address := dw0 &&& 0xfff
  let byte_count := (dw0 >>> 16) &&& 0x1fff
  let length := dw1 &&& 0x7ff
  let data := if length > 0 then (pkt.data.drop 3).take length else u.data
  if cplBe lower_address byte_count length data.length ≠ pkt.byte_en then none
  else if check && !pkt.checkParity then none
  else some { u with
    fmt := (cplType dw0 length).1
    type := (cplType dw0 length).2
    lower_address := lower_address
    error_code := (dw0 >>> 12) &&& 0xf
    byte_count := byte_count
    length := length
    status := (dw1 >>> 11) &&& 7
    requester_id := PcieId.fromInt (dw1 >>> 16)
    completer_id := PcieId.fromInt (dw2 >>> 8)
    tag := dw2 &&& 0xff
    tc := (dw2 >>> 25) &&& 0x7
    attr := (dw2 >>> 28) &&& 0x7
    discontinue := pkt.discontinue
    data := data }

end Verif.Model
