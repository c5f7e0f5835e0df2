import Verif.Model.Tlp
/-!
Specification of TLP header layout (PCI Express Base Specification, 2.2.1, 2.2.4, 2.2.9) and of
which TLPs are well formed. The `Tlp` record of the model is used only as a tuple of field values.
-/
namespace Verif.Spec
open Verif.Model

/-- Bits `hi..lo` of a DWORD. -/
def bits (dw hi lo : Nat) : Nat := dw / 2 ^ lo % 2 ^ (hi + 1 - lo)

/-- An ID with in-range bus, device and function numbers. -/
def WfId (i : PcieId) : Prop := i.bus < 256 ∧ i.device < 32 ∧ i.function < 8

/-- Common header fields in their architectural ranges; for formats with data the length field
equals the payload length and lies in 1..1024 (1024 is encoded as 0), otherwise there is no
payload and the length is below 1024. -/
def WfCommon (t : Tlp) : Prop :=
  t.tc < 8 ∧ t.th < 2 ∧ t.td < 2 ∧ t.ep < 2 ∧ t.attr < 8 ∧ t.at_ < 4 ∧
  (if t.fmt = 2 ∨ t.fmt = 3 then t.length = t.data.length ∧ 1 ≤ t.length ∧ t.length ≤ 1024
   else t.length < 1024 ∧ t.data = [])

/-- A well-formed completion; the fields that completions do not have are left at 0. -/
structure WfCompletion (t : Tlp) : Prop where
  kind : (t.fmt = 0 ∨ t.fmt = 2) ∧ (t.type = 0x0A ∨ t.type = 0x0B)
  common : WfCommon t
  completer : WfId t.completer_id
  requester : WfId t.requester_id
  status : t.status < 8
  bcm : t.bcm < 2
  byte_count : 1 ≤ t.byte_count ∧ t.byte_count ≤ 4096
  lower_address : t.lower_address < 128
  tag : t.tag < 256
  unused : t.first_be = 0 ∧ t.last_be = 0 ∧ t.address = 0 ∧ t.register_number = 0 ∧
    t.dest_id = ⟨0, 0, 0⟩

/-- The fields shared by all requests. -/
structure WfRequest (t : Tlp) : Prop where
  common : WfCommon t
  requester : WfId t.requester_id
  tag : t.tag < 256
  first_be : t.first_be < 16
  last_be : t.last_be < 16
  unused : t.completer_id = ⟨0, 0, 0⟩ ∧ t.status = 0 ∧ t.bcm = 0 ∧ t.byte_count = 0 ∧
    t.lower_address = 0

/-- A well-formed configuration request (type 0 or 1, read or write). -/
structure WfCfgRequest (t : Tlp) : Prop extends WfRequest t where
  kind : (t.fmt = 0 ∨ t.fmt = 2) ∧ (t.type = 4 ∨ t.type = 5)
  register : t.register_number < 1024
  dest : WfId t.dest_id
  unused' : t.address = 0

/-- A well-formed memory or IO request: 3DW with a 32-bit address or 4DW with a 64-bit address
(memory only). -/
structure WfAddrRequest (t : Tlp) : Prop extends WfRequest t where
  kind : (t.type = 0 ∧ t.fmt < 4) ∨ (t.type = 1 ∧ t.fmt < 2) ∨ (t.type = 2 ∧ (t.fmt = 0 ∨ t.fmt = 2))
  aligned : 4 ∣ t.address
  range : t.address < (if t.fmt = 0 ∨ t.fmt = 2 then 2 ^ 32 else 2 ^ 64)
  unused' : t.register_number = 0 ∧ t.dest_id = ⟨0, 0, 0⟩

/-- The 16-bit encoding of an ID. -/
def idBits (i : PcieId) : Nat := i.bus * 256 + i.device * 8 + i.function

/-- Layout of header DWORD 0. -/
def Dw0Layout (t : Tlp) (dw : Nat) : Prop :=
  dw < 2 ^ 32 ∧ bits dw 31 29 = t.fmt ∧ bits dw 28 24 = t.type ∧ bits dw 22 20 = t.tc ∧
  bits dw 18 18 = t.attr / 4 ∧ bits dw 16 16 = t.th ∧ bits dw 15 15 = t.td ∧
  bits dw 14 14 = t.ep ∧ bits dw 13 12 = t.attr % 4 ∧ bits dw 11 10 = t.at_ ∧
  bits dw 9 0 = t.length % 1024

/-- Layout of header DWORD 1 of a request. -/
def ReqDw1Layout (t : Tlp) (dw : Nat) : Prop :=
  dw < 2 ^ 32 ∧ bits dw 31 16 = idBits t.requester_id ∧ bits dw 15 8 = t.tag ∧
  bits dw 7 4 = t.last_be ∧ bits dw 3 0 = t.first_be

/-- Layout of DWORDs 1 and 2 of a completion. -/
def CplLayout (t : Tlp) (d1 d2 : Nat) : Prop :=
  d1 < 2 ^ 32 ∧ d2 < 2 ^ 32 ∧ bits d1 31 16 = idBits t.completer_id ∧ bits d1 15 13 = t.status ∧
  bits d1 12 12 = t.bcm ∧ bits d1 11 0 = t.byte_count % 4096 ∧
  bits d2 31 16 = idBits t.requester_id ∧ bits d2 15 8 = t.tag ∧ bits d2 7 7 = 0 ∧
  bits d2 6 0 = t.lower_address

end Verif.Spec
