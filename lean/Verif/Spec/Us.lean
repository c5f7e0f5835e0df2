import Verif.Model.Us
import Verif.Spec.Header
/-!
Specification for byte parity (C26) and for the UltraScale descriptors (C29): the fields each
descriptor carries, their bit positions (Xilinx PG156/PG213), and which TLPs are well formed.
`TlpUs` is used only as a tuple of field values.
-/
namespace Verif.Spec
open Verif.Model

/-- XOR of the eight bits of byte `k` of `d`. -/
def byteParity (d k : Nat) : Bool :=
  (List.range 8).foldl (fun b i => Bool.xor b (d.testBit (8 * k + i))) false

/-- Ranges of the fields that every descriptor carries. -/
structure UsCommon (t : TlpUs) : Prop where
  tc : t.tc < 8
  attr : t.attr < 8
  at_ : t.at_ < 4
  length : t.length < 2048
  requester : WfId t.requester_id
  tag : t.tag < 256
  dwords : ∀ d ∈ t.data, d < 2 ^ 32

/-- A memory or IO request: 32-bit format below 4 GB, 64-bit format above (PCIe 2.2.4.1). -/
structure UsAddr (t : TlpUs) : Prop where
  kind : (t.type = 0 ∧ t.fmt < 4) ∨ (t.type = 2 ∧ (t.fmt = 0 ∨ t.fmt = 2))
  aligned : 4 ∣ t.address
  range : t.address < 2 ^ 64
  format : (t.fmt = 1 ∨ t.fmt = 3) ↔ 2 ^ 32 ≤ t.address

/-- A completer request. -/
structure WfCq (t : TlpUs) : Prop extends UsCommon t, UsAddr t where
  function : t.completer_id.function < 256
  bar_id : t.bar_id < 8
  bar_aperture : t.bar_aperture < 64

/-- A configuration request. -/
structure UsCfg (t : TlpUs) : Prop where
  kind : (t.fmt = 0 ∨ t.fmt = 2) ∧ (t.type = 4 ∨ t.type = 5)
  register : t.register_number < 1024

/-- A requester request. -/
structure WfRq (t : TlpUs) : Prop extends UsCommon t where
  kind : UsAddr t ∨ UsCfg t
  completer : WfId t.completer_id

/-- A completion: with data exactly when the length field is non-zero. -/
structure WfCpl (t : TlpUs) : Prop extends UsCommon t where
  kind : (t.fmt = 0 ∧ t.length = 0 ∨ t.fmt = 2 ∧ 0 < t.length) ∧ (t.type = 0x0A ∨ t.type = 0x0B)
  payload : t.data.length = t.length
  completer : WfId t.completer_id
  status : t.status < 8
  byte_count : t.byte_count < 8192

/-- The part of a TLP that a completer request frame carries. -/
def carriedCq (t : TlpUs) : TlpUs :=
  { fmt := t.fmt, type := t.type, tc := t.tc, attr := t.attr, at_ := t.at_, length := t.length,
    requester_id := t.requester_id, completer_id := ⟨0, 0, t.completer_id.function⟩,
    tag := t.tag, first_be := t.first_be, last_be := t.last_be, address := t.address,
    data := t.data, bar_id := t.bar_id, bar_aperture := t.bar_aperture,
    discontinue := t.discontinue }

/-- The part of a TLP that a requester request frame carries: an address request has address and
address type, a configuration request its register number. -/
def carriedRq (t : TlpUs) : TlpUs :=
  { fmt := t.fmt, type := t.type, tc := t.tc, attr := t.attr, length := t.length,
    requester_id := t.requester_id, completer_id := t.completer_id,
    requester_id_enable := t.requester_id_enable,
    tag := t.tag, first_be := t.first_be, last_be := t.last_be,
    at_ := if t.type = 0 ∨ t.type = 2 then t.at_ else 0,
    address := if t.type = 0 ∨ t.type = 2 then t.address else 0,
    register_number := if t.type = 0 ∨ t.type = 2 then 0 else t.register_number,
    data := t.data, discontinue := t.discontinue, seq_num := t.seq_num }

/-- The part of a TLP that a completer completion frame carries. -/
def carriedCc (t : TlpUs) : TlpUs :=
  { fmt := t.fmt, type := t.type, tc := t.tc, attr := t.attr, at_ := t.at_, length := t.length,
    requester_id := t.requester_id, completer_id := t.completer_id,
    completer_id_enable := t.completer_id_enable, tag := t.tag, status := t.status,
    byte_count := t.byte_count, lower_address := t.lower_address, data := t.data,
    discontinue := t.discontinue }

/-- The part of a TLP that a requester completion frame carries. -/
def carriedRc (t : TlpUs) : TlpUs :=
  { fmt := t.fmt, type := t.type, tc := t.tc, attr := t.attr, length := t.length,
    requester_id := t.requester_id, completer_id := t.completer_id, tag := t.tag,
    status := t.status, byte_count := t.byte_count, lower_address := t.lower_address,
    data := t.data, discontinue := t.discontinue, error_code := t.error_code }

/-- Request type code of the descriptor: memory read, memory write, IO read, IO write,
configuration read type 0 and 1, configuration write type 0 and 1. -/
def reqTypeCode (t : TlpUs) : Nat :=
  match t.type, decide (t.fmt = 2 ∨ t.fmt = 3) with
  | 0, false => 0 | 0, true => 1 | 2, false => 2 | 2, true => 3
  | 4, false => 8 | 5, false => 9 | 4, true => 10 | _, _ => 11

/-- Completer request descriptor layout. -/
def CqLayout (t : TlpUs) (d0 d1 d2 d3 : Nat) : Prop :=
  bits d0 1 0 = t.at_ ∧ bits d0 31 2 * 4 + d1 * 2 ^ 32 = t.address ∧
  bits d2 10 0 = t.length ∧ bits d2 14 11 = reqTypeCode t ∧ bits d2 15 15 = 0 ∧
  bits d2 31 16 = idBits t.requester_id ∧
  bits d3 7 0 = t.tag ∧ bits d3 15 8 = t.completer_id.function ∧ bits d3 18 16 = t.bar_id ∧
  bits d3 24 19 = t.bar_aperture ∧ bits d3 27 25 = t.tc ∧ bits d3 30 28 = t.attr ∧
  d0 < 2 ^ 32 ∧ d1 < 2 ^ 32 ∧ d2 < 2 ^ 32 ∧ d3 < 2 ^ 32

/-- Requester request descriptor layout. -/
def RqLayout (t : TlpUs) (d0 d1 d2 d3 : Nat) : Prop :=
  (if t.type = 0 ∨ t.type = 2 then
    bits d0 1 0 = t.at_ ∧ bits d0 31 2 * 4 + d1 * 2 ^ 32 = t.address
   else d0 = t.register_number * 4 ∧ d1 = 0) ∧
  bits d2 10 0 = t.length ∧ bits d2 14 11 = reqTypeCode t ∧ bits d2 15 15 = 0 ∧
  bits d2 31 16 = idBits t.requester_id ∧
  bits d3 7 0 = t.tag ∧ bits d3 23 8 = idBits t.completer_id ∧
  bits d3 24 24 = t.requester_id_enable.toNat ∧ bits d3 27 25 = t.tc ∧ bits d3 30 28 = t.attr ∧
  d0 < 2 ^ 32 ∧ d1 < 2 ^ 32 ∧ d2 < 2 ^ 32 ∧ d3 < 2 ^ 32

/-- Second and third DWORD of both completion descriptors. -/
def CplLayoutUs (t : TlpUs) (enable : Bool) (d1 d2 : Nat) : Prop :=
  bits d1 10 0 = t.length ∧ bits d1 13 11 = t.status ∧ bits d1 15 14 = 0 ∧
  bits d1 31 16 = idBits t.requester_id ∧
  bits d2 7 0 = t.tag ∧ bits d2 23 8 = idBits t.completer_id ∧ bits d2 24 24 = enable.toNat ∧
  bits d2 27 25 = t.tc ∧ bits d2 30 28 = t.attr ∧ d1 < 2 ^ 32 ∧ d2 < 2 ^ 32

/-- First DWORD of the completer completion descriptor. -/
def CcLayout (t : TlpUs) (d0 : Nat) : Prop :=
  bits d0 6 0 = t.lower_address ∧ bits d0 7 7 = 0 ∧ bits d0 9 8 = t.at_ ∧ bits d0 15 10 = 0 ∧
  bits d0 28 16 = t.byte_count ∧ bits d0 29 29 = (if t.type = 0x0B then 1 else 0) ∧
  bits d0 31 30 = 0 ∧ d0 < 2 ^ 32

/-- First DWORD of the requester completion descriptor. -/
def RcLayout (t : TlpUs) (d0 : Nat) : Prop :=
  bits d0 11 0 = t.lower_address ∧ bits d0 15 12 = t.error_code ∧
  bits d0 28 16 = t.byte_count ∧ bits d0 29 29 = (if t.type = 0x0B then 1 else 0) ∧
  bits d0 31 30 = 0 ∧ d0 < 2 ^ 32

end Verif.Spec

namespace Verif.Spec
open Verif.Model

/-- `y` is `x` with one of its low `w` bits flipped. -/
def BitFlip (w x y : Nat) : Prop := ∃ j, j < w ∧ y = x ^^^ 2 ^ j

/-- `ys` is `xs` with one bit flipped in one element. -/
def ListFlip (w : Nat) (xs ys : List Nat) : Prop :=
  ∃ (i : Nat) (h : i < xs.length) (y : Nat), BitFlip w xs[i] y ∧ ys = xs.set i y

/-- `g` is `f` with one bit of data or of parity flipped. -/
inductive UsFlip (f : UsFrame) : UsFrame → Prop
  | data (l) : ListFlip 32 f.data l → UsFlip f { f with data := l }
  | parity (l) : ListFlip 4 f.parity l → UsFlip f { f with parity := l }

/-- `g` is `f` with one bit of data, header, prefix or of one of the parity fields flipped. -/
inductive IfFlip (f : IfFrame) : IfFrame → Prop
  | data (l) : ListFlip 32 f.data l → IfFlip f { f with data := l }
  | hdr (x) : BitFlip 128 f.hdr x → IfFlip f { f with hdr := x }
  | prfx (x) : BitFlip 32 f.tlp_prfx x → IfFlip f { f with tlp_prfx := x }
  | parity (l) : ListFlip 4 f.parity l → IfFlip f { f with parity := l }
  | hdrPar (x) : BitFlip 16 f.hdr_par x → IfFlip f { f with hdr_par := x }
  | prfxPar (x) : BitFlip 4 f.tlp_prfx_par x → IfFlip f { f with tlp_prfx_par := x }

end Verif.Spec
