import Verif.Spec.Mem
import Verif.Model.Tlp
/-!
Specification of what sequences of memory write requests and of completions must look like.
Uses the `Tlp` record of the model only as a tuple of field values.
-/
namespace Verif.Spec
open Verif.Model

/-- Byte `a` is enabled by request `t`. -/
def Enabled (t : Tlp) (a : Nat) : Prop := enabled t.address t.length t.first_be t.last_be a = true

/-- Little-endian bytes of the payload DWORDs: byte `i` is byte `i % 4` of DWORD `i / 4`. -/
def payloadByte (ws : List Nat) (i : Nat) : UInt8 := UInt8.ofNat (ws.getD (i / 4) 0 / 2 ^ (8 * (i % 4)))

/-- Memory after performing one write request. -/
def perform (m : Mem) (t : Tlp) : Mem := fun a =>
  if enabled t.address t.length t.first_be t.last_be a then payloadByte t.data (a - t.address) else m a

/-- The requests `ts`, in order, cover the bytes of `data` placed at `addr` contiguously: each one
enables exactly the next non-empty chunk and carries it. -/
inductive Covers : Nat → List UInt8 → List Tlp → Prop
  | nil (addr : Nat) : Covers addr [] []
  | cons (addr : Nat) (chunk rest : List UInt8) (t : Tlp) (ts : List Tlp) :
      chunk ≠ [] →
      (∀ a, Enabled t a ↔ addr ≤ a ∧ a < addr + chunk.length) →
      (∀ m, perform m t = store m addr chunk) →
      Covers (addr + chunk.length) rest ts →
      Covers addr (chunk ++ rest) (t :: ts)

/-- The read requests `ts`, in order, ask for the bytes `addr .. addr+n-1`, each exactly once. -/
inductive Asks : Nat → Nat → List Tlp → Prop
  | nil (addr : Nat) : Asks addr 0 []
  | cons (addr k n : Nat) (t : Tlp) (ts : List Tlp) :
      0 < k → (∀ a, Enabled t a ↔ addr ≤ a ∧ a < addr + k) →
      Asks (addr + k) n ts → Asks addr (k + n) (t :: ts)

/-- A legal memory request: at most `maxDw` DWORDs and inside one 4 KB page; 3DW header exactly
when the address is below 4 GB. -/
def LegalMemRequest (maxDw : Nat) (t : Tlp) : Prop :=
  4 ∣ t.address ∧ 1 ≤ t.length ∧ t.length ≤ maxDw ∧
  t.address % 4096 + 4 * t.length ≤ 4096 ∧
  (t.fmt % 2 = 0 ↔ t.address < 2 ^ 32)

/-- The first and last byte a request enables. -/
def FirstLast (t : Tlp) (f l : Nat) : Prop :=
  Enabled t f ∧ Enabled t l ∧ ∀ a, Enabled t a → f ≤ a ∧ a ≤ l

/-- Byte enables as the PCI Express Base Specification (2.2.5) allows them for non-zero-length
requests: 4-bit values, the first non-zero, the last zero exactly for one-DWORD requests. -/
def LegalByteEnables (t : Tlp) : Prop :=
  t.first_be < 16 ∧ t.last_be < 16 ∧ t.first_be ≠ 0 ∧ (t.last_be = 0 ↔ t.length = 1)

/-- The completions `cs`, in order, deliver `n` bytes starting at byte address `a` (PCI Express Base
Specification 2.2.9 and 2.3.1.1): each carries the remaining byte count and the low seven bits of
the address of its first byte; its payload is the DWORD-padded range of `mem` it covers; every
completion but the last ends on a multiple of the read completion boundary `rcb`. -/
inductive Delivers (rcb : Nat) (mem : Mem) : Nat → Nat → List Tlp → Prop
  | last (a n : Nat) (c : Tlp) :
      0 < n → c.byte_count = n → c.lower_address = a % 128 →
      c.length = (a % 4 + n + 3) / 4 → c.data.length = c.length →
      (∀ i, i < 4 * c.length → payloadByte c.data i = mem (a - a % 4 + i)) →
      Delivers rcb mem a n [c]
  | more (a k n : Nat) (c : Tlp) (cs : List Tlp) :
      0 < k → c.byte_count = k + n → c.lower_address = a % 128 →
      a % 4 + k = 4 * c.length → c.data.length = c.length → (a + k) % rcb = 0 →
      (∀ i, i < 4 * c.length → payloadByte c.data i = mem (a - a % 4 + i)) →
      Delivers rcb mem (a + k) n cs → Delivers rcb mem a (k + n) (c :: cs)

/-- A successful completion with data for request `t`; its payload consists of DWORDs. -/
def AnswersWithData (t : Tlp) (completer : PcieId) (c : Tlp) : Prop :=
  (c.fmt, c.type) = (2, 0x0A) ∧ c.requester_id = t.requester_id ∧ c.completer_id = completer ∧
  c.tag = t.tag ∧ c.status = 0 ∧ c.attr = t.attr ∧ c.tc = t.tc ∧ (∀ w ∈ c.data, w < 2 ^ 32)

/-- A completer that answers every legal read request for addresses in `[lo, hi)` as the
specification demands: with completions that deliver the enabled bytes of `mem`. -/
def Conforming (rcb : Nat) (mem : Mem) (lo hi maxDw : Nat) (respond : Tlp → Option (List Tlp)) : Prop :=
  ∀ t a n, LegalMemRequest maxDw t → LegalByteEnables t → 0 < n →
    (∀ x, Enabled t x ↔ a ≤ x ∧ x < a + n) →
    lo ≤ t.address → t.address + 4 * t.length ≤ hi →
    ∃ cs, respond t = some cs ∧ Delivers rcb mem a n cs ∧
      ∀ c ∈ cs, c.status = 0 ∧ ∀ w ∈ c.data, w < 2 ^ 32

end Verif.Spec
