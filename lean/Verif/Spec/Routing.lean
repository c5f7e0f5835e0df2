import Verif.Model.Bridge
import Verif.Spec.Config
/-!
Specification of TLP routing (PCI Express Base Specification 3.0, 2.2.1 Table 2-3 and 2.2.4): the
kind of a TLP follows from its `Fmt` and `Type` fields; requests are routed by address or by ID.
Only the data types `Tlp` and `Bridge` (for the contents of its window registers) are taken from
the model.
-/
namespace Verif.Spec
open Verif.Model

inductive Kind where
  | mem | io | cfg0 | cfg1 | cpl | msgToRc | msgId | msgBcast | msgLocal | msgGather | other
deriving DecidableEq

/-- Table 2-3. Locked and atomic memory requests are `other`, and so are address routed messages. -/
def kind (t : Tlp) : Kind :=
  if t.type = 0 ∧ t.fmt < 4 then .mem
  else if t.type = 2 ∧ (t.fmt = 0 ∨ t.fmt = 2) then .io
  else if t.type = 4 ∧ (t.fmt = 0 ∨ t.fmt = 2) then .cfg0
  else if t.type = 5 ∧ (t.fmt = 0 ∨ t.fmt = 2) then .cfg1
  else if (t.type = 10 ∨ t.type = 11) ∧ (t.fmt = 0 ∨ t.fmt = 2) then .cpl
  else if t.type = 16 ∧ (t.fmt = 1 ∨ t.fmt = 3) then .msgToRc
  else if t.type = 18 ∧ (t.fmt = 1 ∨ t.fmt = 3) then .msgId
  else if t.type = 19 ∧ (t.fmt = 1 ∨ t.fmt = 3) then .msgBcast
  else if t.type = 20 ∧ (t.fmt = 1 ∨ t.fmt = 3) then .msgLocal
  else if t.type = 21 ∧ (t.fmt = 1 ∨ t.fmt = 3) then .msgGather
  else .other

/-- One of the BARs claims the address. -/
def claimedBy (bars : List BarDesc) (io : Bool) (addr : Nat) : Prop :=
  ∃ d ∈ bars, ∃ base size, d.window io = some (base, size) ∧ base ≤ addr ∧ addr < base + size

/-- The TLP is addressed to the bridge itself. The root's host bridge is not addressed by ID. -/
def forBridge (b : Bridge) (bars : List BarDesc) (t : Tlp) : Prop :=
  match kind t with
  | .cfg0 => True
  | .cpl => b.root = false ∧ t.requester_id = b.id
  | .msgId => b.root = false ∧ t.dest_id = b.id
  | .io => claimedBy bars true t.address
  | .mem => claimedBy bars false t.address
  | _ => False

/-- The target of the TLP lies behind the bridge: bus number between secondary and subordinate,
address in the I/O, memory or prefetchable memory window. -/
def behindBridge (b : Bridge) (t : Tlp) : Prop :=
  match kind t with
  | .cfg1 | .msgId => b.sec_bus_num ≤ t.dest_id.bus ∧ t.dest_id.bus ≤ b.sub_bus_num
  | .cpl => b.sec_bus_num ≤ t.requester_id.bus ∧ t.requester_id.bus ≤ b.sub_bus_num
  | .io => b.io_base ≤ t.address ∧ t.address ≤ b.io_limit
  | .mem => (b.mem_base ≤ t.address ∧ t.address ≤ b.mem_limit) ∨
      (b.prefetchable_mem_base ≤ t.address ∧ t.address ≤ b.prefetchable_mem_limit)
  | .msgBcast => True
  | _ => False

/-- The TLP as it appears on the secondary bus: a type 1 configuration request for the secondary
bus itself becomes type 0. -/
def onSecondary (b : Bridge) (t : Tlp) : Tlp :=
  if kind t = .cfg1 ∧ t.dest_id.bus = b.sec_bus_num then { t with type := 4 } else t

/-- A non-posted request: the requester waits for a completion. -/
def nonPosted (t : Tlp) : Prop :=
  kind t = .io ∨ kind t = .cfg0 ∨ kind t = .cfg1 ∨ (kind t = .mem ∧ t.fmt < 2)

end Verif.Spec
