import Verif.Model.PcieIf
/-!
Specification of frame transfer between source and sink: which frames may be sent, and what the
receiver must see. Only frames and events are taken from the model.
-/
namespace Verif.Spec
open Verif.Model (TxFrame IfGeo IfEvent IfSys)

/-- DWORDs of payload that a TLP header (128 bits, first byte most significant) announces: none
unless the format has data (bit 30 of the first DWORD), else the length field, 0 meaning 1024. -/
def announced (hdr : Nat) : Nat :=
  if hdr.testBit 126 then (if hdr / 2 ^ 96 % 1024 = 0 then 1024 else hdr / 2 ^ 96 % 1024) else 0

/-- A frame that the bus can carry: its fields fit the signals, there is one parity nibble per DWORD,
and the payload has the length the header announces. -/
structure Sendable (g : IfGeo) (f : TxFrame) : Prop where
  prfx : f.tlp_prfx < 2 ^ 32
  prfxPar : f.tlp_prfx_par < 2 ^ 4
  hdr : f.hdr < 2 ^ 128
  hdrPar : f.hdr_par < 2 ^ 16
  bar : f.bar_id < 2 ^ 3
  func : f.func_num < 2 ^ 8
  vf : ∀ v, f.vf_num = some v → v < 2 ^ 11
  error : f.error < 2 ^ 4
  seq : f.seq < 2 ^ g.seqWidth
  data : ∀ d ∈ f.data, d < 2 ^ 32
  parity : ∀ p ∈ f.parity, p < 2 ^ 4
  parityLen : f.parity.length = f.data.length
  len : f.data.length = announced f.hdr

/-- What the receiver gets: everything but `tlp_abort`. -/
def delivered (f : TxFrame) : TxFrame := { f with tlp_abort := 0 }

/-- The frames sent in a history, in order. -/
def sent : List IfEvent → List TxFrame
  | [] => []
  | .send f :: es => f :: sent es
  | _ :: es => sent es

/-- Nothing left at the source or on the bus. -/
def IfIdle (s : IfSys) : Prop :=
  s.queue = [] ∧ s.cur = none ∧ s.built = none ∧ s.driveObj = none ∧ s.bus.valid = 0

/-- The source and the sink each get to run once, with no pause on either side. -/
def ifRound : List IfEvent := [.build, .load, .edge false true]

/-- `n` such rounds. -/
def ifRounds : Nat → List IfEvent
  | 0 => []
  | n + 1 => ifRound ++ ifRounds n

end Verif.Spec
