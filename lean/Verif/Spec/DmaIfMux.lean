import Verif.Model.DmaIfMux
import Verif.Spec.ArbMux
/-! Specification for clients sharing a DMA interface. A RAM command issued for a descriptor is written
as a pair: the client and its descriptor, and the command as that client is to see it. -/
namespace Verif.Spec
open Verif.Model

/-- The write commands issued for descriptors of client `p`, with the RAM select the client gave. -/
def wrOwn (p : Nat) (l : List ((Nat × DmaDesc) × WrCmd)) : List WrCmd :=
  (l.filter fun x => x.1.1 == p).map fun x => { x.2 with sel := x.1.2.ramSel }

/-- The read commands issued for descriptors of client `p`, with the RAM select the client gave. -/
def rdOwn (p : Nat) (l : List ((Nat × DmaDesc) × RdCmd)) : List RdCmd :=
  (l.filter fun x => x.1.1 == p).map fun x => { x.2 with sel := x.1.2.ramSel }

/-- Two descriptors ask for the same transfer: the same bytes of DMA memory, the same address in the RAM,
and, for a descriptor with an immediate, the same immediate. -/
structure SameJob (d e : DmaDesc) : Prop where
  dmaAddr : d.dmaAddr = e.dmaAddr
  ramAddr : d.ramAddr = e.ramAddr
  len : d.len = e.len
  imm : e.immEn = true → d.imm = e.imm
  immEn : d.immEn = e.immEn

/-- A status is shown to client `p` only, with tag `tag` and error code `error`. -/
structure StatusTo (ports p tag error : Nat) (o : DescStatus) : Prop where
  valid : ∀ q < ports, o.valid.testBit q = decide (q = p)
  tag : o.tag = tag
  error : o.error = error

end Verif.Spec
