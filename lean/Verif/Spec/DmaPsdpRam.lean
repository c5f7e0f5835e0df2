import Verif.Model.DmaPsdpRam
/-! Specification of the segmented RAM: a byte memory changed by the writes in order. -/
namespace Verif.Spec
open Verif.Model

/-- The byte in lane `l` at address `a` after the writes of a history, starting from `m`: that of the
latest write to this byte, if any. -/
def ramByte (c : PsRamCfg) (m : UInt8) (a l : Nat) : List PsRamIn → UInt8
  | [] => m
  | i :: is =>
    ramByte c (if i.wrValid = true ∧ i.wrBe l = true ∧ l < c.beWidth ∧ i.wrAddr % 2 ^ c.addrWidth = a
      then i.wrData l else m) a l is

end Verif.Spec
