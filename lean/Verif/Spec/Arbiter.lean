import Verif.Model.Arbiter
/-! Specification of priority selection and arbitration. -/
namespace Verif.Spec

/-- `i` is the highest-priority set bit among the lowest `width` bits of `x`: the lowest one if
`lsb`, else the highest one. -/
structure Selects (width : Nat) (lsb : Bool) (x i : Nat) : Prop where
  inRange : i < width
  isSet : x.testBit i = true
  lowest : lsb = true → ∀ j < width, x.testBit j = true → i ≤ j
  highest : lsb = false → ∀ j < width, x.testBit j = true → j ≤ i

open Verif.Model in
/-- The ports chosen in a history: one entry for each cycle in which the arbiter makes a fresh
choice, that is, gives a grant while it does not keep the previous one. -/
def choices (c : ArbCfg) : Arb → List ArbIn → List Nat
  | _, [] => []
  | s, i :: is =>
    let s' := arbStep c s i
    (if !i.rst && !arbHold c s i && s'.valid then [s'.encoded] else []) ++ choices c s' is

open Verif.Model in
/-- The grant of state `s` is to be kept in a cycle with inputs `i`: the arbiter is blocking, and the
granted port still requests (release by request) or has not yet acknowledged (release by
acknowledge). -/
def Unreleased (c : ArbCfg) (s : Arb) (i : ArbIn) : Prop :=
  c.block = true ∧ s.valid = true ∧
    (if c.blockAck then i.acknowledge.testBit s.encoded = false else i.request.testBit s.encoded = true)

end Verif.Spec
