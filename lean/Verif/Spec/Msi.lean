import Verif.Model.Msi
/-!
Specification of the MSI shims, in terms of what can be seen from outside in each cycle: the interrupt inputs, the
message the hard IP core has been asked to send and has not answered yet, and its answer.
-/
namespace Verif.Spec
open Verif.Model

/-- What is seen in one cycle. -/
structure MsiObs where
  irq : Nat → Bool
  flight : Option Nat
  answered : Bool
  sent : Bool

/-- Stratix 10: `app_msi_req` and `app_msi_num` show the message, `app_msi_ack` answers it. -/
def s10Obs (n : Nat) : S10Msi → List S10MsiIn → List MsiObs
  | _, [] => []
  | s, i :: is =>
    { irq := i.irq, flight := if s.core.active then some s.num else none, answered := i.ack, sent := i.ack } ::
      s10Obs n (s10MsiStep n s i) is

/-- UltraScale: a one-hot pulse on `cfg_interrupt_msi_int` asks for a message, which is in flight until
`cfg_interrupt_msi_sent` or `cfg_interrupt_msi_fail`. The first argument is the message in flight before. -/
def usObs (n : Nat) : Option Nat → UsMsi → List UsMsiIn → List MsiObs
  | _, _, [] => []
  | f, s, i :: is =>
    let f := if s.int = 0 then f else some (Nat.log2 s.int)
    { irq := i.irq, flight := f, answered := i.sent || i.fail, sent := i.sent } ::
      usObs n (if i.sent || i.fail then none else f) (usMsiStep n s i) is

/-- Number of rising edges of interrupt input `k`, whose level before is `prev`. -/
def irqEdges (k : Nat) : Bool → List MsiObs → Nat
  | _, [] => 0
  | prev, o :: os => (if o.irq k && !prev then 1 else 0) + irqEdges k (o.irq k) os

/-- Number of messages `k` that were sent. -/
def msiSent (k : Nat) : List MsiObs → Nat
  | [] => 0
  | o :: os => (if o.flight = some k && o.sent then 1 else 0) + msiSent k os

/-- Every message is answered in its `a`-th cycle at the latest. The second argument counts the cycles for which the
present message has been waiting. -/
def AnswersWithin (a : Nat) : Nat → List MsiObs → Prop
  | _, [] => True
  | w, o :: os =>
    if o.flight.isSome && !o.answered then w + 1 < a ∧ AnswersWithin a (w + 1) os else AnswersWithin a 0 os

/-- Vector `k` may be used with the value `m` of the Multiple Message Enable field: there are `2^m` vectors, at most 32. -/
def vectorAllowed (m k : Nat) : Prop := k < 2 ^ min m 5

/-- The configuration lets the Stratix 10 shim send message `k`. -/
def S10Enabled (k : Nat) (i : S10MsiIn) : Prop :=
  i.enable = true ∧ i.masked k = false ∧ vectorAllowed (i.multiple % 8) k

/-- The configuration lets the UltraScale shim send message `k` of physical function 0. -/
def UsEnabled (k : Nat) (i : UsMsiIn) : Prop :=
  i.enable % 2 = 1 ∧ i.data k = false ∧ vectorAllowed (i.mmenable % 8) k

end Verif.Spec
