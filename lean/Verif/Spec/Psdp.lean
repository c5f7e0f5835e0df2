import Verif.Model.Psdp
/-!
Specification of the segmented RAM: what a user of `write` and `read` expects. Only the events
(calls, clock edges, coroutine steps) are taken from the model.
-/
namespace Verif.Spec
open Verif.Model (WrEvent RdEvent)

/-- The writes `(address, data)` submitted in a history, in order. -/
def submitted : List WrEvent → List (Nat × List UInt8)
  | [] => []
  | .submit a d :: es => (a, d) :: submitted es
  | _ :: es => submitted es

/-- The reads `(address, length)` submitted in a history, in order. -/
def rdSubmitted : List RdEvent → List (Nat × Nat)
  | [] => []
  | .submit a n :: es => (a, n) :: rdSubmitted es
  | _ :: es => rdSubmitted es

/-- A flat memory after a sequence of writes. -/
def flat (m : Mem) (cs : List (Nat × List UInt8)) : Mem := cs.foldl (fun m c => store m c.1 c.2) m

end Verif.Spec
