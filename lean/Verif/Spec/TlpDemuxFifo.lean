import Verif.Model.TlpDemuxFifo
import Verif.Spec.TlpDemux
import Verif.Spec.TlpFifoSeg
/-! Specification of the TLP demultiplexer with output FIFOs. `shown` gives what the outputs of one FIFO show. -/
namespace Verif.Spec
open Verif.Model

/-- The segments accepted in a history: those of the cycles in which `in_tlp_ready` is set. -/
def tdfAccepted {St : Type} (c : TdmCfg) (F : TlpDev St) : Tdf St → List TdmIn → List TdmItem
  | _, [] => []
  | s, i :: is => (if tdfReady c F s i then tdmItems c i else []) ++ tdfAccepted c F (tdfStep c F s i) is

/-- What the receiver at port `p` takes in a history: what it is shown in the cycles in which it is ready. -/
def tdfTaken {St : Type} (c : TdmCfg) (F : TlpDev St) (shown : St → List TlpSeg) (p : Nat) : Tdf St → List TdmIn → List TlpSeg
  | _, [] => []
  | s, i :: is => (if i.ready p then shown (s.fifo p) else []) ++ tdfTaken c F shown p (tdfStep c F s i) is

/-- The segments of a list that belong to port `p`, in order. -/
noncomputable def tdfBelonging (p : Nat) (l : List TdmItem) : List TlpSeg := (tdmBelonging p l).map (·.2)

/-- The segments of those TLPs in a list that are assigned to port `p`. -/
def tdfFor (p : Nat) (ts : List (List TdmItem)) : List TlpSeg := (tdmFor p ts).map (·.2)

/-- Among any `n` consecutive segments one has the end flag: no TLP, and no beginning of one, is longer. -/
def TlpShort (n : Nat) (l : List TlpSeg) : Prop :=
  ∀ k, k + n ≤ l.length → ∃ j x, k ≤ j ∧ j < k + n ∧ l[j]? = some x ∧ x.eop = true

end Verif.Spec
