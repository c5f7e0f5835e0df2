import Verif.Model.TlpFifoMux
import Verif.Spec.TlpFifo
import Verif.Spec.TlpMux
import Verif.Spec.ArbMux
import Verif.Spec.Counters
/-! Specification of the TLP multiplexer with FIFOs: what goes in, what comes out. -/
namespace Verif.Spec
open Verif.Model

/-- The segments accepted on port `p` in a history: valid and the port ready. -/
def txmAccepted (c : TxmCfg) (p : Nat) : Txm → List TxmIn → List TlpSeg
  | _, [] => []
  | s, i :: is => (if txmReady s p && i.valid p then [i.seg p] else []) ++ txmAccepted c p (txmStep c s i) is

/-- What the output shows: the segment if `out_tlp_valid` is set. -/
def txmShown (s : Txm) : List TlpSeg := if s.out.valid then [s.out.out] else []

/-- The segments taken in a history: shown while the receiver is ready. -/
def txmTaken (c : TxmCfg) : Txm → List TxmIn → List TlpSeg
  | _, [] => []
  | s, i :: is => (if i.ready then txmShown s else []) ++ txmTaken c (txmStep c s i) is

/-- The sequence numbers on `sel_tlp_seq`, with their ports, in the order in which `sel_tlp_seq_valid` announces them: what
is shown in each cycle of a history and in the state after it. -/
def txmReported (c : TxmCfg) : Txm → List TxmIn → List (Nat × Nat)
  | s, [] => ((List.range c.mux.ports).filter s.seqV).map fun p => (p, s.seq)
  | s, i :: is => (((List.range c.mux.ports).filter s.seqV).map fun p => (p, s.seq)) ++ txmReported c (txmStep c s i) is

/-- The credit counts `out_fc_*` in each cycle of a history and in the state after it, those that are all zero left out. -/
def txmCounts (c : TxmCfg) : Txm → List TxmIn → List FcCount
  | s, [] => if s.fc = {} then [] else [s.fc]
  | s, i :: is => (if s.fc = {} then [] else [s.fc]) ++ txmCounts c (txmStep c s i) is

/-- The credits that one TLP needs, by the class and length in its header. -/
def tlpCredits (hdr : Nat) : FcCount :=
  match fcClass (hdr / 2 ^ 120) with
  | .p => { ph := 1, pd := dataCredits hdr }
  | .np => { nph := 1, npd := dataCredits hdr }
  | .cpl => { cplh := 1, cpld := dataCredits hdr }

/-- A header as PCI Express defines it, with at most 512 DWORDs of payload (for longer ones see C34). -/
def TlpHdrOk (hdr : Nat) : Prop := hdr < 2 ^ 128 ∧ DefinedTlp (hdr / 2 ^ 120) ∧ announced hdr ≤ 512

/-- A cycle in which nothing is offered, no port is paused and the receiver is ready. -/
def TxmQuiet (c : TxmCfg) (i : TxmIn) : Prop :=
  i.rst = false ∧ i.ready = true ∧ ∀ p < c.mux.ports, i.valid p = false ∧ i.pause p = false

end Verif.Spec
