import Verif.Model.PtileIfTx
import Verif.Spec.TlpFifoMux
/-! Specification of the P-Tile transmit adapter: what goes in, what is sent, how many credits it needs. -/
namespace Verif.Spec
open Verif.Model

/-- What is to be sent for a segment offered on port `p`: read requests (port 2) are a header alone, which is a whole TLP; of
the others data, header and the start and end flags are sent. -/
def pttExpect (p : Nat) (g : TlpSeg) : TlpSeg :=
  if p = 2 then { hdr := g.hdr, sop := true, eop := true } else { data := g.data, hdr := g.hdr, sop := g.sop, eop := g.eop }

/-- The segments accepted on port `p` in a history: valid and the port ready. -/
def pttAccepted (f : TffCfg) (p : Nat) : Ptt → List PttIn → List TlpSeg
  | _, [] => []
  | s, i :: is => (if txmReady s.mux p && i.valid p then [i.seg p] else []) ++ pttAccepted f p (pttStep f s i) is

/-- The words sent to the P-Tile: shown with `tx_st_valid` after each cycle of a history. The P-Tile takes every such word. -/
def pttSent (f : TffCfg) : Ptt → List PttIn → List TlpSeg
  | _, [] => []
  | s, i :: is => (if (pttStep f s i).valid then [(pttStep f s i).seg] else []) ++ pttSent f (pttStep f s i) is

/-- The segments of the TLPs of port `p` that are complete: up to the last end flag; every read request is complete. -/
def pttWhole (p : Nat) (l : List TlpSeg) : List TlpSeg := if p = 2 then l else tlpWhole l

/-- The number of non-posted TLPs (read requests) among the words sent. -/
def pttReads (l : List TlpSeg) : Nat := (l.filter fun g => g.sop && fcClass (g.hdr / 2 ^ 120) == .np).length

/-- The headers offered in a cycle are as PCI Express defines them, and non-posted requests come in on port 2 only, as the
ports are meant to be used. -/
def PttHeadersOk (i : PttIn) : Prop :=
  ∀ p < 4, i.valid p = true → p = 2 ∨ (i.seg p).sop = true →
    TlpHdrOk (i.seg p).hdr ∧ (p = 2 ↔ fcClass ((i.seg p).hdr / 2 ^ 120) = .np)

/-- The credit outputs show enough to start a TLP of any class: more than four header credits, and more data credits than two
TLPs of the greatest size have (16 bytes each), for the setting `m` of `max_payload_size`. -/
def PttCredit (m : Nat) (s : Ptt) : Prop :=
  s.ph.av > 4 ∧ s.nph.av > 4 ∧ s.cplh.av > 4 ∧ s.pd.av > 2 * (128 * 2 ^ min m 5 / 16) ∧
    s.cpld.av > 2 * (128 * 2 ^ min m 5 / 16)

/-- In each cycle of a history nothing is offered, the P-Tile is ready, and there is credit. -/
def PttDrains (f : TffCfg) (m : Nat) : Ptt → List PttIn → Prop
  | _, [] => True
  | s, i :: is => (PttCredit m s ∧ i.rst = false ∧ i.ready = true ∧ i.mps = m ∧ ∀ p < 4, i.valid p = false) ∧
      PttDrains f m (pttStep f s i) is

end Verif.Spec
