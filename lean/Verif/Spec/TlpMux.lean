import Verif.Model.TlpMux
import Verif.Spec.ArbMux
/-! Specification of the TLP multiplexer: what goes in on each port, what comes out. -/
namespace Verif.Spec
open Verif.Model

/-- The valid segments of a word, in the order of the lanes. -/
def tmxItems (c : TmxCfg) (w : TmxWord) : List TlpSeg := ((List.range c.segs).filter w.valid).map w.seg

/-- The state after a history. -/
def tmxRun (c : TmxCfg) : Tmx → List TmxIn → Tmx
  | s, [] => s
  | s, i :: is => tmxRun c (tmxStep c s i) is

/-- The segments accepted on port `p` in a history: those valid in the cycles in which `in_tlp_ready[p]` is set. -/
def tmxAccepted (c : TmxCfg) (p : Nat) : Tmx → List TmxIn → List TlpSeg
  | _, [] => []
  | s, i :: is => (if tmxReady c s i p then tmxItems c (i.word p) else []) ++ tmxAccepted c p (tmxStep c s i) is

/-- What the output shows. -/
def tmxShown (c : TmxCfg) (s : Tmx) : List TlpSeg := if s.skid.outV then tmxItems c s.skid.out else []

/-- The segments taken in a history: shown in the cycles in which the receiver is ready. -/
def tmxTaken (c : TmxCfg) : Tmx → List TmxIn → List TlpSeg
  | _, [] => []
  | s, i :: is => (if i.ready then tmxShown c s else []) ++ tmxTaken c (tmxStep c s i) is

/-- A word without gaps and without free lanes: all lanes are valid, or none. -/
def TmxFull (c : TmxCfg) (w : TmxWord) : Prop :=
  (∀ k < c.segs, w.valid k = true) ∨ (∀ k < c.segs, w.valid k = false)

/-- The words that the multiplexer can cope with: any words if there are at most two segments per word, else words
without free lanes. -/
def TmxWords (c : TmxCfg) (is : List TmxIn) : Prop :=
  c.segs ≤ 2 ∨ ∀ i ∈ is, ∀ p < c.ports, TmxFull c (i.word p)

end Verif.Spec

namespace Verif.Spec
open Verif.Model

/-- The valid lanes of a word come first. -/
def TmxPacked (c : TmxCfg) (w : TmxWord) : Prop := ∀ k j, j ≤ k → k < c.segs → w.valid k = true → w.valid j = true

/-- No port offers anything or is paused, and the receiver is ready. -/
def TmxQuiet (c : TmxCfg) (i : TmxIn) : Prop :=
  i.rst = false ∧ i.ready = true ∧ ∀ p < c.ports, i.pause p = false ∧ ∀ k < c.segs, (i.word p).valid k = false

end Verif.Spec

namespace Verif.Spec
open Verif.Model

/-- The sequence numbers that `sel_tlp_seq` and `sel_tlp_seq_valid` report in one cycle, with their ports. -/
def tmxStatus (c : TmxCfg) (s : Tmx) : List (Nat × Nat) :=
  (List.range c.segs).flatMap fun g => ((List.range c.ports).filter fun p => s.seqV p g).map fun p => (p, s.seq g)

/-- What is reported in a history, from the cycle after its first to the cycle after its last. -/
def tmxReported (c : TmxCfg) : Tmx → List TmxIn → List (Nat × Nat)
  | _, [] => []
  | s, i :: is => tmxStatus c (tmxStep c s i) ++ tmxReported c (tmxStep c s i) is

/-- The first segments of the TLPs in a stream of (port, segment) pairs: those after an end flag, and the first of all if
`b` is set. -/
def tmxStarts : Bool → List (Nat × TlpSeg) → List (Nat × TlpSeg)
  | _, [] => []
  | b, x :: l => (if b then [x] else []) ++ tmxStarts x.2.eop l

end Verif.Spec
