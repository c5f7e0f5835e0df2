import Verif.Model.TlpFifoSeg
import Verif.Spec.TlpFifo
/-! Specification of the TLP FIFO with several segments per word: what goes in, what comes out. -/
namespace Verif.Spec
open Verif.Model

/-- The configuration is one the module can be built with: at least two words, and addresses for all of them. -/
structure TfmOk (c : TfmCfg) : Prop where
  two : 2 ≤ c.words
  fit : c.words ≤ 2 ^ c.addrW

/-- The valid segments of a word, in the order of the lanes. -/
def tfmSegs (c : TfmCfg) (valid : Nat → Bool) (seg : Nat → TlpSeg) : List TlpSeg :=
  ((List.range c.segs).filter valid).map seg

/-- The segments accepted in a history: valid and the FIFO ready. -/
def tfmAccepted (c : TfmCfg) : Tfm → List TfmIn → List TlpSeg
  | _, [] => []
  | s, i :: is => (if tfmReady s then tfmSegs c i.valid i.seg else []) ++ tfmAccepted c (tfmStep c s i) is

/-- What the output shows: the segments with `out_tlp_valid` set. -/
def tfmShown (c : TfmCfg) (s : Tfm) : List TlpSeg :=
  if s.out.valid then tfmSegs c s.out.out.valid s.out.out.seg else []

/-- The segments taken in a history: shown while the receiver is ready. -/
def tfmTaken (c : TfmCfg) : Tfm → List TfmIn → List TlpSeg
  | _, [] => []
  | s, i :: is => (if i.ready then tfmShown c s else []) ++ tfmTaken c (tfmStep c s i) is

/-- Whether the FIFO is ready in some cycle of a history. -/
def tfmEverReady (c : TfmCfg) : Tfm → List TfmIn → Prop
  | _, [] => False
  | s, i :: is => tfmReady s = true ∨ tfmEverReady c (tfmStep c s i) is

end Verif.Spec
