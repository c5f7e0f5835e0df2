import Verif.Model.TlpFifo
/-! Specification of the TLP FIFO: what goes in, what comes out. -/
namespace Verif.Spec
open Verif.Model

/-- The configuration is one the module can be built with: at least two words, and addresses for all of them. -/
structure TffOk (c : TffCfg) : Prop where
  two : 2 ≤ c.words
  fit : c.words ≤ 2 ^ c.addrW

/-- The segments accepted in a history: valid and the FIFO ready. -/
def tffAccepted (c : TffCfg) : Tff → List TffIn → List TlpSeg
  | _, [] => []
  | s, i :: is => (if tffReady s && i.valid then [i.seg] else []) ++ tffAccepted c (tffStep c s i) is

/-- What the output shows: the segment if `out_tlp_valid` is set. -/
def tffShown (s : Tff) : List TlpSeg := if s.outV then [s.out] else []

/-- The segments taken in a history: shown while the receiver is ready. -/
def tffTaken (c : TffCfg) : Tff → List TffIn → List TlpSeg
  | _, [] => []
  | s, i :: is => (if i.ready then tffShown s else []) ++ tffTaken c (tffStep c s i) is

/-- The part of a sequence of segments up to and including the last end flag: its complete TLPs. -/
def tlpWhole (l : List TlpSeg) : List TlpSeg := (l.reverse.dropWhile fun x => !x.eop).reverse

/-- Whether the FIFO is ready in some cycle of a history. -/
def tffEverReady (c : TffCfg) : Tff → List TffIn → Prop
  | _, [] => False
  | s, i :: is => tffReady s = true ∨ tffEverReady c (tffStep c s i) is

end Verif.Spec
