import Verif.Model.PtileIfRx
import Verif.Spec.TlpDemuxFifo
/-! Specification of the receive side of the P-Tile adapter: which TLPs come out where. -/
namespace Verif.Spec
open Verif.Model

/-- The number of double words of payload in segment `g` of a row: all of them before the end of the TLP; at its end all but
the `empty` ones, and none if the TLP is a header without data (bit 1 of the format field is clear). -/
def ptRxDws (c : PtRxCfg) (i : PtRxIn) (g : Nat) : Nat :=
  if i.eop g = false then c.dws
  else if i.sop g = true ∧ i.hdr g / 2 ^ 126 % 2 = 0 then 0
  else c.dws - i.empty g

/-- The number of the BAR: the ranges 6 and 7 stand for the I/O BAR and for the expansion ROM. -/
def ptRxBarOf (c : PtRxCfg) (n : Nat) : Nat := match n with
  | 6 => c.ioBar % 8
  | 7 => 6
  | n => n

/-- What segment `g` of a row says: the payload with one strobe bit per double word; and with the start flag the header, the
BAR and the function number, of which `rx_st_func_num` has three bits per segment. -/
def ptRxSays (c : PtRxCfg) (i : PtRxIn) (g : Nat) : TlpSeg :=
  { data := i.data g, strb := 2 ^ ptRxDws c i g - 1
    hdr := if i.sop g then i.hdr g else 0
    bar := if i.sop g then ptRxBarOf c (i.bar g) else 0
    func := if i.sop g then i.func / 8 ^ g % 8 else 0
    sop := i.sop g, eop := i.eop g }

/-- The segments of one row. -/
def ptRxRow (c : PtRxCfg) (i : PtRxIn) : List TlpSeg := ((List.range c.segs).filter i.valid).map (ptRxSays c i)

/-- What the source sends in a history. -/
def ptRxSent (c : PtRxCfg) (is : List PtRxIn) : List TlpSeg := is.flatMap (ptRxRow c)

/-- The part of it that is stored: the rows of the cycles in which the register behind the input can be loaded. -/
def ptRxKept {St : Type} (c : PtRxCfg) (F : TlpDev St) : PtRx St → List PtRxIn → List TlpSeg
  | _, [] => []
  | s, i :: is => (if ptRxTake c F s i then ptRxRow c i else []) ++ ptRxKept c F (ptRxStep c F s i) is

/-- What the receiver at port `p` (0: requests, 1: completions) takes in a history. -/
def ptRxTaken {St : Type} (c : PtRxCfg) (F : TlpDev St) (shown : St → List TlpSeg) (p : Nat) : PtRx St → List PtRxIn → List TlpSeg
  | _, [] => []
  | s, i :: is => (if i.ready p then shown (s.dx.fifo p) else []) ++ ptRxTaken c F shown p (ptRxStep c F s i) is

/-- The source stops in time: it sends in cycle `k` only if `L` cycles earlier `rx_st_ready` was set (`L` is the ready
latency of the interface). -/
def PtRxObeys {St : Type} (c : PtRxCfg) (F : TlpDev St) (water : St → Bool) (L : Nat) (s : PtRx St) (is : List PtRxIn) : Prop :=
  ∀ k (h : k < is.length), (∃ g, g < c.segs ∧ is[k].valid g = true) →
    L ≤ k ∧ ptRxReady water (ptRxRun c F s (is.take (k - L))) = true

/-- A whole TLP: start flag on the first segment only, end flag on the last segment only. -/
def SegTlp (t : List TlpSeg) : Prop :=
  t ≠ [] ∧ ∀ (k : Nat) (h : k < t.length), (t[k].sop = true ↔ k = 0) ∧ (t[k].eop = true ↔ k + 1 = t.length)

/-- The beginning of a TLP (possibly nothing): start flag on the first segment only, no end flag. -/
def SegPart (t : List TlpSeg) : Prop := ∀ (k : Nat) (h : k < t.length), (t[k].sop = true ↔ k = 0) ∧ t[k].eop = false

/-- The header is that of a completion: type 01010 or 01011, three double words. -/
def hdrCpl (h : Nat) : Bool := (h / 2 ^ 120 % 32 == 10 || h / 2 ^ 120 % 32 == 11) && h / 2 ^ 125 % 2 == 0

/-- The TLPs for port `p`: completions for port 1, all others for port 0. -/
def rxTlpsFor (p : Nat) (ts : List (List TlpSeg)) : List (List TlpSeg) :=
  ts.filter fun t => t.head?.any fun x => hdrCpl x.hdr == (p == 1)

/-- What a receiver looks at: header, BAR and function number only with the start flag. -/
def rxView (x : TlpSeg) : TlpSeg := if x.sop then x else { x with hdr := 0, bar := 0, func := 0 }

/-- The same without the function number. -/
def rxNoFunc (x : TlpSeg) : TlpSeg := { x with func := 0 }

end Verif.Spec
