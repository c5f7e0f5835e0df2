import Verif.Model.AxiMasterWr
import Verif.Spec.AxilMin
/-!
Specification of the AXI master for writes: which bytes memory writes ask to be written, and which bytes the transfers on an AXI
interface write.
-/
namespace Verif.Spec
open Verif.Model

/-- The parameter combinations meant: at least 64 bits of data, and bursts that AXI allows
(`rtl/pcie_axi_master_wr.v` lines 111-136). -/
structure AxwCfgOk (c : AxwCfg) : Prop where
  tb : 3 ≤ c.tb
  addr : c.tb ≤ c.addrW
  burst : 1 ≤ c.burst ∧ c.burst ≤ 256

/-! ### The interfaces in a history -/

/-- The states and inputs of a history. -/
def axwTrace (c : AxwCfg) : Axw → List AxwIn → List (Axw × AxwIn)
  | _, [] => []
  | s, i :: is => (s, i) :: axwTrace c (axwStep c s i) is

/-- The words taken from the TLP input. -/
def axwTaken (c : AxwCfg) (s : Axw) (is : List AxwIn) : List AxwIn :=
  (axwTrace c s is).filterMap fun x => if x.1.ready && x.2.valid then some x.2 else none

/-- The transfers on the write address channel: address and number of data transfers minus 1. -/
def axwAws (c : AxwCfg) (s : Axw) (is : List AxwIn) : List (Nat × Nat) :=
  (axwTrace c s is).filterMap fun x => if x.1.awV && x.2.awReady then some (x.1.awaddr, x.1.awlen) else none

/-- The transfers on the write data channel. -/
def axwWs (c : AxwCfg) (s : Axw) (is : List AxwIn) : List AxwBeat :=
  (axwTrace c s is).filterMap fun x => if x.1.out.valid && x.2.wReady then some x.1.out.out else none

/-- The TLPs in a sequence of words: the complete ones, and the words of the one that is not. A TLP ends with the word marked
`eop`. -/
def axwSplit (ws : List AxwIn) : List (List AxwIn) × List AxwIn :=
  ws.foldl (fun x w => if w.eop then (x.1 ++ [x.2 ++ [w]], []) else (x.1, x.2 ++ [w])) ([], [])

/-- All TLPs, the last one may be incomplete. -/
def axwAll (ws : List AxwIn) : List (List AxwIn) :=
  (axwSplit ws).1 ++ if (axwSplit ws).2 = [] then [] else [(axwSplit ws).2]

/-! ### What TLPs ask for -/

/-- A memory write that is not poisoned. -/
def tlpDoWrite (h : TlpHdr) : Bool := tlpIsWrite h && bits h.dw0 14 14 == 0

/-- The address written to, on the AXI interface. -/
def axwTlpAddr (c : AxwCfg) (h : TlpHdr) : Nat := tlpAddr c.force64 h % 2 ^ c.addrW

/-- The number of words of a TLP on a bus with `b` bytes. -/
def tlpWords (b : Nat) (h : TlpHdr) : Nat := (4 * hdrLen h + b - 1) / b

/-- Byte `q` of the payload, as far as it is known. -/
def tlpByte (b : Nat) (g : List AxwIn) (q : Nat) : UInt8 := match g[q / b]? with
  | some w => w.data (q % b)
  | none => 0

/-- The bytes written by a TLP, with their addresses. -/
def tlpWrites (c : AxwCfg) (g : List AxwIn) : List (Nat × UInt8) := match g with
  | [] => []
  | w :: _ =>
    if tlpDoWrite w.hdr then
      (List.range (4 * hdrLen w.hdr)).filterMap fun q =>
        if hdrEnables w.hdr q then some (axwTlpAddr c w.hdr + q, tlpByte (2 ^ c.tb) g q) else none
    else []

/-- Whether a TLP can be done with one burst of the maximum length. -/
def TlpFits (c : AxwCfg) (h : TlpHdr) : Prop := axwTlpAddr c h % 2 ^ c.tb + 4 * hdrLen h ≤ c.burst * 2 ^ c.tb

instance (c : AxwCfg) (h : TlpHdr) : Decidable (TlpFits c h) := inferInstanceAs (Decidable (_ ≤ _))

/-- A TLP on the bus: its first word is marked `sop` and is no prefix, and memory writes have the words that their length
needs. -/
def AxwTlpOk (c : AxwCfg) (complete : Bool) (g : List AxwIn) : Prop := match g with
  | [] => True
  | w :: _ => w.sop = true ∧ tlpIsPrefix w.hdr = false ∧
    (tlpDoWrite w.hdr = true → if complete then g.length = tlpWords (2 ^ c.tb) w.hdr else g.length < tlpWords (2 ^ c.tb) w.hdr)

/-- Memory writes need one burst only. -/
def AxwTlpFits (c : AxwCfg) (g : List AxwIn) : Prop := match g with
  | [] => True
  | w :: _ => tlpDoWrite w.hdr = true → TlpFits c w.hdr

/-- The words taken are those of TLPs. -/
def AxwInOk (c : AxwCfg) (ws : List AxwIn) : Prop :=
  (∀ g ∈ (axwSplit ws).1, AxwTlpOk c true g) ∧ AxwTlpOk c false (axwSplit ws).2

/-- All memory writes need one burst only. -/
def AxwFits (c : AxwCfg) (ws : List AxwIn) : Prop := ∀ g ∈ axwAll ws, AxwTlpFits c g

/-! ### What AXI transfers do -/

/-- What a data transfer does with `b` byte lanes: the bytes with strobe, and the `last` signal. -/
def axwView (b : Nat) (x : AxwBeat) : List (Option UInt8) × Bool :=
  ((List.range b).map fun k => if x.strb k then some (x.data k) else none, x.last)

/-- The bytes written by data transfers of a burst with incrementing addresses from `a`, each of `b` bytes. -/
def burstWrites (b a : Nat) (xs : List AxwBeat) : List (Nat × UInt8) :=
  (List.range (xs.length * b)).filterMap fun p => match xs[p / b]? with
    | some x => if x.strb (p % b) then some (a / b * b + p, x.data (p % b)) else none
    | none => none

/-- The bytes written by bursts: the data transfers belong to the bursts in order. -/
def axiWrites (b : Nat) : List (Nat × Nat) → List AxwBeat → List (Nat × UInt8)
  | [], _ => []
  | a :: as, xs => burstWrites b a.1 (xs.take (a.2 + 1)) ++ axiWrites b as (xs.drop (a.2 + 1))

/-- The number of data transfers that a TLP needs. -/
def tlpBeatCount (c : AxwCfg) (h : TlpHdr) : Nat := (axwTlpAddr c h % 2 ^ c.tb + 4 * hdrLen h + 2 ^ c.tb - 1) / 2 ^ c.tb

/-- The burst that a TLP needs. -/
def tlpBurst (c : AxwCfg) (g : List AxwIn) : Option (Nat × Nat) := match g with
  | [] => none
  | w :: _ => if tlpDoWrite w.hdr then some (axwTlpAddr c w.hdr, tlpBeatCount c w.hdr - 1) else none

/-- The data transfers that a TLP needs: byte `p` of the burst is byte `p` minus the offset of the address on the bus of the
payload. -/
def tlpBeats (c : AxwCfg) (g : List AxwIn) : List (List (Option UInt8) × Bool) := match g with
  | [] => []
  | w :: _ =>
    if tlpDoWrite w.hdr then
      (List.range (tlpBeatCount c w.hdr)).map fun j =>
        ((List.range (2 ^ c.tb)).map fun k =>
          let o := axwTlpAddr c w.hdr % 2 ^ c.tb
          let p := j * 2 ^ c.tb + k
          if o ≤ p ∧ p - o < 4 * hdrLen w.hdr ∧ hdrEnables w.hdr (p - o) = true then some (tlpByte (2 ^ c.tb) g (p - o)) else none,
         j + 1 == tlpBeatCount c w.hdr)
    else []

end Verif.Spec
