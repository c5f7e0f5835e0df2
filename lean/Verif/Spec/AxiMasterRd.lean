import Verif.Model.AxiMasterRd
import Verif.Spec.AxilMin
/-!
Specification of the AXI master for reads: which completions requests get, which bursts are read for them, and what the transfers on
the interfaces are in a history.
-/
namespace Verif.Spec
open Verif.Model

/-- The parameter combinations meant: at least 64 bits of data, bursts that AXI allows and of at least 128 bytes
(`rtl/pcie_axi_master_rd.v` lines 126-162), and addresses for more than 4 KB. -/
structure AxrCfgOk (c : AxrCfg) : Prop where
  tb : 3 ≤ c.tb ∧ c.tb ≤ 12
  addr : 12 < c.addrW
  burst : 1 ≤ c.burst ∧ c.burst ≤ 256
  size : 128 ≤ c.burst * 2 ^ c.tb

/-! ### The interfaces in a history -/

/-- The states and inputs of a history. -/
def axrTrace (c : AxrCfg) : Axr → List AxrIn → List (Axr × AxrIn)
  | _, [] => []
  | s, i :: is => (s, i) :: axrTrace c (axrStep c s i) is

/-- The words taken from the TLP input. -/
def axrTaken (c : AxrCfg) (s : Axr) (is : List AxrIn) : List AxrIn :=
  (axrTrace c s is).filterMap fun x => if x.1.rxReady && x.2.valid then some x.2 else none

/-- The words that start a TLP; at the beginning a TLP is in progress or not. -/
def axrHeads : Bool → List AxrIn → List AxrIn
  | _, [] => []
  | true, i :: is => axrHeads (!i.eop) is
  | false, i :: is => if i.sop then i :: axrHeads (!i.eop) is else axrHeads false is

/-- The requests received. -/
def axrReqs (c : AxrCfg) (s : Axr) (is : List AxrIn) : List AxrIn := axrHeads false (axrTaken c s is)

/-- The transfers on the read address channel: address and number of data transfers minus 1. -/
def axrArs (c : AxrCfg) (s : Axr) (is : List AxrIn) : List (Nat × Nat) :=
  (axrTrace c s is).filterMap fun x => if x.1.arV && x.2.arReady then some (x.1.araddr, x.1.arlen) else none

/-- The transfers on the read data channel. -/
def axrRs (c : AxrCfg) (s : Axr) (is : List AxrIn) : List (Nat → UInt8) :=
  (axrTrace c s is).filterMap fun x => if x.1.rReady && x.2.rValid then some x.2.rData else none

/-- The words of completions sent. -/
def axrSent (c : AxrCfg) (s : Axr) (is : List AxrIn) : List AxrWord :=
  (axrTrace c s is).filterMap fun x => if x.1.out.outV && x.2.txReady then some x.1.out.out else none

/-! ### What requests ask for -/

/-- An unsupported request: it is not posted, and no memory read. -/
def tlpIsUr (h : TlpHdr) : Bool := !tlpIsRead h && !tlpIsWrite h && !tlpIsMsg h && !tlpIsCpl h

/-- The largest payload of a completion in bytes: that of the encoded setting `m`, or as much as a burst can bring. -/
def axrMax (c : AxrCfg) (m : Nat) : Nat := 128 * 2 ^ min m c.payloadMax

/-- The byte after the last enabled one of a read, counted from its first DWORD. Byte enables are not 0 when a read has more than
one DWORD; in a read of one DWORD 0 means a read of one byte that is not used. -/
def tlpReadEnd (h : TlpHdr) : Nat :=
  if hdrLen h = 1 then beFirst (tlpFirstBe h) + beSpan (tlpFirstBe h)
  else 4 * (hdrLen h - 1) + (beLanes (bits h.dw1 7 4)).getLast?.getD 3 + 1

/-- The parts of `n` bytes from `a` that completions with at most `mx` bytes bring: all parts but the last end at the last multiple
of 128 bytes possible. The first argument is a bound for the number of parts. -/
def readParts (mx : Nat) : Nat → Nat → Nat → List (Nat × Nat)
  | 0, _, _ => []
  | f + 1, a, n =>
    if n ≤ mx then [(a, n)]
    else (a, a / 128 * 128 + mx - a) :: readParts mx f (a / 128 * 128 + mx) (n - (a / 128 * 128 + mx - a))

/-- A completion: the fields of its header, the address of its data and of the first enabled byte, and the number of bytes, 0 if it has
no data. -/
structure AxrJob where
  cpl : CplRec
  addr : Nat
  first : Nat
  bytes : Nat
deriving DecidableEq, Repr

/-- The address of a read on the AXI interface. -/
def axrTlpAddr (c : AxrCfg) (h : TlpHdr) : Nat := tlpAddr c.force64 h % 2 ^ c.addrW

/-- The completion for the part of a read with `n` bytes from `a`: byte count and lower address are those of the enabled bytes that
are left. -/
def axrPart (c : AxrCfg) (cid : Nat) (h : TlpHdr) (x : Nat × Nat) : AxrJob :=
  let first := max x.1 (axrTlpAddr c h + beFirst (tlpFirstBe h))
  { cpl := { cplFor c.force64 cid h 0 true with
      len := x.2 / 4 % 1024
      count := (axrTlpAddr c h + tlpReadEnd h - first) % 4096
      lower := first % 128 }
    addr := x.1
    first := first
    bytes := x.2 }

/-- The completions for a request. -/
def axrJobs (c : AxrCfg) (m cid : Nat) (h : TlpHdr) : List AxrJob :=
  if tlpIsRead h then (readParts (axrMax c m) (4 * hdrLen h) (axrTlpAddr c h) (4 * hdrLen h)).map (axrPart c cid h)
  else if tlpIsUr h then [{ cpl := cplFor c.force64 cid h 1 false, addr := 0, first := 0, bytes := 0 }]
  else []

/-- The burst read for a completion: the address is that of the first enabled byte. -/
def jobBurst (b : Nat) (j : AxrJob) : Option (Nat × Nat) :=
  if j.bytes = 0 then none else some (j.first, (j.addr % b + j.bytes + b - 1) / b - 1)

/-- What is seen of a word of a completion with `b` bytes: the fields of the header in the first one, the bytes with strobe, and the
end. The lower address is not looked at in a completion without data. -/
def axrView (b : Nat) (w : AxrWord) : Option CplRec × List (Option UInt8) × Bool :=
  (if w.sop then some (if (cplRec w.hdr).status = 0 then cplRec w.hdr else { cplRec w.hdr with lower := 0 }) else none,
   (List.range b).map fun k => if w.strb (k / 4) then some (w.data k) else none,
   w.eop)

/-- The words of a completion that brings data of `mem`. -/
def jobWords (b : Nat) (mem : Nat → UInt8) (j : AxrJob) : List (Option CplRec × List (Option UInt8) × Bool) :=
  if j.bytes = 0 then [(some j.cpl, List.replicate b none, true)]
  else (List.range ((j.bytes + b - 1) / b)).map fun o =>
    (if o = 0 then some j.cpl else none,
     (List.range b).map fun k => if o * b + k < j.bytes then some (mem (j.addr + (o * b + k))) else none,
     o + 1 == (j.bytes + b - 1) / b)

/-- The words of completions; `mem n` is what the burst with number `n` reads. -/
def jobsWords (b : Nat) (mem : Nat → Nat → UInt8) : Nat → List AxrJob → List (Option CplRec × List (Option UInt8) × Bool)
  | _, [] => []
  | n, j :: js => jobWords b (mem n) j ++ jobsWords b mem (if j.bytes = 0 then n else n + 1) js

/-- The data transfers of bursts with incrementing addresses; `mem n` is what the burst with number `n` reads. -/
def burstData (b : Nat) (mem : Nat → Nat → UInt8) : Nat → List (Nat × Nat) → List (List UInt8)
  | _, [] => []
  | n, x :: xs =>
    ((List.range (x.2 + 1)).map fun t => (List.range b).map fun k => mem n (x.1 / b * b + t * b + k)) ++ burstData b mem (n + 1) xs

/-- The AXI slave answers bursts in order, when it has accepted them, and `mem n` is what it reads for the burst with number `n`. -/
def AxrSlave (c : AxrCfg) (mem : Nat → Nat → UInt8) (s : Axr) (is : List AxrIn) : Prop :=
  ∀ pre, pre <+: is → (axrRs c s pre).map (fun d => (List.range (2 ^ c.tb)).map d) <+: burstData (2 ^ c.tb) mem 0 (axrArs c s pre)

/-- A request for which the module is meant: no message and no prefix. A memory read is one word, stays inside a page of 4 KB, and
needs at most 256 data transfers if it is read with one burst. -/
def AxrReqOk (c : AxrCfg) (m : Nat) (i : AxrIn) : Prop :=
  AxReqOk i.hdr ∧ (tlpIsRead i.hdr = true → i.eop = true ∧ axrTlpAddr c i.hdr % 4096 + 4 * hdrLen i.hdr ≤ 4096 ∧
    (4 * hdrLen i.hdr ≤ axrMax c m → axrTlpAddr c i.hdr % 2 ^ c.tb + 4 * hdrLen i.hdr ≤ 256 * 2 ^ c.tb))

/-- All completions for the requests have been sent. -/
def AxrQuiet (c : AxrCfg) (m cid : Nat) (s : Axr) (is : List AxrIn) : Prop :=
  ((axrSent c s is).filter (·.eop)).length = ((axrReqs c s is).flatMap fun i => axrJobs c m cid i.hdr).length

/-- Unsupported requests come alone: one is received when all completions for earlier requests have been sent, and the next request
when its completion has been sent. -/
def AxrAlone (c : AxrCfg) (m cid : Nat) (s : Axr) (is : List AxrIn) : Prop :=
  ∀ pre i x, pre ++ [i] <+: is → axrReqs c s (pre ++ [i]) = axrReqs c s pre ++ [x] →
    (tlpIsUr x.hdr = true ∨ ∃ y, (axrReqs c s pre).getLast? = some y ∧ tlpIsUr y.hdr = true) → AxrQuiet c m cid s pre

/-- A history without reset in which the settings are constant. -/
def AxrSet (m cid : Nat) (is : List AxrIn) : Prop := ∀ i ∈ is, i.rst = false ∧ i.mps = m ∧ i.cid = cid

/-- A history for which the module is meant. -/
structure AxrHist (c : AxrCfg) (m cid : Nat) (mem : Nat → Nat → UInt8) (s : Axr) (is : List AxrIn) : Prop where
  set : AxrSet m cid is
  slave : AxrSlave c mem s is
  alone : AxrAlone c m cid s is
  reqs : ∀ x ∈ axrReqs c s is, AxrReqOk c m x

/-- In `js`, after `is`, the other sides are not waited for: completions and read addresses are accepted, and data is there as long as
a burst accepted has more. -/
def AxrGood (c : AxrCfg) (mem : Nat → Nat → UInt8) (s : Axr) (is js : List AxrIn) : Prop :=
  ∀ pre i, is <+: pre → pre ++ [i] <+: is ++ js → i.txReady = true ∧ i.arReady = true ∧
    ((axrRs c s pre).length < (burstData (2 ^ c.tb) mem 0 (axrArs c s pre)).length → i.rValid = true)

/-- The error outputs (correctable, uncorrectable) for a request that starts: an uncorrectable error for a write or a message, a
correctable one for anything else that is not a memory read. -/
def axrPulse (h : TlpHdr) : Bool × Bool :=
  if tlpIsRead h then (false, false) else if tlpIsWrite h || tlpIsMsg h then (false, true) else (true, false)

end Verif.Spec
