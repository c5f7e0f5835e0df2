import Verif.Model.AxiMaster
import Verif.Spec.AxiMasterRd
import Verif.Spec.AxiMasterWr
/-!
Specification of the AXI master: the interfaces in a history. What TLPs ask for and what transfers on AXI do is specified in
`Verif.Spec.AxiMasterRd` and `Verif.Spec.AxiMasterWr`.
-/
namespace Verif.Spec
open Verif.Model

/-- The states and inputs of a history. -/
def axbTrace (c : AxbCfg) : Axb → List AxbIn → List (Axb × AxbIn)
  | _, [] => []
  | s, i :: is => (s, i) :: axbTrace c (axbStep c s i) is

/-- The word at the TLP input: header, data, start and end (the other fields of the type have no meaning here). -/
def axbWord (i : AxbIn) : AxwIn :=
  { data := axbData i.data, hdr := axbHdr i.hdr, valid := true, sop := i.sop, eop := i.eop, awReady := false, wReady := false }

/-- The words accepted at the TLP input. -/
def axbTaken (c : AxbCfg) (s : Axb) (is : List AxbIn) : List AxwIn :=
  (axbTrace c s is).filterMap fun x => if axbReady x.1 x.2 && x.2.valid then some (axbWord x.2) else none

/-- The transfers on the write address channel. -/
def axbAws (c : AxbCfg) (s : Axb) (is : List AxbIn) : List (Nat × Nat) :=
  (axbTrace c s is).filterMap fun x => if x.1.wr.awV && x.2.awReady then some (x.1.wr.awaddr, x.1.wr.awlen) else none

/-- The transfers on the write data channel. -/
def axbWs (c : AxbCfg) (s : Axb) (is : List AxbIn) : List AxwBeat :=
  (axbTrace c s is).filterMap fun x => if x.1.wr.out.valid && x.2.wReady then some x.1.wr.out.out else none

/-- The transfers on the read address channel. -/
def axbArs (c : AxbCfg) (s : Axb) (is : List AxbIn) : List (Nat × Nat) :=
  (axbTrace c s is).filterMap fun x => if x.1.rd.arV && x.2.arReady then some (x.1.rd.araddr, x.1.rd.arlen) else none

/-- The transfers on the read data channel. -/
def axbRs (c : AxbCfg) (s : Axb) (is : List AxbIn) : List (Nat → UInt8) :=
  (axbTrace c s is).filterMap fun x => if x.1.rd.rReady && x.2.rValid then some x.2.rData else none

/-- The words of completions sent. -/
def axbSent (c : AxbCfg) (s : Axb) (is : List AxbIn) : List AxrWord :=
  (axbTrace c s is).filterMap fun x => if x.1.rd.out.outV && x.2.txReady then some x.1.rd.out.out else none

/-- The start flag is set in the first word of each TLP only. -/
def AxbSop (ws : List AxwIn) : Prop := ∀ g ∈ axwAll ws, ∀ k w, g[k]? = some w → (w.sop = true ↔ k = 0)

/-- What comes in are TLPs for which the write side is meant: the words are those of TLPs, and memory writes need one burst
only. -/
def AxbWritesOk (c : AxbCfg) (ws : List AxwIn) : Prop := AxbSop ws ∧ AxwInOk c.wr ws ∧ AxwFits c.wr ws

/-- The headers of the TLPs. -/
def axbHeads (ws : List AxwIn) : List AxwIn := (axwAll ws).filterMap List.head?

/-- What comes in are TLPs for which the read side is meant: anything that is not a memory write is no message, no prefix and no
unsupported request; a memory read is one word, stays inside a page of 4 KB, and needs at most 256 data transfers if it is read
with one burst. -/
def AxbReadsOk (c : AxbCfg) (m : Nat) (ws : List AxwIn) : Prop :=
  AxbSop ws ∧ ∀ w ∈ axbHeads ws, tlpIsPrefix w.hdr = false ∧ (tlpIsWrite w.hdr = false → tlpIsMsg w.hdr = false ∧
    tlpIsUr w.hdr = false ∧
    (tlpIsRead w.hdr = true → w.eop = true ∧ axrTlpAddr c.rd w.hdr % 4096 + 4 * hdrLen w.hdr ≤ 4096 ∧
      (4 * hdrLen w.hdr ≤ axrMax c.rd m → axrTlpAddr c.rd w.hdr % 2 ^ c.tb + 4 * hdrLen w.hdr ≤ 256 * 2 ^ c.tb)))

/-- The completions for the TLPs accepted. -/
def axbJobs (c : AxbCfg) (m cid : Nat) (ws : List AxwIn) : List AxrJob := (axbHeads ws).flatMap fun w => axrJobs c.rd m cid w.hdr

/-- The AXI slave answers bursts in order, when it has accepted them, and `mem n` is what it reads for the burst with number `n`. -/
def AxbSlave (c : AxbCfg) (mem : Nat → Nat → UInt8) (s : Axb) (is : List AxbIn) : Prop :=
  ∀ pre, pre <+: is → (axbRs c s pre).map (fun d => (List.range (2 ^ c.tb)).map d) <+: burstData (2 ^ c.tb) mem 0 (axbArs c s pre)

/-- A history without reset in which the settings are constant. -/
def AxbSet (m cid : Nat) (is : List AxbIn) : Prop := ∀ i ∈ is, i.rst = false ∧ i.mps = m ∧ i.cid = cid

/-- In `js`, after `is`, the other sides of the read side are not waited for: completions and read addresses are accepted, and data
is there as long as a burst accepted has more. -/
def AxbGood (c : AxbCfg) (mem : Nat → Nat → UInt8) (s : Axb) (is js : List AxbIn) : Prop :=
  ∀ pre i, is <+: pre → pre ++ [i] <+: is ++ js → i.txReady = true ∧ i.arReady = true ∧
    ((axbRs c s pre).length < (burstData (2 ^ c.tb) mem 0 (axbArs c s pre)).length → i.rValid = true)

/-- Reads do not overtake writes: when a burst is read for a TLP that is accepted after the words `a`, the bytes that the memory
writes in `a` ask for have been written. -/
def AxbOrder (c : AxbCfg) (m cid : Nat) (s : Axb) (is : List AxbIn) : Prop :=
  ∀ a b, axbTaken c s is = a ++ b → ((axbJobs c m cid a).filterMap (jobBurst (2 ^ c.tb))).length < (axbArs c s is).length →
    (axwSplit a).1.flatMap (tlpWrites c.wr) <+: axiWrites (2 ^ c.tb) (axbAws c s is) (axbWs c s is)

end Verif.Spec
