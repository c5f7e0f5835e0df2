import Verif.Spec.DmaIfPcieWr
import Verif.Proofs.OpTable
import Verif.Proofs.Ring
/-! Abstract view of the pipeline of the DMA write interface. -/
namespace Verif.Proofs
open Verif Verif.Model Verif.Spec

/-- The TLP state machine after a transfer that is not the last. -/
def txNext (c : DwrCfg) (x : DwrTx) : DwrTx :=
  { x with
    dw := (x.dw + 2 ^ 10 - 2 ^ (c.tb - 2) % 2 ^ 10) % 2 ^ 10
    offset := (x.offset + c.tlpBytes) % c.rowBytes
    cyc := x.cyc - 1
    lastC := x.cyc - 1 == 0
    frame := true }

/-- The TLP state machine before transfer `n` of a TLP. -/
def txAt (c : DwrCfg) (r : DwrReq) : Nat → DwrTx
  | 0 => dwrTxLoad (dwrOpOf c r) true
  | n + 1 => txNext c (txAt c r n)

/-- Number of the last transfer of a TLP. -/
def segCyc (c : DwrCfg) (r : DwrReq) : Nat := (r.tlpCount + r.addr % 4 - 1) / c.tlpBytes

/-- `n + 1` successive states of the read state machine. -/
def rdSeq (c : DwrCfg) : Nat → DwrRd → List DwrRd
  | 0, x => [x]
  | n + 1, x => x :: rdSeq c n (dwrRdNext c x)

/-- The reads for a TLP. -/
def segReads (c : DwrCfg) (r : DwrReq) : List DwrRd := rdSeq c (segCyc c r) (dwrRdLoad c (dwrCmdOf c r) true)

/-- The segments for which a read waits. -/
def maskOf (c : DwrCfg) (u : DwrRd) : Nat → Bool := if c.immEn && u.immEn then fun _ => false else u.mask

/-- The address read in a segment. -/
def rdAddr (c : DwrCfg) (u : DwrRd) (k : Nat) : Nat :=
  if u.mask1 k then (u.ram / c.rowBytes + 1) % 2 ^ (c.ramW - (c.tb + 1))
  else u.ram / c.rowBytes % 2 ^ (c.ramW - (c.tb + 1))

/-- The request state machine after acceptance of a descriptor. -/
def reqOf (m : Nat) (d : WrDesc) : DwrReq :=
  { start := true, addr := d.addr, sel := if d.immEn then 0 else d.sel, ram := if d.immEn then 0 else d.ram,
    imm := d.imm, immEn := d.immEn, count := if d.len = 0 then 1 else d.len,
    tlpCount := dwrTlpSize m d.addr (if d.len = 0 then 1 else d.len), tag := d.tag, zero := decide (d.len = 0),
    ready := false }

/-- The request state machine after the start of a TLP that is not the last. -/
def reqNext (c : DwrCfg) (m : Nat) (r : DwrReq) : DwrReq :=
  { r with
    addr := (r.addr + r.tlpCount) % 2 ^ 64
    ram := (r.ram + r.tlpCount) % 2 ^ c.ramW
    count := r.count - r.tlpCount
    tlpCount := dwrTlpSize m ((r.addr + r.tlpCount) % 2 ^ 64) (r.count - r.tlpCount) }

/-- The TLPs from a state of the request state machine, at most `n`. -/
def reqSegs (c : DwrCfg) (m : Nat) : Nat → DwrReq → List DwrReq
  | 0, _ => []
  | n + 1, r => r :: if r.count = r.tlpCount then [] else reqSegs c m n (reqNext c m r)

/-- The TLPs of a descriptor. -/
def descSegs (c : DwrCfg) (m : Nat) (d : WrDesc) : List DwrReq := reqSegs c m (reqOf m d).count (reqOf m d)

/-- The tags of those that are the last of their descriptor. -/
def lastTags (l : List DwrReq) : List Nat := (l.filter fun r => r.count == r.tlpCount).map (·.tag)

/-- The transfers of a TLP. -/
def segBeats (c : DwrCfg) (r : DwrReq) : List (DwrReq × Nat) := (List.range (segCyc c r + 1)).map fun n => (r, n)

/-- Transfer `n` of TLP `r` is as it should be. -/
structure BeatOk (c : DwrCfg) (mem : Nat → Nat → UInt8) (rid : Nat) (r : DwrReq) (n : Nat) (b : DwrBeat) : Prop where
  strb : b.strb = dwrStrb c (txAt c r n).dw
  hdr : b.hdr = dwrHdr c (txAt c r n) rid
  sop : b.sop = (n == 0)
  eop : b.eop = (n == segCyc c r)
  data : ∃ row u, (segReads c r)[n]? = some u ∧
    (b.data = fun l => row ((l + c.rowBytes - (txAt c r n).offset) % c.rowBytes)) ∧
    ((c.immEn && r.immEn) = true → row = r.imm) ∧
    (∀ k, k < c.segs → maskOf c u k = true → ∀ j, j < c.segBytes →
      row (k * c.segBytes + j) = mem u.sel (rdAddr c u k * c.rowBytes + (k * c.segBytes + j)))

/-- Ghost state: finished, transmitted and waiting TLPs, the TLP in transmission and the number of its next transfer,
the reads whose data has not been used, the TLP of the read command; and the history. -/
structure DwrGhost where
  D : List DwrReq
  A : List DwrReq
  B : Option (DwrReq × Nat)
  C : List DwrReq
  U : List DwrRd
  cmdSeg : DwrReq
  pend : Nat → List (Nat × Nat)
  acc : List WrDesc
  outs : List DwrBeat
  P : List ((DwrReq × Nat) × DwrBeat)
  sts : List Nat

/-- The TLP in transmission. -/
def bSeg (B : Option (DwrReq × Nat)) : List DwrReq := (B.map (·.1)).toList

/-- The reads not yet issued. -/
def readRem (c : DwrCfg) (g : DwrGhost) (s : Dwr) : List DwrRd :=
  (if s.rd.read then rdSeq c s.rd.cyc s.rd else []) ++ (if s.cmdV then segReads c g.cmdSeg else [])

/-- The reads of the TLP in transmission that it still needs. -/
def bReads (c : DwrCfg) (B : Option (DwrReq × Nat)) : List DwrRd :=
  match B with
  | none => []
  | some (r, n) => (segReads c r).drop n

/-- The transfers made of the TLP in transmission. -/
def bBeats (B : Option (DwrReq × Nat)) : List (DwrReq × Nat) :=
  match B with
  | none => []
  | some (r, n) => (List.range n).map fun k => (r, k)

/-- The request state machine holds a TLP to start. -/
structure ReqOk (m : Nat) (r : DwrReq) : Prop where
  ready : r.ready = false
  size : r.tlpCount = dwrTlpSize m r.addr r.count
  pos : 1 ≤ r.count

/-- Invariant. -/
structure DwrInv (c : DwrCfg) (mem : Nat → Nat → UInt8) (m rid : Nat) (g : DwrGhost) (s : Dwr) : Prop where
  tbl : TblOk c.opW s.tbl g.D.length (g.A.map (dwrOpOf c)) ((bSeg g.B).map (dwrOpOf c)) (g.C.map (dwrOpOf c))
  tx0 : g.B = none → s.tx.transfer = false
  tx1 : ∀ r n, g.B = some (r, n) → s.tx = txAt c r n ∧ n ≤ segCyc c r
  cmd : s.cmdV = true → s.cmd = dwrCmdOf c g.cmdSeg
  rdL : s.rd.read = true → s.rd.lastC = (s.rd.cyc == 0)
  reads : g.U ++ readRem c g s = bReads c g.B ++ g.C.flatMap (segReads c)
  ring : RingOk (c.opW + 1) s.fifo
  fifo : (if s.ramMaskV then [s.ramMask] else []) ++ ringList (c.opW + 1) s.fifo = g.U.map (maskOf c)
  pend : ∀ k, k < c.segs → g.pend k ++ (if s.cmdValid k then [(s.cmdSel k, s.cmdAddr k)] else []) =
    (g.U.filter (maskOf c · k)).map fun u => (u.sel, rdAddr c u k)
  req : s.req.start = true → ReqOk m s.req
  segs : g.D ++ g.A ++ bSeg g.B ++ g.C ++ (if s.req.start then reqSegs c m s.req.count s.req else []) =
    g.acc.flatMap (descSegs c m)
  mps : s.mpsDw = m
  outs : g.outs ++ (if s.outV then [s.out] else []) = g.P.map (·.2)
  beats : g.P.map (·.1) = (g.D ++ g.A).flatMap (segBeats c) ++ bBeats g.B
  ok : ∀ p ∈ g.P, BeatOk c mem rid p.1.1 p.1.2 p.2
  st : g.sts ++ (if s.stV then [s.stTag] else []) = lastTags g.D

/-- The ghost state after an edge. -/
def dwrGhost (c : DwrCfg) (g : DwrGhost) (s : Dwr) (i : DwrIn) : DwrGhost :=
  { D := g.D ++ g.A.take (dwrFinish c s).toNat
    A := g.A.drop (dwrFinish c s).toNat ++ (if dwrTxFinish c s i then bSeg g.B else [])
    B := if dwrTxStart c s i then g.C.head?.map (·, 0) else if dwrTxFinish c s i then none
      else if dwrBeat c s i then g.B.map fun x => (x.1, x.2 + 1) else g.B
    C := g.C.drop (dwrTxStart c s i).toNat ++ (if dwrOpStart c s i then [s.req] else [])
    U := g.U.drop (dwrBeat c s i).toNat ++ (if dwrRead c s i then [s.rd] else [])
    cmdSeg := if dwrOpStart c s i then s.req else g.cmdSeg
    pend := pendNext c s i g.pend
    acc := g.acc ++ (if s.req.ready && i.valid then [descOf c i] else [])
    outs := g.outs ++ (if s.outV && i.tlpReady then [s.out] else [])
    P := g.P ++ (if dwrBeat c s i then (match g.B with | none => [] | some x => [(x, dwrBeatOut c s i)]) else [])
    sts := g.sts ++ (if s.stV then [s.stTag] else []) }

end Verif.Proofs
