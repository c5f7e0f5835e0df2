import Verif.Model.TlpFifoMux
/-!
Model of `rtl/pcie_ptile_if_tx.v` with one segment per word on both sides (`SEG_COUNT = TLP_SEG_COUNT = 1`). One step is one
clock edge; the width of the data and the depth of the FIFOs (512 DWORDs in the code, line 307) are arbitrary.

The four TLP inputs are the ports of the multiplexer: 0 for writes of the MSI controller, 1 for completions, 2 for read
requests, 3 for write requests. Simplifications: what one segment carries is one value of type `TlpSeg`. The outputs
`tx_st_err` and `tx_st_tlp_prfx`, which are constant, are left out.
-/
namespace Verif.Model

/-- `pcie_tlp_fifo_mux_inst` (`rtl/pcie_ptile_if_tx.v` lines 297-308): four ports, fixed priority, port 0 first. -/
def pttMux (f : TffCfg) : TxmCfg := { mux := { ports := 4, segs := 1, roundRobin := false, lsb := true }, fifo := f }

/-- Registers of `rtl/pcie_ptile_if_tx.v` lines 198-204 and 235-238: `rdy1`, `rdy2` are the two bits of
`tx_st_ready_delay_reg`, `valid` and `seg` are `tx_st_*_reg`; the others are the registers of the instances. -/
structure Ptt where
  mux : Txm := {}
  ph : PtileFc := {}
  nph : PtileFc := {}
  cplh : PtileFc := {}
  pd : PtileFc := {}
  npd : PtileFc := {}
  cpld : PtileFc := {}
  rdy1 : Bool := false
  rdy2 : Bool := false
  valid : Bool := false
  seg : TlpSeg := {}
  mps : Nat := 0
  haveP : Bool := false
  haveNp : Bool := false
  haveCpl : Bool := false

/-- Inputs of one clock cycle (`rtl/pcie_ptile_if_tx.v` lines 56-147): `valid p` and `seg p` belong to port `p`; `ready` is
`tx_st_ready`. -/
structure PttIn where
  rst : Bool := false
  valid : Nat → Bool
  seg : Nat → TlpSeg
  ready : Bool
  limit : Nat := 0
  idx : Nat := 0
  mps : Nat := 0

/-- The segment that port `p` of the multiplexer gets for a segment `g` (`rtl/pcie_ptile_if_tx.v` lines 240-280 and 320-322):
for read requests (port 2) only the header and the sequence number; the MSI controller and completions have no sequence
number. -/
def pttConv (p : Nat) (g : TlpSeg) : TlpSeg :=
  if p = 2 then { hdr := g.hdr, seq := g.seq, sop := true, eop := true }
  else { data := g.data, strb := g.strb, hdr := g.hdr, seq := if p = 3 then g.seq else 0, sop := g.sop, eop := g.eop }

/-- `mux_pause` (`rtl/pcie_ptile_if_tx.v` lines 249, 260, 271 and 282). -/
def pttPause (s : Ptt) (p : Nat) : Bool :=
  if p = 1 then !s.haveCpl else if p = 2 then !s.haveNp else !s.haveP

/-- The inputs of the multiplexer; it may send when `tx_st_ready` was set two cycles ago (`rtl/pcie_ptile_if_tx.v` lines
454-455). -/
def pttMuxIn (s : Ptt) (i : PttIn) : TxmIn :=
  { rst := i.rst, valid := i.valid, seg := fun p => pttConv p (i.seg p), pause := pttPause s, ready := s.rdy2 }

/-- The inputs of the credit counter with the given `INDEX` (`rtl/pcie_ptile_if_tx.v` lines 367-443). -/
def pttFcIn (i : PttIn) (index dec : Nat) : PtileIn :=
  { rst := i.rst, limit := i.limit, sel := i.idx == index, dec := dec }

/-- What of a segment goes to `tx_st_*`. -/
def pttWord (g : TlpSeg) : TlpSeg := { data := g.data, hdr := g.hdr, sop := g.sop, eop := g.eop }

/-- One clock edge (`rtl/pcie_ptile_if_tx.v` lines 445-485). -/
def pttStep (f : TffCfg) (s : Ptt) (i : PttIn) : Ptt :=
  { mux := txmStep (pttMux f) s.mux (pttMuxIn s i)
    ph := ptileStep 12 s.ph (pttFcIn i 0 s.mux.fc.ph)
    nph := ptileStep 12 s.nph (pttFcIn i 1 s.mux.fc.nph)
    cplh := ptileStep 12 s.cplh (pttFcIn i 2 s.mux.fc.cplh)
    pd := ptileStep 16 s.pd (pttFcIn i 4 s.mux.fc.pd)
    npd := ptileStep 16 s.npd (pttFcIn i 5 s.mux.fc.npd)
    cpld := ptileStep 16 s.cpld (pttFcIn i 6 s.mux.fc.cpld)
    rdy1 := !i.rst && i.ready
    rdy2 := !i.rst && s.rdy1
    valid := !i.rst && (s.rdy2 && s.mux.out.valid)
    seg := if s.rdy2 then pttWord s.mux.out.out else {}
    mps := 8 * 2 ^ (if i.mps > 5 then 5 else i.mps)
    haveP := decide (s.ph.av > 4) && decide (s.pd.av > s.mps * 2)
    haveNp := decide (s.nph.av > 4)
    haveCpl := decide (s.cplh.av > 4) && decide (s.cpld.av > s.mps * 2) }

/-- State after a list of clock cycles. -/
def pttRun (f : TffCfg) : Ptt → List PttIn → Ptt
  | s, [] => s
  | s, i :: is => pttRun f (pttStep f s i) is

end Verif.Model
