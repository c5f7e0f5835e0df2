import Verif.Model.ArbMux
import Verif.Model.TlpDemux
/-!
Model of `rtl/pcie_tlp_mux.v`. One step is one clock edge; the numbers of ports and of segments are arbitrary.

Simplifications: what one segment carries is one value of type `TlpSeg`, bit vectors are functions from the bit number to
`Bool`, and the registers and inputs of a port are functions of the port number. `out_sel` and `out_sel_cyc`, which the
code only ever sets from bit 0 upwards, are kept as the number of bits set. Segment offsets are natural numbers: the
registers have one bit more than a segment number needs, so a sum of an offset below `TLP_SEG_COUNT` and at most
`TLP_SEG_COUNT` fits unless it reaches `2*TLP_SEG_COUNT`, which it does not after a reset. The output registers are `Skid`
registers whose payload is a word with its valid bits and whose valid bit is "some segment is valid", as in the code,
where a vector is used as a condition.
-/
namespace Verif.Model

/-- Parameters of `rtl/pcie_tlp_mux.v` lines 36-51. -/
structure TmxCfg where
  ports : Nat
  segs : Nat
  roundRobin : Bool
  lsb : Bool

/-- The segments that one port carries in one cycle: valid bits and contents by lane (`rtl/pcie_tlp_mux.v` lines 60-69
and 75-84). -/
structure TmxWord where
  valid : Nat → Bool := fun _ => false
  seg : Nat → TlpSeg := fun _ => {}

/-- Registers of `rtl/pcie_tlp_mux.v` lines 121-148, 172 and 418-439. `seqV p g` is bit `TLP_SEG_COUNT*p + g` of
`sel_tlp_seq_valid_reg`, `seq g` is field `g` of `sel_tlp_seq_reg`. -/
structure Tmx where
  frame : Bool := false
  port : Nat := 0
  off : Nat → Nat := fun _ => 0
  reg : Nat → TmxWord := fun _ => {}
  seqV : Nat → Nat → Bool := fun _ _ => false
  seq : Nat → Nat := fun _ => 0
  skid : Skid TmxWord := { out := {}, temp := {} }

/-- Inputs of one clock cycle (`rtl/pcie_tlp_mux.v` lines 54-90). -/
structure TmxIn where
  rst : Bool := false
  word : Nat → TmxWord
  pause : Nat → Bool := fun _ => false
  ready : Bool

/-- Bit `k` of `in_tlp_valid_full[p]` (`rtl/pcie_tlp_mux.v` line 207): the register below, the input above. -/
def tmxFullV (c : TmxCfg) (s : Tmx) (i : TmxIn) (p k : Nat) : Bool :=
  if k < c.segs then (s.reg p).valid k else (i.word p).valid (k - c.segs)

/-- Segment `k` of `in_tlp_data_full[p]`, `in_tlp_strb_full[p]`, ... (`rtl/pcie_tlp_mux.v` lines 200-209). -/
def tmxFull (c : TmxCfg) (s : Tmx) (i : TmxIn) (p k : Nat) : TlpSeg :=
  if k < c.segs then (s.reg p).seg k else (i.word p).seg (k - c.segs)

/-- The variables of the loop over the segments (`rtl/pcie_tlp_mux.v` lines 121-137). `pv`, `pe` are `port_seg_valid`,
`port_seg_eop`; `sel` lists `out_sel_port`, `out_sel_seg`; `n` is the number of bits set in `out_sel`. -/
structure TmxVar where
  frame : Bool
  port : Nat
  segOff : Nat
  abort : Bool
  pv : Nat → Nat → Bool
  pe : Nat → Nat → Bool
  sel : List (Nat × Nat)
  seqC : Nat → Nat → Bool
  frameN : Bool
  portN : Nat
  offN : Nat → Nat
  n : Nat
  seqN : Nat → Nat → Bool

/-- The variables before the loop (`rtl/pcie_tlp_mux.v` lines 183-246). The vectors of `2*TLP_SEG_COUNT` bits are cut off
a doubled vector that is shifted right by the offset. -/
def tmxVar0 (c : TmxCfg) (s : Tmx) (i : TmxIn) : TmxVar :=
  { frame := s.frame, port := s.port, segOff := s.off s.port, abort := false
    pv := fun p k => decide (k < 2 * c.segs) && !i.pause p && tmxFullV c s i p ((s.off p + k) % (2 * c.segs))
    pe := fun p k => decide (k < 2 * c.segs) && (tmxFull c s i p ((s.off p + k) % (2 * c.segs))).eop
    sel := [], seqC := fun _ _ => false
    frameN := s.frame, portN := s.port, offN := s.off, n := 0, seqN := fun _ _ => false }

/-- The port checked after port `p` (`rtl/pcie_tlp_mux.v` lines 253-265 and 286-298). -/
def tmxNext (c : TmxCfg) (p : Nat) : Nat :=
  if c.lsb then (if p < c.ports - 1 then p + 1 else 0) else (if p > 0 then p - 1 else c.ports - 1)

/-- The first port checked (`rtl/pcie_tlp_mux.v` lines 251-273). -/
def tmxFirst (c : TmxCfg) (p : Nat) : Nat :=
  if c.roundRobin then tmxNext c p else if c.lsb then 0 else c.ports - 1

/-- The loop over the ports (`rtl/pcie_tlp_mux.v` lines 274-299), with `n` passes left: `port_cyc` and whether a port was
found. `last` is `port_cyc` so far. -/
def tmxScan (c : TmxCfg) (v : Nat → Bool) : Nat → Nat → Nat → Nat × Bool
  | 0, _, last => (last, false)
  | n + 1, cur, _ => if v cur then (cur, true) else tmxScan c v n (tmxNext c cur) cur

/-- The selected port and `frame_cyc` after arbitration (`rtl/pcie_tlp_mux.v` lines 249-300). -/
def tmxArb (c : TmxCfg) (v : TmxVar) : Nat × Bool :=
  if v.frame then (v.port, true) else tmxScan c (fun p => v.pv p 0) c.ports (tmxFirst c v.port) v.port

/-- One pass of the loop over the segments (`rtl/pcie_tlp_mux.v` lines 248-335); `ready` is `out_tlp_ready_int_reg`. -/
def tmxSeg (c : TmxCfg) (ready : Bool) (v : TmxVar) (g : Nat) : TmxVar :=
  let p := (tmxArb c v).1
  let frame := (tmxArb c v).2
  let segOff := if v.frame then v.segOff else v.offN p
  let seqC := fun q h => if !v.frame && frame && decide (q = p ∧ h = g) then true else v.seqC q h
  let valid := v.pv p 0
  let eop := v.pe p 0
  let sel := v.sel ++ [(p, segOff)]
  let frameC := if eop then false else frame
  let commit := frame && !v.abort && valid && (eop || decide (g = c.segs - 1)) && ready
  { frame := frameC, port := p, segOff := segOff + 1
    abort := v.abort || (frame && !valid)
    pv := fun q k => if q = p then v.pv q (k + 1) else v.pv q k
    pe := fun q k => if q = p then v.pe q (k + 1) else v.pe q k
    sel := sel, seqC := seqC
    frameN := if commit then frameC else v.frameN
    portN := if commit then p else v.portN
    offN := fun q => if commit && decide (q = p) then segOff + 1 else v.offN q
    n := if commit then g + 1 else v.n
    seqN := if commit then seqC else v.seqN }

/-- The variables after the loop (`rtl/pcie_tlp_mux.v` lines 183-335). -/
def tmxVar1 (c : TmxCfg) (s : Tmx) (i : TmxIn) : TmxVar :=
  (List.range c.segs).foldl (tmxSeg c s.skid.ready) (tmxVar0 c s i)

/-- The output word (`rtl/pcie_tlp_mux.v` lines 337-353). -/
def tmxOut (c : TmxCfg) (s : Tmx) (i : TmxIn) : TmxWord :=
  let v := tmxVar1 c s i
  { valid := fun g => decide (g < v.n) && tmxFullV c s i (v.sel.getD g (0, 0)).1 (v.sel.getD g (0, 0)).2
    seg := fun g => tmxFull c s i (v.sel.getD g (0, 0)).1 (v.sel.getD g (0, 0)).2 }

/-- `in_tlp_valid_next[p]` before an input is loaded (`rtl/pcie_tlp_mux.v` line 357). -/
def tmxKeep (c : TmxCfg) (s : Tmx) (i : TmxIn) (p k : Nat) : Bool :=
  (s.reg p).valid k && decide ((tmxVar1 c s i).offN p ≤ k)

/-- `in_tlp_ready[p]` (`rtl/pcie_tlp_mux.v` lines 355-378): nothing is left in the register. -/
def tmxReady (c : TmxCfg) (s : Tmx) (i : TmxIn) (p : Nat) : Bool :=
  (List.range c.segs).all fun k => !tmxKeep c s i p k

/-- `port_seg_offset_next[p]` (`rtl/pcie_tlp_mux.v` lines 359-363). -/
def tmxOff (c : TmxCfg) (s : Tmx) (i : TmxIn) (p : Nat) : Nat :=
  let o := (tmxVar1 c s i).offN p
  if o ≥ c.segs then o - c.segs
  else if (List.range c.segs).any (s.reg p).valid && tmxReady c s i p then 0 else o

/-- One clock edge (`rtl/pcie_tlp_mux.v` lines 383-416 and 457-533). -/
def tmxStep (c : TmxCfg) (s : Tmx) (i : TmxIn) : Tmx :=
  let v := tmxVar1 c s i
  let o := tmxOut c s i
  { frame := if i.rst then false else v.frameN
    port := if i.rst then 0 else v.portN
    off := fun p => if i.rst then 0 else tmxOff c s i p
    reg := fun p =>
      { valid := fun k => if i.rst then false else if tmxReady c s i p then (i.word p).valid k else tmxKeep c s i p k
        seg := if tmxReady c s i p then (i.word p).seg else (s.reg p).seg }
    seqV := fun p g => if i.rst then false else v.seqN p g
    seq := fun g => (o.seg g).seq
    skid := skidStep i.rst s.skid ((List.range c.segs).any o.valid) o i.ready }

end Verif.Model
