/-!
Model of `rtl/pcie_us_if_cc.v` and `rtl/pcie_us_if_rq.v`: they turn TLP segments, a header beside the data, into the AXI
streams of the UltraScale core with completer completions (CC) and requester requests (RQ), a descriptor followed by data.
One step is one clock edge. The modules begin with FIFOs (`pcie_tlp_fifo_raw`), one for CC, one for read requests (port 0)
and one for write requests (port 1) for RQ. They are left out: what they show at their outputs is an input of this model,
what is read from them an output.

Both modules have the same structure; the model has the descriptor length `D` (3 for CC, 4 for RQ), the conversion of the
header and the side band as parameters. Vectors are functions of the lane (one DWORD) or of the port.

Simplification: positions in a FIFO's output are counted from `fifo_seg_offset` on, so that index `k` stands for
`(fifo_seg_offset + k) % INT_TLP_SEG_COUNT`; segments that are not valid follow the valid ones.
-/
namespace Verif.Model

/-- A segment at the output of a FIFO, `rtl/pcie_us_if_rq.v` lines 295-301, `rtl/pcie_us_if_cc.v` lines 179-184. -/
structure UtxSeg where
  hdr : Nat := 0
  seq : Nat := 0
  sop : Bool := false
  eop : Bool := false
  data : Nat → Nat := fun _ => 0
  strb : Nat → Bool := fun _ => false

/-- Side band of the AXI stream: below 512 bits, with 512 bits, with 512 bits and straddling. -/
inductive UtxMode
  | plain | plain512 | straddle
deriving DecidableEq, Repr

/-- Parameters: `W` is `INT_TLP_SEG_STRB_WIDTH`, `S` is `INT_TLP_SEG_COUNT` (`rtl/pcie_us_if_cc.v` lines 82-84,
`rtl/pcie_us_if_rq.v` lines 132-134), `D` the number of descriptor DWORDs, `Q` is `RQ_SEQ_NUM_WIDTH`, `conv` makes DWORD
`k` of the descriptor from the header. -/
structure UtxCfg where
  W : Nat
  S : Nat
  D : Nat
  Q : Nat
  mode : UtxMode
  conv : Nat → Nat → Nat

/-- The RQ module, which has two ports, credits and sequence numbers. -/
def UtxCfg.rq (c : UtxCfg) : Bool := c.D == 4

/-- Number of ports, `rtl/pcie_us_if_rq.v` line 138. -/
def UtxCfg.P (c : UtxCfg) : Nat := if c.rq then 2 else 1

/-- The number of descriptor DWORDs that share a segment with payload: 1 for CC at 64 bits, 3 for CC otherwise
(`rtl/pcie_us_if_cc.v` lines 333, 414 and 439), 4 for RQ above 128 bits (lines 509 and 709 of `rtl/pcie_us_if_rq.v`), 0 for
RQ at 64 and 128 bits. -/
def UtxCfg.r (c : UtxCfg) : Nat := c.D % c.W

/-- Bits `lo + n - 1 .. lo` of a number. -/
def utxBits (x lo n : Nat) : Nat := x / 2 ^ lo % 2 ^ n

/-- `seg_cc_hdr`, `rtl/pcie_us_if_cc.v` lines 390-407. -/
def ccConv (hdr k : Nat) : Nat :=
  match k with
  | 0 => utxBits hdr 32 7 + utxBits hdr 106 2 * 2 ^ 8 + utxBits hdr 64 12 * 2 ^ 16
  | 1 => utxBits hdr 96 10 + utxBits hdr 77 3 * 2 ^ 11 + utxBits hdr 110 1 * 2 ^ 14 + utxBits hdr 48 16 * 2 ^ 16
  | 2 => utxBits hdr 40 8 + utxBits hdr 80 16 * 2 ^ 8 + utxBits hdr 116 3 * 2 ^ 25 + utxBits hdr 108 2 * 2 ^ 28 +
      utxBits hdr 114 1 * 2 ^ 30
  | _ => 0

/-- Request type, `rtl/pcie_us_if_rq.v` lines 657-671 with the codes of lines 206-221. -/
def rqType (fmt type : Nat) : Nat :=
  if fmt / 2 = 0 ∧ type = 0 then 0
  else if fmt / 2 = 0 ∧ type = 1 then 7
  else if fmt / 2 = 1 ∧ type = 0 then 1
  else if fmt / 2 = 0 ∧ type = 2 then 2
  else if fmt / 2 = 1 ∧ type = 2 then 3
  else if fmt = 0 ∧ type = 4 then 8
  else if fmt = 2 ∧ type = 4 then 10
  else if fmt = 0 ∧ type = 5 then 9
  else if fmt = 2 ∧ type = 5 then 11
  else if fmt / 2 = 1 ∧ type = 12 then 4
  else if fmt / 2 = 1 ∧ type = 13 then 5
  else if fmt / 2 = 1 ∧ type = 14 then 6
  else 1

/-- `seg_rq_hdr`, `rtl/pcie_us_if_rq.v` lines 654-679. -/
def rqConv (hdr k : Nat) : Nat :=
  match k with
  | 0 => utxBits hdr 106 2 + utxBits hdr 2 30 * 4
  | 1 => utxBits hdr 32 32
  | 2 => utxBits hdr 96 10 + (if utxBits hdr 96 10 = 0 then 1 else 0) * 2 ^ 10 +
      rqType (utxBits hdr 125 3) (utxBits hdr 120 5) * 2 ^ 11 + utxBits hdr 110 1 * 2 ^ 15 + utxBits hdr 80 16 * 2 ^ 16
  | 3 => utxBits hdr 72 8 + utxBits hdr 116 3 * 2 ^ 25 + utxBits hdr 108 2 * 2 ^ 28 + utxBits hdr 114 1 * 2 ^ 30
  | _ => 0

/-- Inputs of one cycle: reset, `tready` of the AXI stream, what the FIFOs show (port `p` has `avail p` valid segments,
`view p k` is number `k` of them), the credits (`tx_fc_ph_av`, `tx_fc_pd_av`, `tx_fc_nph_av`) and `max_payload_size`. -/
structure UtxIn where
  rst : Bool := false
  tready : Bool := false
  avail : Nat → Nat := fun _ => 0
  view : Nat → Nat → UtxSeg := fun _ _ => {}
  ph : Nat := 0
  pd : Nat := 0
  nph : Nat := 0
  mps : Nat := 0

/-- A segment as the module sees it: there is no data from the FIFO for read requests (`rtl/pcie_us_if_rq.v` lines
378-379). -/
def utxView (c : UtxCfg) (i : UtxIn) (p k : Nat) : UtxSeg :=
  if c.rq && p == 0 then { i.view p k with data := fun _ => 0, strb := fun _ => false } else i.view p k

/-- A word of the AXI stream. -/
structure UtxWord where
  tdata : Nat → Nat := fun _ => 0
  tkeep : Nat → Bool := fun _ => false
  tlast : Bool := false
  tuser : Nat := 0

/-- Bits `lo + n - 1 .. lo` of `tuser`. -/
def UtxWord.user (o : UtxWord) (lo n : Nat) : Nat := o.tuser / 2 ^ lo % 2 ^ n

/-- Registers, `rtl/pcie_us_if_cc.v` lines 136-171, `rtl/pcie_us_if_rq.v` lines 223-273. `shiftD`, `shiftS` are
`out_shift_tlp_data_reg` and `out_shift_tlp_strb_reg`; credits only in the RQ module. -/
structure Utx where
  frame : Bool := false
  hdr1 : Bool := false
  hdr2 : Bool := false
  split1 : Bool := false
  split2 : Bool := false
  port : Nat := 0
  shiftD : Nat → Nat := fun _ => 0
  shiftS : Nat → Bool := fun _ => false
  tvalid : Bool := false
  word : UtxWord := {}
  mpsReg : Nat := 0
  haveP : Bool := false
  haveNp : Bool := false

/-- The settings for one output segment: `out_sel_port`, `out_sel_seg`, `out_tlp_hdr1`, `out_tlp_hdr2`, `out_tlp_split2`,
`out_sop`, `out_eop`. -/
structure UtxSlot where
  port : Nat
  idx : Nat
  hdr1 : Bool
  hdr2 : Bool
  split2 : Bool
  sop : Bool
  eop : Bool
deriving DecidableEq, Repr

/-- The variables of the loop over the output segments: those with suffix `_cyc`, `abort`; `off` is how far the vectors
`port_seg_valid` etc. have been shifted, `cnt` is `seg_count_cyc` (`seg_offset_cyc` goes along with it), `coff` is
`port_seg_count_cyc`, `slots` collects the settings; the names with `c` hold the values of the last commit (`_next`,
`fifo_read_seg_count` in `coff`, number of bits set in `out_sel` in `csel`). -/
structure UtxCyc where
  frame : Bool
  hdr1 : Bool
  hdr2 : Bool
  split1 : Bool
  split2 : Bool
  port : Nat
  abort : Bool
  off : Nat → Nat
  cnt : Nat
  coff : Nat → Nat
  slots : List UtxSlot
  cframe : Bool
  chdr1 : Bool
  chdr2 : Bool
  csplit1 : Bool
  csplit2 : Bool
  cport : Nat
  csel : Nat

/-- `port_have_credit`, `rtl/pcie_us_if_rq.v` lines 381 and 448; the CC module needs none. -/
def utxCredit (c : UtxCfg) (st : Utx) (p : Nat) : Bool :=
  if c.rq then (if p = 0 then st.haveNp else st.haveP) else true

/-- Select a port, `rtl/pcie_us_if_rq.v` lines 521-544; with one port and without credits `rtl/pcie_us_if_cc.v` lines
303-311. -/
def utxSelect (c : UtxCfg) (cr : Nat → Bool) (i : UtxIn) (x : UtxCyc) : UtxCyc :=
  if !x.frame && !x.abort then
    let y := { x with hdr1 := true, hdr2 := false, split1 := false, split2 := false }
    match (List.range c.P).find? (fun p => decide (x.off p < i.avail p) && cr p) with
    | some p => { y with frame := true, port := p, cnt := if c.rq then x.coff p else x.cnt }
    | none => y
  else x

/-- `fifo_tlp_extra`, `rtl/pcie_us_if_rq.v` line 508, condition in `rtl/pcie_us_if_cc.v` line 333: the segment ends a packet
and has payload in its last `r` lanes. -/
def utxExtra (c : UtxCfg) (g : UtxSeg) : Bool :=
  g.eop && (List.range c.r).any fun j => g.strb (c.W - c.r + j)

/-- Read the current segment from the FIFO. -/
def UtxCyc.advance (x : UtxCyc) : UtxCyc :=
  { x with off := fun p => if p = x.port then x.off p + 1 else x.off p, cnt := x.cnt + 1 }

/-- Route a segment, `rtl/pcie_us_if_rq.v` lines 546-613, `rtl/pcie_us_if_cc.v` lines 313-355; also whether the packet ends
(`out_eop`). -/
def utxRoute (c : UtxCfg) (i : UtxIn) (x : UtxCyc) : UtxCyc × Bool :=
  let g := utxView c i x.port (x.off x.port)
  let y := { x with hdr1 := false, hdr2 := false }
  if c.W == 2 && x.hdr1 then ({ y with hdr2 := true }, false)
  else if c.r == 0 && (x.hdr1 || x.hdr2) then
    if g.eop && !(List.range c.W).any (utxView c i x.port x.cnt).strb then ({ y with frame := false }.advance, true)
    else (y, false)
  else if c.r != 0 && utxExtra c g then
    if x.split1 then ({ y with frame := false, split1 := false, split2 := true }.advance, true)
    else ({ y with split1 := true }, false)
  else ({ y with frame := y.frame && !g.eop }.advance, g.eop)

/-- Commit the segments up to and including segment `k`, `rtl/pcie_us_if_rq.v` lines 620-634, `rtl/pcie_us_if_cc.v` lines
362-372. -/
def UtxCyc.commit (x : UtxCyc) (k : Nat) : UtxCyc :=
  { x with
    coff := fun p => if p = x.port then x.cnt else x.coff p
    cframe := x.frame, chdr1 := x.hdr1, chdr2 := x.hdr2, csplit1 := x.split1, csplit2 := x.split2, cport := x.port
    csel := k + 1 }

/-- One round of the loop, `rtl/pcie_us_if_rq.v` lines 520-640, `rtl/pcie_us_if_cc.v` lines 302-379. -/
def utxSlot (c : UtxCfg) (cr : Nat → Bool) (i : UtxIn) (x0 : UtxCyc) (k : Nat) : UtxCyc :=
  let x := utxSelect c cr i x0
  let valid := decide (x.off x.port < i.avail x.port)
  let eop := (utxView c i x.port (x.off x.port)).eop
  let r := utxRoute c i x
  let y := { r.1 with slots := x.slots ++
    [{ port := x.port, idx := x.cnt, hdr1 := x.hdr1, hdr2 := x.hdr2, split2 := r.1.split2, sop := x.hdr1, eop := r.2 }] }
  if x.frame && !x.abort then
    if valid then (if eop || k + 1 == c.S then y.commit k else y)
    else { y with abort := true }
  else y

/-- The values before the loop, `rtl/pcie_us_if_rq.v` lines 453-503, `rtl/pcie_us_if_cc.v` lines 258-299. -/
def utxCyc0 (st : Utx) : UtxCyc :=
  { frame := st.frame, hdr1 := st.hdr1, hdr2 := st.hdr2, split1 := st.split1, split2 := st.split2, port := st.port
    abort := false, off := fun _ => 0, cnt := 0, coff := fun _ => 0, slots := []
    cframe := st.frame, chdr1 := st.hdr1, chdr2 := st.hdr2, csplit1 := st.split1, csplit2 := st.split2, cport := st.port
    csel := 0 }

/-- The loop over the output segments. -/
def utxLoop (c : UtxCfg) (st : Utx) (i : UtxIn) : UtxCyc :=
  (List.range c.S).foldl (utxSlot c (utxCredit c st) i) (utxCyc0 st)

/-- The output register is free: `!m_axis_rq_tvalid || m_axis_rq_tready`. -/
def utxFree (st : Utx) (i : UtxIn) : Bool := !st.tvalid || i.tready

/-- How many output segments are used (`out_sel`). -/
def utxSel (c : UtxCfg) (st : Utx) (i : UtxIn) : Nat := if utxFree st i then (utxLoop c st i).csel else 0

/-- How many segments are read from the FIFO of port `p` (`fifo_read_en`, `fifo_read_seg_count`). -/
def utxRead (c : UtxCfg) (st : Utx) (i : UtxIn) (p : Nat) : Nat := if utxFree st i then (utxLoop c st i).coff p else 0

/-- `out_shift_tlp_data_next` and `out_shift_tlp_strb_next` before output segment `k`, given the settings and how many
segments are selected, `rtl/pcie_us_if_rq.v` lines 502-503 and 728-731, `rtl/pcie_us_if_cc.v` lines 298-299, 430-433 and
451-454. -/
def utxShift (c : UtxCfg) (st : Utx) (i : UtxIn) (l : List UtxSlot) (sel : Nat) : Nat → (Nat → Nat) × (Nat → Bool)
  | 0 => (st.shiftD, st.shiftS)
  | k + 1 => match l[k]? with
    | some s =>
      if k < sel then
        let g := utxView c i s.port s.idx
        (fun j => g.data (c.W - c.r + j), fun j => g.strb (c.W - c.r + j))
      else utxShift c st i l sel k
    | none => utxShift c st i l sel k

/-- `out_tlp_data` and `out_tlp_strb` of lane `j` of a segment, `rtl/pcie_us_if_rq.v` lines 685-731,
`rtl/pcie_us_if_cc.v` lines 410-455. -/
def utxLane (c : UtxCfg) (i : UtxIn) (sh : (Nat → Nat) × (Nat → Bool)) (s : UtxSlot) (j : Nat) : Nat × Bool :=
  let g := utxView c i s.port s.idx
  if s.hdr1 && decide (j < c.D) then (c.conv g.hdr j, true)
  else if c.W == 2 && s.hdr2 && decide (j + 2 < c.D) then (c.conv g.hdr (j + 2), true)
  else if j < c.r then (sh.1 j, sh.2 j)
  else (g.data (j - c.r), g.strb (j - c.r) && (c.r == 0 || !s.split2))

/-- Settings for output segment `k`. -/
def utxSlotAt (l : List UtxSlot) (k : Nat) : UtxSlot := l.getD k ⟨0, 0, false, false, false, false, false⟩

/-- `eop_index` of a segment: the last lane with a strobe, 3 bits, `rtl/pcie_us_if_rq.v` lines 749-754,
`rtl/pcie_us_if_cc.v` lines 458-465. -/
def utxEopIndex (W : Nat) (strb : Nat → Bool) : Nat :=
  (List.range W).foldl (fun a l => if strb l then l else a) 0 % 8

/-- Assignment of fields to a vector: position of the lowest bit, width, value. -/
abbrev UtxFields := List (Nat × Nat × Nat)

/-- The vector; the fields come in ascending order and do not overlap. `b` is the position of the lowest bit. -/
def utxPack (b : Nat) : UtxFields → Nat
  | [] => 0
  | (lo, n, v) :: fs => v % 2 ^ n * 2 ^ (lo - b) + utxPack (lo + n) fs * 2 ^ (lo - b + n)

/-- `m_axis_cc_tuser_next`, `rtl/pcie_us_if_cc.v` lines 481-533. `v`, `e`: the segments with a start and with an end of
packet; `x`: `eop_index`. Bits beyond the last field are 0. -/
def utxUserCc (m : UtxMode) (v e : Nat → Bool) (x : Nat → Nat) : UtxFields :=
  match m with
  | .plain => [(0, 33, 0)]
  | _ =>
    (match v 0, v 1 with
      | false, false => [(0, 2, 0), (2, 2, 0), (4, 2, 0)]
      | true, false => [(0, 2, 1), (2, 2, 0), (4, 2, 0)]
      | false, true => [(0, 2, 1), (2, 2, 2), (4, 2, 0)]
      | true, true => [(0, 2, 3), (2, 2, 0), (4, 2, 2)]) ++
    (match e 0, e 1 with
      | false, false => [(6, 2, 0), (8, 4, 0), (12, 4, 0)]
      | true, false => [(6, 2, 1), (8, 4, x 0), (12, 4, 0)]
      | false, true => [(6, 2, 1), (8, 4, 8 + x 1), (12, 4, 0)]
      | true, true => [(6, 2, 3), (8, 4, x 0), (12, 4, 8 + x 1)]) ++ [(16, 1, 0)]

/-- `m_axis_rq_tuser_next`, `rtl/pcie_us_if_rq.v` lines 757-866. `be` holds first and last byte enables of the segments, `q`
the sequence numbers, `Q` is the width of sequence numbers (`AXIS_PCIE_RQ_USER_WIDTH == 62` if `Q` is 6). -/
def utxUserRq (m : UtxMode) (Q : Nat) (v e : Nat → Bool) (x : Nat → Nat) (be q : Nat → Nat) : UtxFields :=
  match m with
  | .plain => [(0, 4, be 0 % 16), (4, 4, be 0 / 16), (8, 3, 0), (11, 1, 0), (12, 1, 0), (13, 11, 0), (24, 4, q 0)] ++ (if Q = 6 then [(60, 2, q 0 / 16)] else [])
  | .plain512 => [(0, 4, be 0 % 16), (4, 4, 0), (8, 4, be 0 / 16), (12, 4, 0), (16, 4, 0), (36, 1, 0), (37, 2, 0),
      (39, 22, 0), (61, 6, q 0), (67, 6, 0)]
  | .straddle =>
    let k := if !v 0 && v 1 then 1 else 0
    [(0, 4, be k % 16), (4, 4, be 1 % 16), (8, 4, be k / 16), (12, 4, be 1 / 16), (16, 4, 0)] ++
    (match v 0, v 1 with
      | false, false => [(20, 2, 0), (22, 2, 0)]
      | true, false => [(20, 2, 1), (22, 2, 0)]
      | false, true => [(20, 2, 1), (22, 2, 2)]
      | true, true => [(20, 2, 3), (22, 2, 0)]) ++ [(24, 2, 2)] ++
    (match e 0, e 1 with
      | false, false => [(26, 2, 0), (28, 4, x 0)]
      | true, false => [(26, 2, 1), (28, 4, x 0)]
      | false, true => [(26, 2, 1), (28, 4, 8 + x 1)]
      | true, true => [(26, 2, 3), (28, 4, x 0)]) ++ [(32, 4, 8 + x 1)] ++
    [(36, 1, 0), (37, 2, 0), (39, 22, 0), (61, 6, q k), (67, 6, q 1)]

/-- The word made in a cycle, `rtl/pcie_us_if_rq.v` lines 642-866, `rtl/pcie_us_if_cc.v` lines 381-533: `l` are the settings,
the first `sel` segments are used. The sequence number gets bit `Q - 1` for reads (line 712). -/
def utxOut (c : UtxCfg) (st : Utx) (i : UtxIn) (l : List UtxSlot) (sel : Nat) : UtxWord :=
  let lane := fun k => utxLane c i (utxShift c st i l sel k) (utxSlotAt l k)
  let hdr := fun k => (utxView c i (utxSlotAt l k).port (utxSlotAt l k).idx).hdr
  let seq := fun k => (utxView c i (utxSlotAt l k).port (utxSlotAt l k).idx).seq |||
    (if (utxSlotAt l k).port = 0 then 2 ^ (c.Q - 1) else 0)
  let v := fun k => decide (k < sel) && (utxSlotAt l k).sop
  let e := fun k => decide (k < sel) && (utxSlotAt l k).eop
  let x := fun k => utxEopIndex c.W fun j => (lane k j).2
  { tdata := fun n => (lane (n / c.W) (n % c.W)).1
    tkeep := fun n => decide (n / c.W < sel) && (lane (n / c.W) (n % c.W)).2
    tlast := c.mode != .straddle && (List.range c.S).any e
    tuser := utxPack 0 (if c.rq then utxUserRq c.mode c.Q v e x (fun k => utxBits (hdr k) 64 8) seq
      else utxUserCc c.mode v e x) }

/-- One clock edge, `rtl/pcie_us_if_rq.v` lines 452-897, `rtl/pcie_us_if_cc.v` lines 257-558. -/
def utxStep (c : UtxCfg) (st : Utx) (i : UtxIn) : Utx :=
  let x := utxLoop c st i
  let free := utxFree st i
  let sel := utxSel c st i
  let sh := utxShift c st i x.slots sel c.S
  { frame := if i.rst then false else if free then x.cframe else st.frame
    hdr1 := if free then x.chdr1 else st.hdr1
    hdr2 := if free then x.chdr2 else st.hdr2
    split1 := if free then x.csplit1 else st.split1
    split2 := if free then x.csplit2 else st.split2
    port := if i.rst then 0 else if free then x.cport else st.port
    shiftD := sh.1
    shiftS := sh.2
    tvalid := if i.rst then false else if free then sel != 0 else st.tvalid
    word := if free then utxOut c st i x.slots sel else st.word
    mpsReg := 8 * 2 ^ (if i.mps > 5 then 5 else i.mps)
    haveP := decide (i.ph > 8) && decide (i.pd > st.mpsReg * 2)
    haveNp := decide (i.nph > 8) }

/-- The state after a history. -/
def utxRun (c : UtxCfg) : Utx → List UtxIn → Utx
  | st, [] => st
  | st, i :: is => utxRun c (utxStep c st i) is

/-- The words transferred in a history (`tvalid && tready`). -/
def utxSent (c : UtxCfg) : Utx → List UtxIn → List UtxWord
  | _, [] => []
  | st, i :: is => (if st.tvalid && i.tready then [st.word] else []) ++ utxSent c (utxStep c st i) is

/-- The sequence numbers returned by the core, `rtl/pcie_us_if_rq.v` lines 277-287: number and validity for reads and for
writes. `w` is `TX_SEQ_NUM_WIDTH`, `Q` is `RQ_SEQ_NUM_WIDTH`. -/
def rqSeqOut (w Q num : Nat) (valid : Bool) : (Nat × Bool) × (Nat × Bool) :=
  ((num % 2 ^ w, valid && (num &&& 2 ^ (Q - 1)) != 0), (num % 2 ^ w, valid && (num &&& 2 ^ (Q - 1)) == 0))

end Verif.Model
