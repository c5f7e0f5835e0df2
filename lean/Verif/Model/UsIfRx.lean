/-!
Model of `rtl/pcie_us_if_rc.v` and `rtl/pcie_us_if_cq.v`: they turn the AXI streams of the UltraScale core with requester
completions (RC) and completer requests (CQ), a descriptor followed by data, into TLP segments, a header beside the data.
One step is one clock edge. The modules end in a FIFO (`pcie_tlp_fifo`, modelled in `TlpFifo`), which is left out here: its
input port is the output of this model, its ready output an input.

Both modules have the same structure; the model has the descriptor length, the conversion of the descriptor and the
framing as parameters. Vectors are functions of the lane (one DWORD) or of the segment. The branch for 64-bit interfaces is
not modelled.
-/
namespace Verif.Model

/-- What accompanies a TLP segment with a start of packet: `tlp_hdr` (128 bits), `tlp_error`
(`rtl/pcie_us_if_rc.v` lines 190-191), `tlp_bar_id`, `tlp_func_num` (`rtl/pcie_us_if_cq.v` lines 187-189). -/
structure UrxMeta where
  hdr : Nat := 0
  error : Nat := 0
  bar : Nat := 0
  func : Nat := 0
deriving DecidableEq, Repr

/-- Framing of the AXI stream: `plain` without straddling, otherwise by width. -/
inductive UrxMode
  | plain | plain512 | rc256 | rc512 | cq512
deriving DecidableEq, Repr

/-- Parameters: `W` is `INT_TLP_SEG_STRB_WIDTH`, `S` is `INT_TLP_SEG_COUNT` (`rtl/pcie_us_if_rc.v` lines 80-82,
`rtl/pcie_us_if_cq.v` lines 84-86), `D` the number of descriptor DWORDs, which the code writes as shift distances (96 or
128 bits), `conv` the parsing of the descriptor and the byte enables. -/
structure UrxCfg where
  W : Nat
  S : Nat
  D : Nat
  mode : UrxMode
  conv : (Nat → Nat) → Nat → UrxMeta

/-- Bits `lo + n - 1 .. lo` of DWORD `k` of a descriptor. Bit `i` of `rc_data_full` (`cq_data_full`) is bit `i % 32` of
DWORD `i / 32`. -/
def urxBits (d : Nat → Nat) (k lo n : Nat) : Nat := d k / 2 ^ lo % 2 ^ n

/-- `tlp_error`, `rtl/pcie_us_if_rc.v` lines 377-389, with the codes of lines 132-152. -/
def rcError (code : Nat) : Nat :=
  match code with
  | 0 => 0 | 1 => 1 | 2 => 2 | 3 => 4 | 4 => 3 | 5 => 5 | 6 => 6 | 8 => 8 | 9 => 15 | _ => 0

/-- `tlp_hdr` and `tlp_error`, `rtl/pcie_us_if_rc.v` lines 344-390. -/
def rcConv (d : Nat → Nat) (_be : Nat) : UrxMeta where
  hdr := (if urxBits d 1 0 11 ≠ 0 then 2 else 0) * 2 ^ 125 + (10 + urxBits d 0 29 1) * 2 ^ 120 +
    urxBits d 2 25 3 * 2 ^ 116 + urxBits d 2 30 1 * 2 ^ 114 + urxBits d 1 14 1 * 2 ^ 110 +
    urxBits d 2 28 2 * 2 ^ 108 + urxBits d 1 0 11 % 2 ^ 10 * 2 ^ 96 +
    (urxBits d 2 8 16 * 2 ^ 80 + urxBits d 1 11 3 * 2 ^ 77 + urxBits d 0 16 13 % 2 ^ 12 * 2 ^ 64) +
    (urxBits d 1 16 16 * 2 ^ 48 + urxBits d 2 0 8 * 2 ^ 40 + urxBits d 0 0 7 * 2 ^ 32)
  error := rcError (urxBits d 0 12 4)

/-- Format and type of a request, `rtl/pcie_us_if_cq.v` lines 326-387. -/
def cqFmtType (code len route : Nat) : Nat × Nat :=
  match code with
  | 0 => (1, 0)
  | 1 => (3, 0)
  | 2 => (1, 2)
  | 3 => (3, 2)
  | 4 => (3, 12)
  | 5 => (3, 13)
  | 6 => (3, 14)
  | 7 => (1, 1)
  | 12 => (if len ≠ 0 then 3 else 1, 16 + route)
  | 13 => (if len ≠ 0 then 3 else 1, 16 + route)
  | 14 => (if len ≠ 0 then 3 else 1, 16 + route)
  | _ => (1, 0)

/-- `tlp_hdr`, `tlp_bar_id`, `tlp_func_num`, `rtl/pcie_us_if_cq.v` lines 323-410. `be` is the byte of `cq_hdr_be_full` of the
segment. -/
def cqConv (d : Nat → Nat) (be : Nat) : UrxMeta :=
  let ft := cqFmtType (urxBits d 2 11 4) (urxBits d 2 0 11) (urxBits d 3 16 3)
  { hdr := ft.1 * 2 ^ 125 + ft.2 * 2 ^ 120 + urxBits d 3 25 3 * 2 ^ 116 + urxBits d 3 30 1 * 2 ^ 114 +
      urxBits d 3 28 2 * 2 ^ 108 + urxBits d 0 0 2 * 2 ^ 106 + urxBits d 2 0 11 % 2 ^ 10 * 2 ^ 96 +
      (urxBits d 2 16 16 * 2 ^ 80 + urxBits d 3 0 8 * 2 ^ 72 + be / 16 % 16 * 2 ^ 68 + be % 16 * 2 ^ 64) +
      (urxBits d 1 0 32 * 2 ^ 32 + urxBits d 0 2 30 * 4)
    bar := urxBits d 3 16 3
    func := urxBits d 3 8 8 }

/-- A word of the AXI stream after decoding the framing: `rc_data`, `rc_strb`, `rc_valid`, `rc_strb_eop`, `rc_sop`,
`rc_eop` (`rtl/pcie_us_if_rc.v` lines 167-173) and the same registers `_int` (lines 176-181); `be` is `cq_hdr_be`
(`rtl/pcie_us_if_cq.v` lines 163 and 173). -/
structure UrxWord where
  data : Nat → Nat := fun _ => 0
  strb : Nat → Bool := fun _ => false
  be : Nat → Nat := fun _ => 0
  valid : Nat → Bool := fun _ => false
  strbEop : Nat → Bool := fun _ => false
  sop : Nat → Bool := fun _ => false
  eop : Nat → Bool := fun _ => false

/-- Inputs of one cycle: reset, the AXI stream, and `fifo_tlp_ready`. -/
structure UrxIn where
  rst : Bool := false
  ready : Bool := false
  tvalid : Bool := false
  tdata : Nat → Nat := fun _ => 0
  tkeep : Nat → Bool := fun _ => false
  tlast : Bool := false
  tuser : Nat := 0

/-- Bits `lo + n - 1 .. lo` of `tuser`. -/
def UrxIn.user (i : UrxIn) (lo n : Nat) : Nat := i.tuser / 2 ^ lo % 2 ^ n

/-- `rc_strb_sop` / `cq_strb_sop`: the lanes with a start of packet. `rtl/pcie_us_if_rc.v` lines 276-303 (with two or four
segments), `rtl/pcie_us_if_cq.v` lines 277-280. -/
def urxStrbSop (m : UrxMode) (frame : Bool) (i : UrxIn) (l : Nat) : Bool :=
  match m with
  | .rc256 => (i.user 32 1 == 1 && l == (if frame then 4 else 0)) || (i.user 33 1 == 1 && l == 4)
  | .rc512 => (List.range 4).any fun k => i.user (64 + k) 1 == 1 && l == i.user (68 + k * 2) 2 * 4
  | .cq512 => (List.range 2).any fun k => i.user (80 + k) 1 == 1 && l == i.user (82 + k * 2) 2 * 4
  | _ => false

/-- `rc_strb_eop` / `cq_strb_eop` with straddling: the lanes with an end of packet. `rtl/pcie_us_if_rc.v` lines 293-307,
`rtl/pcie_us_if_cq.v` lines 281-284. -/
def urxStrbEop (m : UrxMode) (i : UrxIn) (l : Nat) : Bool :=
  match m with
  | .rc256 => (List.range 2).any fun k => i.user (34 + k * 4) 1 == 1 && l == i.user (35 + k * 4) 3
  | .rc512 => (List.range 4).any fun k => i.user (76 + k) 1 == 1 && l == i.user (80 + k * 4) 4
  | .cq512 => (List.range 2).any fun k => i.user (86 + k) 1 == 1 && l == i.user (88 + k * 4) 4
  | _ => false

/-- The variable `valid` before lane `l`, `rtl/pcie_us_if_rc.v` lines 308-322, `rtl/pcie_us_if_cq.v` lines 285-299. -/
def urxOpen (sop eop : Nat → Bool) : Nat → Bool
  | 0 => true
  | l + 1 => (urxOpen sop eop l || sop l) && !eop l

/-- Some lane of segment `s`. -/
def urxAny (W s : Nat) (f : Nat → Bool) : Bool := (List.range W).any fun j => f (W * s + j)

/-- The last lane with a strobe has the end of packet, without straddling: `rtl/pcie_us_if_rc.v` lines 333-338,
`rtl/pcie_us_if_cq.v` lines 312-317. -/
def urxLastLane (n : Nat) (strb : Nat → Bool) (eop : Bool) (l : Nat) : Bool :=
  eop && decide (l < n) && strb l && (List.range n).all fun k => decide (k ≤ l) || !strb k

/-- `cq_hdr_be`, `rtl/pcie_us_if_cq.v` lines 271 and 303-307. The RC module has no byte enables. -/
def urxBe (m : UrxMode) (i : UrxIn) (s : Nat) : Nat :=
  match m with
  | .cq512 => if s = 0 then i.user 8 4 * 16 + i.user 0 4 else i.user 12 4 * 16 + i.user 4 4
  | .plain512 => i.user 8 4 * 16 + i.user 0 4
  | _ => i.user 0 8

/-- Whether packets may start in the middle of a word. -/
def UrxMode.straddle : UrxMode → Bool
  | .plain | .plain512 => false
  | _ => true

/-- The decoding of the framing, `rtl/pcie_us_if_rc.v` lines 267-342, `rtl/pcie_us_if_cq.v` lines 267-321. -/
def urxDecode (c : UrxCfg) (frame : Bool) (i : UrxIn) : UrxWord :=
  if c.mode.straddle then
    let sop := urxStrbSop c.mode frame i
    let eop := urxStrbEop c.mode i
    let strb := fun l => urxOpen sop eop l || sop l
    { data := i.tdata
      strb := strb
      be := urxBe c.mode i
      valid := fun s => i.tvalid && urxAny c.W s strb
      strbEop := eop
      sop := fun s => urxAny c.W s sop
      eop := fun s => urxAny c.W s eop }
  else
    let strb := fun l => i.tvalid && i.tkeep l
    { data := i.tdata
      strb := strb
      be := urxBe c.mode i
      valid := fun s => i.tvalid && decide (s = 0)
      strbEop := urxLastLane (c.W * c.S) strb i.tlast
      sop := fun s => !frame && decide (s = 0)
      eop := fun s => i.tlast && decide (s = 0) }

/-- `rc_frame_next` / `cq_frame_next` of an accepted word, `rtl/pcie_us_if_rc.v` lines 323-325 and 339-341,
`rtl/pcie_us_if_cq.v` lines 318-320. The CQ module with straddling does not use the register. -/
def urxFrame (c : UrxCfg) (frame : Bool) (i : UrxIn) : Bool :=
  if c.mode.straddle then urxOpen (urxStrbSop c.mode frame i) (urxStrbEop c.mode i) (c.W * c.S)
  else !i.tlast

/-- Registers: `rc_frame_reg`, the word before the current one, and the registers of the output
(`rtl/pcie_us_if_rc.v` lines 154-181, `rtl/pcie_us_if_cq.v` lines 147-177). -/
structure Urx where
  frame : Bool := false
  prev : UrxWord := {}
  oData : Nat → Nat := fun _ => 0
  oStrb : Nat → Bool := fun _ => false
  oMeta : Nat → UrxMeta := fun _ => {}
  oValid : Nat → Bool := fun _ => false
  oSop : Nat → Bool := fun _ => false
  oEop : Nat → Bool := fun _ => false

/-- The concatenations `{rc_strb, rc_strb_int_reg}` etc., `rtl/pcie_us_if_rc.v` lines 183-188, `rtl/pcie_us_if_cq.v` lines 179-185: `n` elements of the word
before, then the current one. -/
def urxCat {α : Type} (n : Nat) (a b : Nat → α) (l : Nat) : α := if l < n then a l else b (l - n)

/-- The output of one segment, `rtl/pcie_us_if_rc.v` lines 426-451, `rtl/pcie_us_if_cq.v` lines 451-477: valid, eop and
whether the segment remains valid (`rc_valid_int_next`), from the two words `p` and `q`. -/
def urxSegValid (c : UrxCfg) (p q : UrxWord) (s : Nat) : Bool × Bool × Bool :=
  if p.valid s then
    let next := urxCat c.S p.valid q.valid (s + 1)
    let eops := urxCat (c.W * c.S) p.strbEop q.strbEop
    if p.eop s then
      let e := p.sop s || (List.range c.W).any fun j => decide (c.D ≤ j) && eops (c.W * s + j)
      (e, e, false)
    else (next, next && (List.range c.D).any fun j => eops (c.W * (s + 1) + j), !next)
  else (false, false, false)

/-- `rx_cpl_tlp_strb_next` of lane `j` of segment `s`, `rtl/pcie_us_if_rc.v` lines 435 and 442,
`rtl/pcie_us_if_cq.v` lines 461 and 468. -/
def urxSegStrb (c : UrxCfg) (p q : UrxWord) (s j : Nat) : Bool :=
  p.valid s && (if p.eop s then decide (j + c.D < c.W) else true) &&
    urxCat (c.W * c.S) p.strb q.strb (c.W * s + j + c.D)

/-- One clock edge, `rtl/pcie_us_if_rc.v` lines 247-488, `rtl/pcie_us_if_cq.v` lines 246-518, except for the branch
`TLP_DATA_WIDTH == 64`. -/
def urxStep (c : UrxCfg) (st : Urx) (i : UrxIn) : Urx :=
  let q := urxDecode c st.frame i
  let take := i.ready && i.tvalid
  let data := urxCat (c.W * c.S) st.prev.data q.data
  { frame := if i.rst then false else if take then urxFrame c st.frame i else st.frame
    prev :=
      let w := if take then q
        else if i.ready then { st.prev with valid := fun s => (urxSegValid c st.prev q s).2.2 }
        else st.prev
      if i.rst then { w with valid := fun _ => false } else w
    oData := fun l => if i.ready && st.prev.valid (l / c.W) then data (l + c.D) else st.oData l
    oStrb := fun l => if i.ready then urxSegStrb c st.prev q (l / c.W) (l % c.W) else st.oStrb l
    oMeta := fun s => if i.ready && st.prev.valid s && st.prev.sop s
      then c.conv (fun k => data (c.W * s + k)) (st.prev.be s) else st.oMeta s
    oValid := fun s => if i.rst then false else if i.ready then (urxSegValid c st.prev q s).1 else st.oValid s
    oSop := fun s => if i.ready then st.prev.valid s && st.prev.sop s else st.oSop s
    oEop := fun s => if i.ready then (urxSegValid c st.prev q s).2.1 else st.oEop s }

/-- The state after a history. -/
def urxRun (c : UrxCfg) : Urx → List UrxIn → Urx
  | st, [] => st
  | st, i :: is => urxRun c (urxStep c st i) is

/-- A TLP segment at the input port of the FIFO: `some` for the lanes with a strobe; header and side band only at the start
of a TLP. -/
structure UrxOut where
  sop : Bool
  eop : Bool
  info : Option UrxMeta
  lanes : List (Option Nat)
deriving DecidableEq, Repr

/-- The segments on the output registers, in order. -/
def urxPort (c : UrxCfg) (st : Urx) : List UrxOut :=
  (List.range c.S).filterMap fun s =>
    if st.oValid s then
      some { sop := st.oSop s, eop := st.oEop s
             info := if st.oSop s then some (st.oMeta s) else none
             lanes := (List.range c.W).map fun j =>
               if st.oStrb (c.W * s + j) then some (st.oData (c.W * s + j)) else none }
    else none

/-- The segments that the FIFO accepts in a history. -/
def urxOuts (c : UrxCfg) : Urx → List UrxIn → List UrxOut
  | _, [] => []
  | st, i :: is => (if i.ready then urxPort c st else []) ++ urxOuts c (urxStep c st i) is

/-- The words that the module accepts in a history (`s_axis_rc_tready && s_axis_rc_tvalid`; `s_axis_rc_tready` is
`fifo_tlp_ready`, `rtl/pcie_us_if_rc.v` line 193, `rtl/pcie_us_if_cq.v` line 191). -/
def urxTaken (is : List UrxIn) : List UrxIn := is.filter fun i => i.ready && i.tvalid

end Verif.Model
