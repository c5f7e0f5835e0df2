import Verif.Model.TlpFifo
import Verif.Model.RamDemux
/-!
Model of `rtl/pcie_tlp_fifo.v` with several segments per word (`IN_TLP_SEG_COUNT = OUT_TLP_SEG_COUNT`, a power of two from 2),
and with it of `rtl/pcie_tlp_fifo_raw.v` with `CTRL_OUT_EN = 1`. One step is one clock edge; depth, widths and the number of
segments are arbitrary.

Simplifications: the registers of one lane are one record, and what one segment carries is one value of type `TlpSeg`;
the registers of the control path hold whole `TlpSeg` values, of which only `strb`, `sop` and `eop` are used (the code keeps
those and the header, which `pcie_tlp_fifo` does not connect); `out_sel_data_seg_reg`, equal to `out_sel_seg_reg` when
`SEG_RATIO = 1`, and `out_seg_count` and `out_ctrl_seg_count`, which are not read, are left out.
-/
namespace Verif.Model

/-- Parameters: `selW` is `SEG_SEL_WIDTH`, `words` is `DEPTH/TLP_STRB_WIDTH`, `addrW` is `ADDR_WIDTH`, `mark` is
`WATERMARK/TLP_STRB_WIDTH` (`rtl/pcie_tlp_fifo_raw.v` lines 50, 118 and 380). -/
structure TfmCfg where
  selW : Nat
  addrW : Nat
  words : Nat
  mark : Nat

/-- The number of segments per word. -/
def TfmCfg.segs (c : TfmCfg) : Nat := 2 ^ c.selW

/-- The pointers have `PTR_WIDTH + 1` bits (`rtl/pcie_tlp_fifo_raw.v` lines 119 and 139). -/
def TfmCfg.ptr (c : TfmCfg) : Nat := 2 ^ (c.addrW + c.selW + 1)

/-- One lane of the data path: `mem_rd_data_valid_reg`, the registers behind the RAM, `out_tlp_valid_reg` and `out_tlp_*_reg`
(`rtl/pcie_tlp_fifo_raw.v` lines 144, 200-209 and 299-307). -/
structure TfmData where
  mV : Bool := false
  m : TlpSeg := {}
  oV : Bool := false
  o : TlpSeg := {}

/-- One lane of the control path: `ctrl_mem_rd_*`, `pipe_out_ctrl_*`, `temp_out_ctrl_*`, `out_ctrl_*` and
`out_ctrl_tlp_ready_int_reg` (`rtl/pcie_tlp_fifo_raw.v` lines 145, 213-232 and 351-354). -/
structure TfmCtrl where
  mV : Bool := false
  m : TlpSeg := {}
  pV : Bool := false
  p : TlpSeg := {}
  tV : Bool := false
  t : TlpSeg := {}
  oV : Bool := false
  o : TlpSeg := {}
  rdy : Bool := false

/-- One word of the output: valid bit and contents of each lane. -/
structure TfmWord where
  valid : Nat → Bool := fun _ => false
  seg : Nat → TlpSeg := fun _ => {}

/-- Registers and memories of `rtl/pcie_tlp_fifo_raw.v` lines 139-232 and of `rtl/pcie_tlp_fifo.v` lines 249-261 and 389-426.
The functions are indexed by the lane. -/
structure Tfm where
  wr : Nat := 0
  wrCur : Nat := 0
  rd : Nat := 0
  rdC : Nat := 0
  count : Nat := 0
  countC : Nat := 0
  wrAddr : Nat → Nat := fun _ => 0
  rdAddr : Nat → Nat := fun _ => 0
  rdAddrC : Nat → Nat := fun _ => 0
  mem : Nat → Nat → TlpSeg := fun _ _ => {}
  data : Nat → TfmData := fun _ => {}
  ctrl : Nat → TfmCtrl := fun _ => {}
  off : Nat := 0
  offC : Nat := 0
  full : Bool := false
  fullC : Bool := false
  half : Bool := false
  halfC : Bool := false
  water : Bool := false
  waterC : Bool := false
  readEn : Bool := false
  readCnt : Nat := 0
  sel : Nat → Nat := fun _ => 0
  int : TfmWord := {}
  out : OutFifo TfmWord

/-- Inputs of one clock cycle (`rtl/pcie_tlp_fifo.v` lines 54-86). -/
structure TfmIn where
  rst : Bool := false
  valid : Nat → Bool
  seg : Nat → TlpSeg
  ready : Bool

/-- `in_tlp_ready` (`rtl/pcie_tlp_fifo_raw.v` line 234). -/
def tfmReady (s : Tfm) : Bool := !(s.full || s.fullC)

/-- Whether any bit of a vector over the lanes is set. -/
def tfmAny (c : TfmCfg) (v : Nat → Bool) : Bool := (List.range c.segs).any v

/-- A word is transferred in (`rtl/pcie_tlp_fifo_raw.v` line 485). -/
def tfmAcc (c : TfmCfg) (s : Tfm) (i : TfmIn) : Bool := tfmReady s && tfmAny c i.valid

/-- The variables of the loop that packs the segments (`rtl/pcie_tlp_fifo_raw.v` lines 442-446). -/
structure TfmPack where
  valid : Nat → Bool := fun _ => false
  sel : Nat → Nat := fun _ => 0
  cur : Nat
  eop : Nat := 0
  cnt : Nat := 0

/-- One pass of that loop (`rtl/pcie_tlp_fifo_raw.v` lines 447-457). -/
def tfmPackStep (c : TfmCfg) (i : TfmIn) (v : TfmPack) (g : Nat) : TfmPack :=
  if i.valid g then
    { valid := fun l => if l = v.cur then true else v.valid l
      sel := fun l => if l = v.cur then g else v.sel l
      cur := (v.cur + 1) % c.segs
      eop := if (i.seg g).eop then v.cnt % c.segs else v.eop
      cnt := v.cnt + 1 }
  else v

/-- The packing loop (`rtl/pcie_tlp_fifo_raw.v` lines 442-457). -/
def tfmPack (c : TfmCfg) (s : Tfm) (i : TfmIn) : TfmPack :=
  (List.range c.segs).foldl (tfmPackStep c i) { cur := s.wrCur % c.segs }

/-- `wr_ptr_cur_next` (`rtl/pcie_tlp_fifo_raw.v` lines 438 and 497). -/
def tfmWrCurNext (c : TfmCfg) (s : Tfm) (i : TfmIn) : Nat :=
  if tfmAcc c s i then (s.wrCur + (tfmPack c s i).cnt) % c.ptr else s.wrCur

/-- `wr_ptr_next` (`rtl/pcie_tlp_fifo_raw.v` lines 437 and 501-508). -/
def tfmWrNext (c : TfmCfg) (s : Tfm) (i : TfmIn) : Nat :=
  if tfmAcc c s i && tfmAny c (fun g => (i.seg g).eop && i.valid g) then (s.wrCur + (tfmPack c s i).eop + 1) % c.ptr else s.wr

/-- The number of passes of a loop over `rd_seg` and `cur_rd_seg` before its condition fails for the first time; later
passes have no effect, because `rd_valid` is then 0 (`rtl/pcie_tlp_fifo_raw.v` lines 632-640, 668-678, 685-693 and 750-760).
The first argument is the number of passes left. -/
def tfmLoop (c : TfmCfg) (ok : Nat → Nat → Bool) : (left : Nat) → (g cur : Nat) → Nat
  | 0, _, _ => 0
  | left + 1, g, cur => if ok g cur then tfmLoop c ok left (g + 1) ((cur + 1) % c.segs) + 1 else 0

/-- Lane `l` is one of the first `n` lanes, counted from lane `cur` around. -/
def tfmHit (c : TfmCfg) (cur n l : Nat) : Bool := decide ((l + c.segs - cur) % c.segs < n)

/-- The number of lanes of the data path invalidated (`rtl/pcie_tlp_fifo_raw.v` lines 629-641). -/
def tfmPop (c : TfmCfg) (s : Tfm) : Nat :=
  if s.readEn then tfmLoop c (fun g l => (s.data l).oV && decide (g < s.readCnt)) c.segs 0 s.off else 0

/-- `out_tlp_valid_next` after the invalidation (`rtl/pcie_tlp_fifo_raw.v` line 634). -/
def tfmKeep (c : TfmCfg) (s : Tfm) (l : Nat) : Bool := (s.data l).oV && !tfmHit c s.off (tfmPop c s) l

/-- `mem_rd_data_valid_next` after the registers are loaded (`rtl/pcie_tlp_fifo_raw.v` lines 646-657). -/
def tfmMem (c : TfmCfg) (s : Tfm) (l : Nat) : Bool := (s.data l).mV && tfmKeep c s l

/-- The number of segments read (`rtl/pcie_tlp_fifo_raw.v` lines 666-678). -/
def tfmRead (c : TfmCfg) (s : Tfm) : Nat :=
  tfmLoop c (fun g l => !tfmMem c s l && decide (g < s.count)) c.segs 0 (s.rd % c.segs)

/-- One lane of the data path (`rtl/pcie_tlp_fifo_raw.v` lines 628-678, 333-346, 774-786 and 820-823). -/
def tfmDataNext (c : TfmCfg) (s : Tfm) (rst : Bool) (l : Nat) : TfmData :=
  let d := s.data l
  let hit := tfmHit c (s.rd % c.segs) (tfmRead c s) l
  { mV := !rst && (tfmMem c s l || hit)
    m := if hit then s.mem l (s.rdAddr l) else d.m
    oV := !rst && (tfmKeep c s l || d.mV)
    o := if tfmKeep c s l then d.o else d.m }

/-- `out_tlp_ready_int` (`rtl/pcie_tlp_fifo.v` line 428). -/
def tfmGo (s : Tfm) : Bool := !s.out.half

/-- `fifo_ctrl_read_seg_count_cmb` and `fifo_read_seg_count_next`: the number of segments taken from the control path
(`rtl/pcie_tlp_fifo.v` lines 306-341 with `SEG_RATIO = 1`). -/
def tfmSel (c : TfmCfg) (s : Tfm) : Nat := if tfmGo s then tfmLoop c (fun _ l => (s.ctrl l).oV) c.segs 0 s.offC else 0

/-- The number of lanes of the control path invalidated (`rtl/pcie_tlp_fifo_raw.v` lines 682-694; `fifo_ctrl_read_en` is set
when the count is not 0). -/
def tfmPopC (c : TfmCfg) (s : Tfm) : Nat :=
  if tfmSel c s ≠ 0 then tfmLoop c (fun g l => (s.ctrl l).oV && decide (g < tfmSel c s)) c.segs 0 s.offC else 0

/-- `out_ctrl_tlp_valid_next` after the invalidation (`rtl/pcie_tlp_fifo_raw.v` line 687). -/
def tfmKeepC (c : TfmCfg) (s : Tfm) (l : Nat) : Bool := (s.ctrl l).oV && !tfmHit c s.offC (tfmPopC c s) l

/-- `ctrl_mem_rd_data_valid_next` after the pipeline registers are loaded (`rtl/pcie_tlp_fifo_raw.v` lines 737-743). -/
def tfmMemC (s : Tfm) (l : Nat) : Bool := (s.ctrl l).mV && !((s.ctrl l).rdy || !(s.ctrl l).pV)

/-- The number of segments read for the control path (`rtl/pcie_tlp_fifo_raw.v` lines 748-760). -/
def tfmReadC (c : TfmCfg) (s : Tfm) : Nat :=
  tfmLoop c (fun g l => !tfmMemC s l && decide (g < s.countC)) c.segs 0 (s.rdC % c.segs)

/-- One lane of the control path (`rtl/pcie_tlp_fifo_raw.v` lines 696-760, 361-368, 775, 790-809 and 821-830). -/
def tfmCtrlNext (c : TfmCfg) (s : Tfm) (rst : Bool) (l : Nat) : TfmCtrl :=
  let d := s.ctrl l
  let keep := tfmKeepC c s l
  let hit := tfmHit c (s.rdC % c.segs) (tfmReadC c s) l
  let load := d.rdy || !d.pV
  { mV := !rst && (tfmMemC s l || hit)
    m := if hit then s.mem l (s.rdAddrC l) else d.m
    pV := !rst && (if load then d.mV else d.pV)
    p := if load then d.m else d.p
    tV := !rst && (if d.rdy then (if !keep || !d.oV then d.tV else d.tV || d.pV)
      else if !keep && d.tV then false else d.tV)
    t := if d.rdy && !(!keep || !d.oV) && d.pV then d.p else d.t
    oV := !rst && (if d.rdy then (if !keep || !d.oV then keep || d.pV else keep)
      else if !keep && d.tV then true else keep)
    o := if d.rdy then (if (!keep || !d.oV) && d.pV then d.p else d.o)
      else if !keep && d.tV then d.t else d.o
    rdy := !rst && (!keep || (!d.tV && (!d.oV || !d.pV))) }

/-- `$unsigned(wr_ptr_cur_reg - rd)` (`rtl/pcie_tlp_fifo_raw.v` lines 378-383). -/
def tfmCount (c : TfmCfg) (wr rd : Nat) : Nat := (wr + c.ptr - rd) % c.ptr

/-- The internal word that enters the output FIFO (`rtl/pcie_tlp_fifo.v` lines 343-359): strobes and flags from the control
path, the rest from the data path. -/
def tfmWord (s : Tfm) : TfmWord :=
  { valid := s.int.valid
    seg := fun j => { (s.data (s.sel j)).o with strb := (s.int.seg j).strb, sop := (s.int.seg j).sop, eop := (s.int.seg j).eop } }

/-- One clock edge (`rtl/pcie_tlp_fifo_raw.v` lines 319-525, 628-832; `rtl/pcie_tlp_fifo.v` lines 275-387 and 441-483). In line
378 of the raw FIFO the bound is a subtraction of 32-bit numbers: for less than two words the model differs from the code. -/
def tfmStep (c : TfmCfg) (s : Tfm) (i : TfmIn) : Tfm :=
  let pk := tfmPack c s i
  let rd := (s.rd + tfmRead c s) % c.ptr
  let rdC := (s.rdC + tfmReadC c s) % c.ptr
  { wr := if i.rst then 0 else tfmWrNext c s i
    wrCur := if i.rst then 0 else tfmWrCurNext c s i
    rd := if i.rst then 0 else rd
    rdC := if i.rst then 0 else rdC
    count := if i.rst then 0 else tfmCount c (tfmWrNext c s i) rd
    countC := if i.rst then 0 else tfmCount c (tfmWrNext c s i) rdC
    wrAddr := fun l => if i.rst then 0 else
      if tfmAcc c s i then (tfmWrCurNext c s i + (c.segs - 1 - l)) / c.segs % 2 ^ c.addrW else s.wrAddr l
    rdAddr := fun l => if i.rst then 0 else if tfmHit c (s.rd % c.segs) (tfmRead c s) l then
      ((s.rd + (l + c.segs - s.rd % c.segs) % c.segs) / c.segs + 1) % 2 ^ c.addrW else s.rdAddr l
    rdAddrC := fun l => if i.rst then 0 else if tfmHit c (s.rdC % c.segs) (tfmReadC c s) l then
      ((s.rdC + (l + c.segs - s.rdC % c.segs) % c.segs) / c.segs + 1) % 2 ^ c.addrW else s.rdAddrC l
    mem := fun l k => if tfmAcc c s i && pk.valid l && k == s.wrAddr l then i.seg (pk.sel l) else s.mem l k
    data := tfmDataNext c s i.rst
    ctrl := tfmCtrlNext c s i.rst
    off := if i.rst then 0 else (s.off + tfmPop c s) % c.segs
    offC := if i.rst then 0 else (s.offC + tfmPopC c s) % c.segs
    full := !i.rst && decide (c.words * c.segs - c.segs * 2 ≤ tfmCount c s.wrCur s.rd)
    fullC := !i.rst && decide (c.words * c.segs - c.segs * 2 ≤ tfmCount c s.wrCur s.rdC)
    half := !i.rst && decide (c.words * c.segs / 2 ≤ tfmCount c s.wrCur s.rd)
    halfC := !i.rst && decide (c.words * c.segs / 2 ≤ tfmCount c s.wrCur s.rdC)
    water := !i.rst && decide (c.mark * c.segs ≤ tfmCount c s.wrCur s.rd)
    waterC := !i.rst && decide (c.mark * c.segs ≤ tfmCount c s.wrCur s.rdC)
    readEn := !i.rst && decide (tfmSel c s ≠ 0)
    readCnt := tfmSel c s
    sel := fun j => if j < tfmSel c s then (s.offC + j) % c.segs else 0
    int :=
      { valid := fun j => !i.rst && decide (j < tfmSel c s)
        seg := fun j => if j < tfmSel c s then (s.ctrl ((s.offC + j) % c.segs)).o else {} }
    out := outFifoStep 5 i.rst s.out (tfmAny c s.int.valid) (tfmWord s) i.ready }

/-- State after a list of clock cycles. -/
def tfmRun (c : TfmCfg) : Tfm → List TfmIn → Tfm
  | s, [] => s
  | s, i :: is => tfmRun c (tfmStep c s i) is

end Verif.Model
