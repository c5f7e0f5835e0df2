import Verif.Basic.Vec
import Verif.Model.Arbiter
/-!
Model of the arbitrated multiplexer of `rtl/axis_arb_mux.v` and `rtl/dma_if_desc_mux.v`, and of the
two-entry output register ("skid buffer") that these and many other modules end in.

Simplifications: a bus of `n` fields is a function of the port number; all payload signals of a word are
one value. The constant masks applied after the output registers (`KEEP_ENABLE` and so on) are applied
before them.
-/
namespace Verif.Model

/-! ### Output registers -/

/-- `rtl/axis_arb_mux.v` lines 134, 210-224: output registers. `ready` is `m_axis_tready_int_reg`. -/
structure Skid (β : Type) where
  ready : Bool := false
  outV : Bool := false
  out : β
  tempV : Bool := false
  temp : β
deriving DecidableEq, Repr

/-- `rtl/axis_arb_mux.v` lines 239-306: one clock edge; `vin` and `x` are the internal word, `tr` is
`m_axis_tready`. The same code is at `rtl/dma_if_desc_mux.v` lines 272-342. -/
def skidStep {β : Type} (rst : Bool) (s : Skid β) (vin : Bool) (x : β) (tr : Bool) : Skid β :=
  let early := tr || (!s.tempV && !s.outV)
  let s' : Skid β :=
    if s.ready then
      if tr || !s.outV then { s with outV := vin, out := x }
      else { s with tempV := vin, temp := x }
    else if tr then { s with outV := s.tempV, tempV := false, out := s.temp }
    else s
  if rst then { s' with outV := false, ready := false, tempV := false } else { s' with ready := early }

/-! ### Multiplexer -/

/-- What varies between the two modules: the number of ports, the arbiter parameters, the end of a
frame, and the word sent for a word of a port. -/
structure MuxCfg (α β : Type) where
  ports : Nat
  roundRobin : Bool
  lsb : Bool
  last : α → Bool
  conv : Nat → α → β

/-- `rtl/axis_arb_mux.v` lines 154-160; `rtl/dma_if_desc_mux.v` lines 179-185. -/
def MuxCfg.arb {α β : Type} (c : MuxCfg α β) : ArbCfg := ⟨c.ports, c.roundRobin, true, true, c.lsb⟩

/-- `rtl/axis_arb_mux.v` lines 122-128, arbiter, output registers. -/
structure Mux (α β : Type) where
  valid : Nat → Bool
  reg : Nat → α
  arb : Arb := {}
  skid : Skid β

/-- Inputs in one cycle. -/
structure MuxIn (α : Type) where
  rst : Bool := false
  tvalid : Nat → Bool
  word : Nat → α
  tready : Bool

/-- `rtl/axis_arb_mux.v` line 141; `rtl/dma_if_desc_mux.v` line 165: `s_axis_tready[i]`. -/
def muxReady {α β : Type} (s : Mux α β) (i : Nat) : Bool :=
  !s.valid i || (s.skid.ready && s.arb.grant.testBit i)

/-- `rtl/axis_arb_mux.v` line 171; `rtl/dma_if_desc_mux.v` line 196. -/
def muxRequest {α β : Type} (c : MuxCfg α β) (s : Mux α β) (i : MuxIn α) : Nat :=
  vec c.ports fun p => (s.valid p && !s.arb.grant.testBit p) || (i.tvalid p && s.arb.grant.testBit p)

/-- `rtl/axis_arb_mux.v` line 172; `rtl/dma_if_desc_mux.v` line 197. -/
def muxAck {α β : Type} (c : MuxCfg α β) (s : Mux α β) : Nat :=
  vec c.ports fun p => s.arb.grant.testBit p && s.valid p && s.skid.ready && c.last (s.reg p)

/-- `rtl/axis_arb_mux.v` line 178; `rtl/dma_if_desc_mux.v` line 214. -/
def muxIntValid {α β : Type} (s : Mux α β) : Bool :=
  s.valid s.arb.encoded && s.skid.ready && s.arb.valid

/-- `rtl/axis_arb_mux.v` lines 154-306; `rtl/dma_if_desc_mux.v` lines 179-342: one clock edge. -/
def muxStep {α β : Type} (c : MuxCfg α β) (s : Mux α β) (i : MuxIn α) : Mux α β :=
  { valid := fun p => if i.rst then false else if muxReady s p then i.tvalid p else s.valid p
    reg := fun p => if muxReady s p then i.word p else s.reg p
    arb := arbStep c.arb s.arb ⟨i.rst, muxRequest c s i, muxAck c s⟩
    skid := skidStep i.rst s.skid (muxIntValid s) (c.conv s.arb.encoded (s.reg s.arb.encoded)) i.tready }

/-- A history of clock edges. -/
def muxRun {α β : Type} (c : MuxCfg α β) : Mux α β → List (MuxIn α) → Mux α β
  | s, [] => s
  | s, i :: is => muxRun c (muxStep c s i) is

/-- The words port `p` has handed over in a history: `s_axis_tvalid[p] && s_axis_tready[p]`. -/
def muxAccepted {α β : Type} (c : MuxCfg α β) (p : Nat) : Mux α β → List (MuxIn α) → List α
  | _, [] => []
  | s, i :: is => (if i.tvalid p && muxReady s p then [i.word p] else []) ++ muxAccepted c p (muxStep c s i) is

/-- The words taken from the output in a history: `m_axis_tvalid && m_axis_tready`. -/
def muxEmitted {α β : Type} (c : MuxCfg α β) : Mux α β → List (MuxIn α) → List β
  | _, [] => []
  | s, i :: is => (if s.skid.outV && i.tready then [s.skid.out] else []) ++ muxEmitted c (muxStep c s i) is

/-! ### `axis_arb_mux` -/

/-- `rtl/axis_arb_mux.v` lines 74-93: the signals of a word. -/
structure AxisWord where
  data : Nat
  keep : Nat
  last : Bool
  id : Nat
  dest : Nat
  user : Nat
deriving DecidableEq, Repr

/-- `rtl/axis_arb_mux.v` lines 37-65: parameters. -/
structure AxisMuxCfg where
  sCount : Nat
  keepEnable : Bool
  keepWidth : Nat
  idEnable : Bool
  mIdWidth : Nat
  destEnable : Bool
  userEnable : Bool
  lastEnable : Bool
  updateTid : Bool
  roundRobin : Bool
  lsb : Bool
deriving DecidableEq, Repr

/-- `rtl/axis_arb_mux.v` lines 180-183: `m_axis_tid_int`. -/
def axisId (c : AxisMuxCfg) (p id : Nat) : Nat :=
  if c.updateTid && c.sCount > 1 then
    id % 2 ^ (c.mIdWidth - clog2 c.sCount) + p * 2 ^ (c.mIdWidth - clog2 c.sCount)
  else id % 2 ^ c.mIdWidth

/-- `rtl/axis_arb_mux.v` lines 176-185 and 231-237: the word sent for word `w` of port `p`. -/
def axisConv (c : AxisMuxCfg) (p : Nat) (w : AxisWord) : AxisWord :=
  { data := w.data
    keep := if c.keepEnable then w.keep else 2 ^ c.keepWidth - 1
    last := if c.lastEnable then w.last else true
    id := if c.idEnable then axisId c p w.id else 0
    dest := if c.destEnable then w.dest else 0
    user := if c.userEnable then w.user else 0 }

/-- `rtl/axis_arb_mux.v`. -/
def AxisMuxCfg.mux (c : AxisMuxCfg) : MuxCfg AxisWord AxisWord :=
  { ports := c.sCount
    roundRobin := c.roundRobin
    lsb := c.lsb
    last := fun w => if c.lastEnable then w.last else true
    conv := axisConv c }

/-! ### `dma_if_desc_mux` -/

/-- `rtl/dma_if_desc_mux.v` lines 92-98: a descriptor. -/
structure DmaDesc where
  dmaAddr : Nat
  ramSel : Nat
  ramAddr : Nat
  imm : Nat
  immEn : Bool
  len : Nat
  tag : Nat
deriving DecidableEq, Repr

/-- `rtl/dma_if_desc_mux.v` lines 36-63: parameters. -/
structure DescMuxCfg where
  ports : Nat
  extendRamSel : Bool
  sRamSelWidth : Nat
  mRamSelWidth : Nat
  immEnable : Bool
  sTagWidth : Nat
  mTagWidth : Nat
  roundRobin : Bool
  lsb : Bool
deriving DecidableEq, Repr

/-- `rtl/dma_if_desc_mux.v` lines 201-213 and 263-269: the descriptor sent for descriptor `d` of port
`p`. -/
def descConv (c : DescMuxCfg) (p : Nat) (d : DmaDesc) : DmaDesc :=
  { dmaAddr := d.dmaAddr
    ramSel :=
      if c.extendRamSel && c.ports > 1 then
        d.ramSel % 2 ^ (c.mRamSelWidth - clog2 c.ports) + p * 2 ^ (c.mRamSelWidth - clog2 c.ports)
      else d.ramSel % 2 ^ c.mRamSelWidth
    ramAddr := d.ramAddr
    imm := if c.immEnable then d.imm else 0
    immEn := c.immEnable && d.immEn
    len := d.len
    tag :=
      if c.ports > 1 then
        d.tag % 2 ^ (c.mTagWidth - clog2 c.ports) + p * 2 ^ (c.mTagWidth - clog2 c.ports)
      else d.tag % 2 ^ c.mTagWidth }

/-- `rtl/dma_if_desc_mux.v`: every descriptor is a frame. -/
def DescMuxCfg.mux (c : DescMuxCfg) : MuxCfg DmaDesc DmaDesc :=
  { ports := c.ports
    roundRobin := c.roundRobin
    lsb := c.lsb
    last := fun _ => true
    conv := descConv c }

/-- `rtl/dma_if_desc_mux.v` lines 345-347: status registers. -/
structure DescStatus where
  tag : Nat := 0
  error : Nat := 0
  valid : Nat := 0
deriving DecidableEq, Repr

/-- `rtl/dma_if_desc_mux.v` lines 353-361: the status outputs after a clock edge with status `valid`,
`tag` and `error` at the input; every port sees `tag` and `error`, port `p` sees bit `p` of `valid`. -/
def descStatus (c : DescMuxCfg) (rst valid : Bool) (tag error : Nat) : DescStatus :=
  { tag := tag % 2 ^ c.sTagWidth
    error := error % 2 ^ 4
    valid := if rst then 0 else
      (valid.toNat <<< (if c.ports > 1 then tag % 2 ^ c.mTagWidth / 2 ^ (c.mTagWidth - clog2 c.ports) else 0)) %
        2 ^ c.ports }

end Verif.Model
