/-!
Model of `rtl/irq_rate_limit.v`. One step is one clock edge. The 19-bit memory word is a record of its
three fields: bit 0, bit 1 and bits 2 to 18.
-/
namespace Verif.Model

/-- `rtl/irq_rate_limit.v` lines 64-68. -/
inductive IrqState
  | init | idle | irqIn | irqOut
deriving DecidableEq, Repr

/-- A word of `mem_reg` (line 83): pending bit, timer running bit, 17-bit deadline. -/
structure IrqTimer where
  pending : Bool
  running : Bool
  exp : Nat
deriving DecidableEq, Repr

/-- Registers: `rtl/irq_rate_limit.v` lines 70-104. -/
structure IrqLim where
  state : IrqState
  curIndex : Nat
  irqIndex : Nat
  rdData : IrqTimer
  rdValid : Bool
  mem : Nat → IrqTimer
  inReady : Bool
  outIndex : Nat
  outValid : Bool
  preCount : Nat
  time : Nat

/-- Inputs in one cycle: `rtl/irq_rate_limit.v` lines 39-61. -/
structure IrqIn where
  rst : Bool := false
  inIndex : Nat
  inValid : Bool
  outReady : Bool
  prescale : Nat
  minInterval : Nat
deriving DecidableEq, Repr

/-- `rtl/irq_rate_limit.v` line 163: `(deadline - time) >> 16 != 0`. The literal `0` makes the operands of
the comparison 32 bits wide, so the subtraction is one of 32-bit numbers, not of 17-bit ones. -/
def irqExpired (exp time : Nat) : Bool := ((exp + 2 ^ 32 - time) % 2 ^ 32) / 2 ^ 16 != 0

/-- The word to start the timer with: `rtl/irq_rate_limit.v` lines 193-195 and 214-216. -/
def irqStart (s : IrqLim) (i : IrqIn) : IrqTimer :=
  { pending := false, running := i.minInterval % 2 ^ 16 != 0, exp := (s.time + i.minInterval % 2 ^ 16) % 2 ^ 17 }

/-- Writing one memory word (line 256). -/
def irqSet (m : Nat → IrqTimer) (a : Nat) (t : IrqTimer) : Nat → IrqTimer := fun b => if b = a then t else m b

/-- `!out_irq_valid || out_irq_ready`, lines 190 and 212. -/
def irqFree (s : IrqLim) (i : IrqIn) : Bool := !s.outValid || i.outReady

/-- `rtl/irq_rate_limit.v` lines 106-118: prescaler and time, without reset. -/
def irqTick (s : IrqLim) (i : IrqIn) : IrqLim :=
  if s.preCount != 0 then { s with preCount := s.preCount - 1 }
  else { s with preCount := i.prescale % 2 ^ 16, time := (s.time + 1) % 2 ^ 17 }

/-- Presenting an interrupt and restarting its timer: `rtl/irq_rate_limit.v` lines 191-203 and 212-224;
`s` is the state before the edge with prescaler and time already advanced, `o` the state before the edge. -/
def irqEmit (o s : IrqLim) (i : IrqIn) : IrqLim :=
  { s with
    mem := irqSet o.mem o.irqIndex (irqStart o i)
    rdValid := false
    outValid := true
    outIndex := o.irqIndex
    inReady := true
    state := .idle }

/-- `rtl/irq_rate_limit.v` lines 120-261 without reset, by state; in `s` the prescaler and time have
already been advanced and the default assignments of lines 123-135 made. -/
def irqNext (W : Nat) (o s : IrqLim) (i : IrqIn) : IrqLim :=
  match o.state with
  | .init =>
    { s with
      mem := irqSet o.mem o.curIndex ⟨false, false, 0⟩
      curIndex := (o.curIndex + 1) % 2 ^ W
      state := if (o.curIndex + 1) % 2 ^ W != 0 then .init else .idle }
  | .idle =>
    if i.inValid && o.inReady then
      { s with
        irqIndex := i.inIndex % 2 ^ W
        rdData := o.mem (i.inIndex % 2 ^ W)
        rdValid := true
        state := .irqIn }
    else if o.rdValid && o.rdData.running && irqExpired o.rdData.exp o.time then
      { s with state := .irqOut }
    else
      { s with
        irqIndex := o.curIndex
        rdData := o.mem o.curIndex
        rdValid := true
        curIndex := (o.curIndex + 1) % 2 ^ W
        inReady := true
        state := .idle }
  | .irqIn =>
    if o.rdData.running then
      { s with
        mem := irqSet o.mem o.irqIndex { o.rdData with pending := true, running := true }
        rdValid := false
        inReady := true
        state := .idle }
    else if irqFree o i then irqEmit o s i
    else { s with state := .irqIn }
  | .irqOut =>
    if o.rdData.pending then
      if irqFree o i then irqEmit o s i else { s with state := .irqOut }
    else
      { s with
        mem := irqSet o.mem o.irqIndex ⟨false, false, 0⟩
        rdValid := false
        inReady := true
        state := .idle }

/-- One clock edge: `rtl/irq_rate_limit.v` lines 106-118 and 120-270. -/
def irqStep (W : Nat) (s : IrqLim) (i : IrqIn) : IrqLim :=
  let n := irqNext W s { irqTick s i with inReady := false, outValid := s.outValid && !i.outReady } i
  if i.rst then
    { n with state := .init, curIndex := 0, inReady := false, outValid := false, rdValid := false,
             preCount := 0, time := 0 }
  else n

/-- A history. -/
def irqRun (W : Nat) : IrqLim → List IrqIn → IrqLim
  | s, [] => s
  | s, i :: is => irqRun W (irqStep W s i) is

/-- Whether the time advances at an edge (line 111). -/
def irqTicks (s : IrqLim) : Nat := if s.preCount = 0 then 1 else 0

/-- An interrupt is newly presented at this edge: the output is valid after it, and was not valid before
or is taken at it. -/
def irqPresents (W : Nat) (s : IrqLim) (i : IrqIn) : Bool :=
  (irqStep W s i).outValid && (!s.outValid || i.outReady)

/-- A presented interrupt: source, tick (number of times the time has advanced before), and the minimum
interval configured in this cycle. -/
structure IrqEvent where
  source : Nat
  tick : Nat
  interval : Nat
deriving DecidableEq, Repr

/-- The interrupts presented on the output, in order; `t` counts the ticks. -/
def irqPresented (W : Nat) : Nat → IrqLim → List IrqIn → List IrqEvent
  | _, _, [] => []
  | t, s, i :: is =>
    (if irqPresents W s i then [⟨(irqStep W s i).outIndex, t, i.minInterval % 2 ^ 16⟩] else []) ++
      irqPresented W (t + irqTicks s) (irqStep W s i) is

/-- The interrupts handed over on the output (`out_irq_valid && out_irq_ready`). -/
def irqHanded (W : Nat) : IrqLim → List IrqIn → List Nat
  | _, [] => []
  | s, i :: is => (if s.outValid && i.outReady then [s.outIndex] else []) ++ irqHanded W (irqStep W s i) is

/-- The requests accepted on the input (`in_irq_valid && in_irq_ready`). -/
def irqAccepted (W : Nat) : IrqLim → List IrqIn → List Nat
  | _, [] => []
  | s, i :: is => (if i.inValid && s.inReady then [i.inIndex % 2 ^ W] else []) ++ irqAccepted W (irqStep W s i) is

end Verif.Model
