import Verif.Basic.Clog2
/-!
Model of `rtl/priority_encoder.v` and `rtl/arbiter.v`.

Bit vectors are natural numbers; an assignment to a `w` bit vector is `% 2^w`. A vector declared
`[$clog2(n)-1:0]` has two bits when `n = 1`, as in Verilog.
-/
namespace Verif.Model

/-- Width of a vector declared `[$clog2(n)-1:0]`. -/
def clog2Width (n : Nat) : Nat := if n ≤ 1 then 2 else clog2 n

/-- `rtl/priority_encoder.v` line 47, `LEVELS`. -/
def peLevels (width : Nat) : Nat := if width > 2 then clog2 width else 1

/-- `rtl/priority_encoder.v` line 51, `input_padded`, as a function of the bit number. -/
def pePadded (width x i : Nat) : Bool := decide (i < width) && x.testBit i

/-- `rtl/priority_encoder.v` lines 61 and 74: `stage_valid[l][n]`. -/
def peValid (p : Nat → Bool) : (l n : Nat) → Bool
  | 0, n => p (n * 2) || p (n * 2 + 1)
  | l + 1, n => peValid p l (n * 2) || peValid p l (n * 2 + 1)

/-- `rtl/priority_encoder.v` lines 62-68 and 75-81: field `n` of `stage_enc[l]`, `l + 1` bits. -/
def peEnc (lsb : Bool) (p : Nat → Bool) : (l n : Nat) → Nat
  | 0, n => if lsb then (!p (n * 2)).toNat else (p (n * 2 + 1)).toNat
  | l + 1, n =>
    if lsb then
      if peValid p l (n * 2) then peEnc lsb p l (n * 2) else 2 ^ (l + 1) + peEnc lsb p l (n * 2 + 1)
    else
      if peValid p l (n * 2 + 1) then 2 ^ (l + 1) + peEnc lsb p l (n * 2 + 1)
      else peEnc lsb p l (n * 2)

/-- The outputs of the encoder. -/
structure PeOut where
  valid : Bool
  encoded : Nat
  unencoded : Nat
deriving DecidableEq, Repr

/-- `rtl/priority_encoder.v` lines 86-88. -/
def priorityEncoder (width : Nat) (lsb : Bool) (x : Nat) : PeOut :=
  let p := pePadded width x
  let e := peEnc lsb p (peLevels width - 1) 0 % 2 ^ clog2Width width
  { valid := peValid p (peLevels width - 1) 0
    encoded := e
    unencoded := (1 <<< e) % 2 ^ width }

/-- `rtl/arbiter.v` lines 36-44: parameters. -/
structure ArbCfg where
  ports : Nat
  roundRobin : Bool
  block : Bool
  blockAck : Bool
  lsb : Bool
deriving DecidableEq, Repr

/-- `rtl/arbiter.v` lines 58-60 and 81: registers. -/
structure Arb where
  grant : Nat := 0
  valid : Bool := false
  encoded : Nat := 0
  mask : Nat := 0
deriving DecidableEq, Repr

/-- Inputs of the arbiter in one cycle. -/
structure ArbIn where
  rst : Bool := false
  request : Nat
  acknowledge : Nat := 0
deriving DecidableEq, Repr

/-- `rtl/arbiter.v` lines 120-124 and 129-133: the mask after granting `idx`. -/
def arbMask (c : ArbCfg) (idx : Nat) : Nat :=
  if c.lsb then ((2 ^ c.ports - 1) <<< (idx + 1)) % 2 ^ c.ports
  else (2 ^ c.ports - 1) >>> (c.ports - idx)

/-- `rtl/arbiter.v` lines 104-113: the present grant is kept. -/
def arbHold (c : ArbCfg) (s : Arb) (i : ArbIn) : Bool :=
  (c.block && !c.blockAck && (s.grant &&& i.request != 0)) ||
  (c.block && c.blockAck && s.valid && (s.grant &&& i.acknowledge == 0))

/-- `rtl/arbiter.v` lines 99-102 and 114-140: a fresh choice. -/
def arbChoose (c : ArbCfg) (s : Arb) (i : ArbIn) : Arb :=
  let r := priorityEncoder c.ports c.lsb (i.request % 2 ^ c.ports)
  let m := priorityEncoder c.ports c.lsb ((i.request % 2 ^ c.ports) &&& s.mask)
  if r.valid then
    if c.roundRobin then
      if m.valid then ⟨m.unencoded, true, m.encoded, arbMask c m.encoded⟩
      else ⟨r.unencoded, true, r.encoded, arbMask c r.encoded⟩
    else ⟨r.unencoded, true, r.encoded, s.mask⟩
  else ⟨0, false, 0, s.mask⟩

/-- `rtl/arbiter.v` lines 98-155: one clock edge. -/
def arbStep (c : ArbCfg) (s : Arb) (i : ArbIn) : Arb :=
  if i.rst then {}
  else if arbHold c s i then s
  else arbChoose c s i

/-- A history of clock edges. -/
def arbRun (c : ArbCfg) : Arb → List ArbIn → Arb
  | s, [] => s
  | s, i :: is => arbRun c (arbStep c s i) is

end Verif.Model
