import Verif.Model.Util
/-!
Model of the capability lists of `tb/pcie.py` (`PcieCap`, `PcieExtCap`, `PcieCapList`,
`PcieExtCapList`, lines 201-326).

Objects are identified by their capability ID: `register` is modelled for calls with an integer
`cap_id` (all calls from outside the class), for which IDs in the list are unique. The `read` and
`write` callbacks are represented by opaque numbers. An absent (`None`) or zero length or offset
is 0, since the code only tests truthiness.
-/
namespace Verif.Model

/-- `tb/pcie.py` lines 201-210, the attributes of `PcieCap`. -/
structure Cap where
  cap_id : Nat
  cap_ver : Option Nat := none
  length : Nat := 0
  read : Option Nat := none
  write : Option Nat := none
  offset : Nat := 0
  next_cap : Option Nat := none
deriving DecidableEq, Repr

/-- Arguments of `PcieCapList.register` (`tb/pcie.py` line 263). -/
structure CapArgs where
  cap_id : Nat
  cap_ver : Option Nat := none
  length : Nat := 0
  read : Option Nat := none
  write : Option Nat := none
  offset : Nat := 0
deriving DecidableEq, Repr

/-- `tb/pcie.py` lines 238-242, `find_by_id`. -/
def findById (l : List Cap) (cap_id : Nat) : Option Cap := l.find? (·.cap_id == cap_id)

/-- `tb/pcie.py` lines 244-248, `find_by_reg`. -/
def findByReg (l : List Cap) (reg : Nat) : Option Cap :=
  l.find? fun c => decide (c.offset ≤ reg ∧ reg < c.offset + c.length)

/-- `list.remove(cap)`: removes the first occurrence of the object. -/
def removeCap (l : List Cap) (cap_id : Nat) : List Cap := l.eraseP (·.cap_id == cap_id)

/-- `tb/pcie.py` lines 272-285 and 287-288: update of a re-registered capability. -/
def updateCap (c : Cap) (a : CapArgs) : Cap :=
  { c with
    cap_ver := if a.cap_ver.isSome then a.cap_ver else c.cap_ver
    length := if a.length ≠ 0 then a.length else c.length
    read := if a.read.isSome then a.read else c.read
    write := if a.write.isSome then a.write else c.write
    offset := if a.offset ≠ 0 then a.offset else c.offset }

/-- `tb/pcie.py` line 297: `cap` overlaps the requested range. `x+len-1 ≥ y` is written without
subtraction; lengths are positive here. -/
def overlaps (cap new : Cap) : Bool :=
  decide (cap.offset < new.offset + new.length ∧ new.offset < cap.offset + cap.length)

/-- `tb/pcie.py` lines 304-306, one iteration of the automatic placement: the first comparison is
strict, `cap.offset < new_cap.offset+new_cap.length-1`. -/
def autoStep (len off : Nat) (cap : Cap) : Nat :=
  if cap.offset + 1 < off + len ∧ off < cap.offset + cap.length then cap.offset + cap.length else off

/-- `tb/pcie.py` lines 303-306, automatic placement of a capability of `len` registers. -/
def autoPlace (len : Nat) (l : List Cap) (start : Nat) : Nat := l.foldl (autoStep len) start

/-- `tb/pcie.py` lines 311-316: next pointers from `c` on. -/
def linkFrom (c : Cap) : List Cap → List Cap
  | [] => [{ c with next_cap := some 0 }]
  | d :: rest => { c with next_cap := some (d.offset * 4) } :: linkFrom d rest

/-- `tb/pcie.py` lines 311-316: pointers are updated for consecutive pairs only, so the pointer of
a single entry stays as it was. -/
def linkCaps : List Cap → List Cap
  | c :: d :: rest => linkFrom c (d :: rest)
  | l => l

/-- One insertion step of `sortCaps`. -/
def insertSorted (c : Cap) : List Cap → List Cap
  | [] => [c]
  | d :: l => if c.offset ≤ d.offset then c :: d :: l else d :: insertSorted c l

/-- `tb/pcie.py` line 309, `list.sort(key=lambda x: x.offset)`: stable sort by offset. -/
def sortCaps : List Cap → List Cap
  | [] => []
  | c :: l => insertSorted c (sortCaps l)

/-- `tb/pcie.py` lines 308-316: append, sort by offset (stable), update the next pointers. -/
def insertCap (l : List Cap) (new : Cap) : List Cap := linkCaps (sortCaps (l ++ [new]))

/-- `tb/pcie.py` lines 303-316 with `bump_list` empty: registration of a capability without an
offset (also lines 318-320 for each bumped capability). -/
def registerAuto (start : Nat) (l : List Cap) (new : Cap) : List Cap :=
  insertCap l { new with offset := autoPlace new.length l start }

/-- `tb/pcie.py` lines 263-320, `register(cap_id, cap_ver, length, read, write, offset)`. The
bumped capabilities all have their required parameters, so the recursive calls do not raise. -/
def registerCap (start : Nat) (l : List Cap) (a : CapArgs) : Option (List Cap) :=
  let (l, new) := match findById l a.cap_id with
    | some c => (removeCap l a.cap_id, updateCap c a)
    | none => (l, { cap_id := a.cap_id, cap_ver := a.cap_ver, length := a.length, read := a.read,
                    write := a.write, offset := a.offset })
  if new.length = 0 ∨ new.read = none ∨ new.write = none then none
  else if new.offset ≠ 0 then
    let bump := l.filter fun c => overlaps c new
    let l := l.filter fun c => !overlaps c new
    some (bump.foldl (registerAuto start) (insertCap l new))
  else some (registerAuto start l new)

/-- A sequence of `register` calls. -/
def registerCaps (start : Nat) : List Cap → List CapArgs → Option (List Cap)
  | l, [] => some l
  | l, a :: as => do
    let l ← registerCap start l a
    registerCaps start l as

/-- `PcieCapList.start` (`tb/pcie.py` line 235). -/
def capStart : Nat := 0x10

/-- `PcieExtCapList.start` (`tb/pcie.py` line 327). -/
def extCapStart : Nat := 0x40

/-- `tb/pcie.py` lines 212-216, `PcieCap.read_register`; `val` is the value returned by the read
callback, which may be `None`. `None & 0xff` and `None & 0xffff0000` raise. -/
def Cap.readRegister (c : Cap) (val : Option Nat) (reg : Nat) : Option Nat :=
  if reg = 0 then do
    let val ← val
    let next ← c.next_cap
    some ((val &&& 0xffff0000) ||| ((next &&& 0xff) <<< 8) ||| (c.cap_id &&& 0xff))
  else val

/-- `tb/pcie.py` lines 225-229, `PcieExtCap.read_register`. -/
def Cap.readExtRegister (c : Cap) (val : Option Nat) (reg : Nat) : Option Nat :=
  if reg = 0 then do
    let next ← c.next_cap
    let ver ← c.cap_ver
    some (((next &&& 0xfff) <<< 20) ||| ((ver &&& 0xf) <<< 16) ||| (c.cap_id &&& 0xffff))
  else val

/-- `tb/pcie.py` lines 250-254, `PcieCapList.read_register`; `cb` interprets the read callbacks,
`none` standing for `None`, which is not a register value. -/
def readCapRegister (cb : Nat → Nat → Option Nat) (l : List Cap) (reg : Nat) : Option Nat :=
  match findByReg l reg with
  | some c => c.readRegister (cb (c.read.getD 0) (reg - c.offset)) (reg - c.offset)
  | none => some 0

/-- `tb/pcie.py` lines 250-254 with `PcieExtCap` entries. -/
def readExtCapRegister (cb : Nat → Nat → Option Nat) (l : List Cap) (reg : Nat) : Option Nat :=
  match findByReg l reg with
  | some c => c.readExtRegister (cb (c.read.getD 0) (reg - c.offset)) (reg - c.offset)
  | none => some 0

/-- `tb/pcie.py` lines 256-259 and 218-219, `PcieCapList.write_register`: the write callback
called, with the register relative to the capability. -/
def writeCapTarget (l : List Cap) (reg : Nat) : Option (Nat × Nat) :=
  match findByReg l reg with
  | some c => some (c.write.getD 0, reg - c.offset)
  | none => none

/-- `tb/pcie.py` lines 1696-1701, the capability pointer after `register_capability`. -/
def capPtr (l : List Cap) : Nat :=
  match l with
  | c :: _ => c.offset * 4
  | [] => 0

end Verif.Model
