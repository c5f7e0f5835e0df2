import Verif.Basic.Bits
/-!
Model of the helper functions and `PcieId` in `tb/pcie.py`.
-/
namespace Verif.Model

/-- `tb/pcie.py` lines 143-147, `align(val, mask)`. -/
def align (val mask : Nat) : Nat :=
  if val &&& mask ≠ 0 then val + mask + 1 - (val &&& mask) else val

/-- The optional `bitmask` argument of `byte_mask_update` (`tb/pcie.py` line 150).
`none` is the default `-1`; `some m` a non-negative mask. Other negative masks are
not passed anywhere in `tb/` and are not modelled. -/
abbrev BitMask := Option Nat

/-- `tb/pcie.py` line 151: `new = (new & bitmask) | (old & ~bitmask)`. -/
def applyBitmask (old new : Nat) : BitMask → Nat
  | none => new
  | some bm => (new &&& bm) ||| andNot old bm

/-- `tb/pcie.py` lines 155-156, one iteration of the `byte_mask_update` loop with
`m1 = 1 << k` and `m2 = 0xff << 8*k`. -/
def byteMaskStep (mask new k old : Nat) : Nat :=
  if mask &&& (1 <<< k) ≠ 0 then
    andNot old (0xff <<< (8 * k)) ||| (new &&& (0xff <<< (8 * k)))
  else old

/-- `tb/pcie.py` lines 152-158, the `while mask >= m1` loop of `byte_mask_update`.
At iteration `k`, `m1 = 1 << k` and `m2 = 0xff << 8*k`. -/
def byteMaskLoop (mask new : Nat) (k old : Nat) : Nat :=
  if 1 <<< k ≤ mask then
    byteMaskLoop mask new (k + 1) (byteMaskStep mask new k old)
  else old
termination_by mask + 1 - k
decreasing_by
  have h : k < 1 <<< k := by rw [Nat.one_shiftLeft]; exact Nat.lt_two_pow_self
  omega

/-- `tb/pcie.py` lines 150-159, `byte_mask_update(old, mask, new, bitmask=-1)`. -/
def byteMaskUpdate (old mask new : Nat) (bitmask : BitMask := none) : Nat :=
  byteMaskLoop mask (applyBitmask old new bitmask) 0 old

/-- `tb/pcie.py` lines 166-181, class `PcieId`. The attributes are plain integers. -/
structure PcieId where
  bus : Nat := 0
  device : Nat := 0
  function : Nat := 0
deriving DecidableEq, Repr, Inhabited

/-- `tb/pcie.py` lines 182-184, `PcieId.from_int`. -/
def PcieId.fromInt (val : Nat) : PcieId :=
  ⟨(val >>> 8) &&& 0xff, (val >>> 3) &&& 0x1f, val &&& 0x7⟩

/-- `tb/pcie.py` lines 191-192, `PcieId.__int__`. -/
def PcieId.toInt (i : PcieId) : Nat :=
  ((i.bus &&& 0xff) <<< 8) ||| ((i.device &&& 0x1f) <<< 3) ||| (i.function &&& 0x7)

end Verif.Model
