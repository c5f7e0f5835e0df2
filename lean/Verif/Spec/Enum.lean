import Verif.Model.Enum
/-!
Specification of an enumeration result: bus numbers and address windows recorded in the device tree.
-/
namespace Verif.Spec
open Verif.Model

/-- The address spaces of PCI Express as used by bridges: I/O, memory, prefetchable memory. -/
inductive Space where
  | io
  | mem
  | pref
deriving DecidableEq

/-- An address range `[base, base + size)`. -/
structure Win where
  space : Space
  base : Nat
  size : Nat
deriving DecidableEq

/-- The space of a base address register value: bit 0 set is I/O; a 64-bit (bit 2) prefetchable (bit
3) memory range is routed through the prefetchable window of bridges. -/
def barSpace (val : Nat) : Space :=
  if val.testBit 0 then .io else if val.testBit 2 && val.testBit 3 then .pref else .mem

/-- The address in a base address register: the two (I/O) or four lowest bits are flags. -/
def barAddress (val : Nat) : Nat := if val.testBit 0 then val / 4 * 4 else val / 16 * 16

/-- The range of one BAR, from its recorded value and size. -/
def barWindow : Option Nat × Option Nat → Option Win
  | (some v, some s) => some ⟨barSpace v, barAddress v, s⟩
  | _ => none

/-- The ranges of the BARs recorded for one function. -/
def ownWindows (ti : TreeInfo) : List Win := (ti.bar.zip ti.bar_size).filterMap barWindow

mutual
/-- The ranges of all BARs of an item and everything below it. -/
def windows : TreeItem → List Win
  | .mk ti cs => ownWindows ti ++ windowsBelow cs
/-- The ranges of all BARs of a list of items and everything below them. -/
def windowsBelow : List TreeItem → List Win
  | [] => []
  | c :: cs => windows c ++ windowsBelow cs
end

mutual
/-- An item and all items below it. -/
def nodes : TreeItem → List TreeItem
  | .mk ti cs => .mk ti cs :: nodesBelow cs
/-- The items of a list and all items below them. -/
def nodesBelow : List TreeItem → List TreeItem
  | [] => []
  | c :: cs => nodes c ++ nodesBelow cs
end

/-- The item describes a bridge: it has a secondary bus. -/
def isBridge (t : TreeItem) : Prop := t.info.sec_bus_num ≠ 0

/-- First address of the range a bridge forwards. -/
def winBase (ti : TreeInfo) : Space → Nat
  | .io => ti.io_base
  | .mem => ti.mem_base
  | .pref => ti.prefetchable_mem_base

/-- Last address of the range a bridge forwards. -/
def winLimit (ti : TreeInfo) : Space → Nat
  | .io => ti.io_limit
  | .mem => ti.mem_limit
  | .pref => ti.prefetchable_mem_limit

/-- The range can be held by the registers of a bridge: I/O ranges start and end at multiples of 4 KiB,
memory ranges at multiples of 1 MiB. -/
def WinAligned (ti : TreeInfo) : Prop :=
  2 ^ 12 ∣ winBase ti .io ∧ 2 ^ 20 ∣ winBase ti .mem ∧ 2 ^ 20 ∣ winBase ti .pref ∧
    2 ^ 12 ∣ winLimit ti .io + 1 ∧ 2 ^ 20 ∣ winLimit ti .mem + 1 ∧ 2 ^ 20 ∣ winLimit ti .pref + 1

/-- The range lies inside the range the bridge forwards. -/
def Win.inside (w : Win) (ti : TreeInfo) : Prop :=
  winBase ti w.space ≤ w.base ∧ w.base + w.size ≤ winLimit ti w.space + 1

/-- No address of the range is forwarded by the bridge. -/
def Win.outside (w : Win) (ti : TreeInfo) : Prop :=
  w.base + w.size ≤ winBase ti w.space ∨ winLimit ti w.space < w.base ∨ winLimit ti w.space < winBase ti w.space

/-- The ranges have no address in common. -/
def Win.disjoint (v w : Win) : Prop := v.space ≠ w.space ∨ v.base + v.size ≤ w.base ∨ w.base + w.size ≤ v.base

mutual
/-- The secondary buses of an item and the bridges below it, in the order of discovery; `root` for
the root of the tree, whose bus 0 has no bridge. -/
def buses (root : Bool) : TreeItem → List Nat
  | .mk ti cs => (if root || ti.sec_bus_num != 0 then [ti.sec_bus_num] else []) ++ busesBelow cs
/-- The secondary buses of a list of items. -/
def busesBelow : List TreeItem → List Nat
  | [] => []
  | c :: cs => buses false c ++ busesBelow cs
end

end Verif.Spec
