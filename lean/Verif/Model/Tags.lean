import Verif.Model.Tlp
/-!
Model of tag allocation in `tb/pcie.py`: `Function.get_free_tag` (lines 1816-1825) and
`RootComplex.get_free_tag` (lines 3416-3425), with the completion queues they look at.
-/
namespace Verif.Model

/-- Lines 1546-1548 and 3223-3227: `current_tag` and `rx_cpl_queues`. -/
structure TagState where
  current_tag : Nat := 0
  queues : Nat → List Tlp := fun _ => []

/-- Lines 1819-1822 and 3419-3422, `k` remaining iterations of the loop. -/
def freeTagLoop (count : Nat) : Nat → TagState → TagState × Option Nat
  | 0, s => (s, none)
  | k + 1, s =>
    let c := (s.current_tag + 1) % count
    let s := { s with current_tag := c }
    if (s.queues c).isEmpty then (s, some c) else freeTagLoop count k s

/-- Lines 1816-1825 and 3416-3425, `get_free_tag`; `count` is 256 or 32. -/
def getFreeTag (count : Nat) (s : TagState) : TagState × Option Nat := freeTagLoop count count s

/-- What happens to the tags: a request takes a tag, a completion arrives (line 1792), the
requester removes the oldest completion (line 1811). -/
inductive TagEvent where
  | issue
  | arrive (tag : Nat) (cpl : Tlp)
  | take (tag : Nat)

/-- One event; the second component is the tag issued, if any. -/
def TagState.step (count : Nat) (s : TagState) : TagEvent → TagState × Option Nat
  | .issue => getFreeTag count s
  | .arrive tag cpl => ({ s with queues := fun k => if k = tag then s.queues k ++ [cpl] else s.queues k }, none)
  | .take tag => ({ s with queues := fun k => if k = tag then (s.queues k).drop 1 else s.queues k }, none)

/-- A history of events; the tags issued, in order. -/
def TagState.run (count : Nat) : TagState → List TagEvent → TagState × List Nat
  | s, [] => (s, [])
  | s, e :: es =>
    let (s, o) := s.step count e
    let (s, l) := TagState.run count s es
    (s, o.toList ++ l)

end Verif.Model
