import Verif.Model.Cap
/-!
Specification of capability lists: register ranges, disjointness and walking the linked list
through configuration reads (PCI Local Bus Specification 6.7, PCI Express Base Specification 7.9).
-/
namespace Verif.Spec
open Verif.Model

/-- Register `r` belongs to capability `c`. -/
def InCap (c : Cap) (r : Nat) : Prop := c.offset ≤ r ∧ r < c.offset + c.length

/-- No register belongs to two capabilities. -/
def DisjointCaps (l : List Cap) : Prop := l.Pairwise fun c d => ∀ r, ¬ (InCap c r ∧ InCap d r)

/-- Walking the list of capabilities by configuration reads: starting from byte pointer `ptr`,
each header gives an ID (low byte) and the next pointer (second byte); pointer 0 ends the list.
The result is the list of (register offset, ID) pairs visited. -/
inductive Walk (read : Nat → Option Nat) : Nat → List (Nat × Nat) → Prop
  | done : Walk read 0 []
  | step (ptr v : Nat) (rest : List (Nat × Nat)) :
      ptr ≠ 0 → read (ptr / 4) = some v → Walk read (v / 2 ^ 8 % 2 ^ 8) rest →
      Walk read ptr ((ptr / 4, v % 2 ^ 8) :: rest)

/-- The same for extended capabilities: ID in bits 15:0, next pointer in bits 31:20. -/
inductive ExtWalk (read : Nat → Option Nat) : Nat → List (Nat × Nat) → Prop
  | done : ExtWalk read 0 []
  | step (ptr v : Nat) (rest : List (Nat × Nat)) :
      ptr ≠ 0 → read (ptr / 4) = some v → ExtWalk read (v / 2 ^ 20 % 2 ^ 12) rest →
      ExtWalk read ptr ((ptr / 4, v % 2 ^ 16) :: rest)

end Verif.Spec
