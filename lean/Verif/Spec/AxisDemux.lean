import Verif.Model.AxisDemux
/-! Specification of the PCIe AXI stream demultiplexers. -/
namespace Verif.Spec
open Verif.Model

/-- Where a packet goes whose fields meet the controls `select` and `drop`: to the lowest selected output below `n`,
or nowhere. -/
def packetDest (n : Nat) (select : Nat → Bool) (drop : Bool) : Option Nat :=
  if drop then none else (List.range n).find? select

/-- The words for output `p` of a stream of words, each given with the controls at its acceptance: all the words of a
packet go where the controls at its first word say. The second argument is the destination of the packet that is
under way, if one is. -/
def routedFirst {α : Type} (n : Nat) (last : α → Bool) (p : Nat) : Option (Option Nat) → List (ADemuxIn α) → List α
  | _, [] => []
  | cur, x :: xs =>
    let d := cur.getD (packetDest n x.select x.drop)
    (if d = some p then [x.word] else []) ++ routedFirst n last p (if last x.word then none else some d) xs

/-- The same where the controls at the second word of a packet decide (packets have at least two words). -/
def routedSecond {α : Type} (n : Nat) (last : α → Bool) (p : Nat) : Option (Option Nat) → List (ADemuxIn α) → List α
  | _, [] => []
  | some d, x :: xs =>
    (if d = some p then [x.word] else []) ++ routedSecond n last p (if last x.word then none else some d) xs
  | none, x :: xs =>
    match xs with
    | [] => []
    | y :: _ =>
      (if packetDest n y.select y.drop = some p then [x.word] else []) ++
        routedSecond n last p (some (packetDest n y.select y.drop)) xs

/-- No packet has a single word. The flag says that a packet is under way. -/
def TwoWords {α : Type} (last : α → Bool) : Bool → List (ADemuxIn α) → Prop
  | _, [] => True
  | under, x :: xs => (under = false → last x.word = false) ∧ TwoWords last (!last x.word) xs

/-- Whenever a word is offered, some output is selected and `drop` is not asserted. -/
def NothingDropped {α : Type} (n : Nat) (is : List (ADemuxIn α)) : Prop :=
  ∀ i ∈ is, i.tvalid = true → packetDest n i.select i.drop ≠ none

/-- Every output takes a word in every cycle. -/
def AlwaysReady {α : Type} (n : Nat) (is : List (ADemuxIn α)) : Prop := ∀ i ∈ is, ∀ p < n, i.mready p = true

end Verif.Spec
