/-! Specification of merging several word streams into one. -/
namespace Verif.Spec

/-- The words of port `p` in a merged stream of (port, word) pairs. -/
def ofPort {α : Type} (p : Nat) (t : List (Nat × α)) : List α := (t.filter (fun x => x.1 == p)).map (·.2)

/-- Frames are not mixed: the word after a word that is not the last of its frame comes from the same
port. -/
def FramesWhole {α : Type} (last : α → Bool) (t : List (Nat × α)) : Prop :=
  ∀ k a b, t[k]? = some a → t[k + 1]? = some b → last a.2 = false → b.1 = a.1

/-- A word stream consists of whole frames: it is empty or ends with the last word of a frame. -/
def Complete {α : Type} (last : α → Bool) (l : List α) : Prop := ∀ w, l.getLast? = some w → last w = true

end Verif.Spec
