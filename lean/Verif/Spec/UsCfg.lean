import Verif.Model.UsCfg
/-! Specification of the configuration reader for the UltraScale core: what it reads and what it outputs. -/
namespace Verif.Spec
open Verif.Model

/-- The state after a history. -/
def ucRun (c : UcCfg) : Uc → List UcIn → Uc
  | s, [] => s
  | s, i :: is => ucRun c (ucStep c s i) is

/-- The core answers only reads: `done` is set only in cycles in which `cfg_mgmt_read` is. -/
def UcObeys (c : UcCfg) : Uc → List UcIn → Prop
  | _, [] => True
  | s, i :: is => (i.done = true → s.read = true) ∧ UcObeys c (ucStep c s i) is

/-- A finished read: function number and word address requested, and the data. -/
structure UcRead where
  fn : Nat
  addr : Nat
  data : Nat
deriving DecidableEq, Repr

/-- The reads that the core finishes in a history. A read is finished by the first cycle with `done` while
`cfg_mgmt_read` is set; `b` says whether the read that is under way has been finished already. -/
def ucReads (c : UcCfg) : Bool → Uc → List UcIn → List UcRead
  | _, _, [] => []
  | b, s, i :: is =>
    if s.read then (if i.done && !b then [⟨s.fn, s.addr, i.data⟩] else []) ++ ucReads c (b || i.done) (ucStep c s i) is
    else ucReads c false (ucStep c s i) is

/-- The number under which the core knows function `f`: physical functions first, then virtual functions. -/
def ucNum (c : UcCfg) (f : Nat) : Nat := if f < c.pf then f else c.vfOffset + (f - c.pf)

/-- The functions have different numbers of 8 bits. -/
def UcOk (c : UcCfg) : Prop := 0 < c.pf ∧ c.pf ≤ 256 ∧ (0 < c.vf → c.pf ≤ c.vfOffset ∧ c.vfOffset + c.vf ≤ 256)

/-- What was read last for function `f`, 0 if nothing. -/
def ucLatest (c : UcCfg) (f : Nat) (rs : List UcRead) : Nat :=
  match (rs.filter fun r => r.fn == ucNum c f).getLast? with
  | none => 0
  | some r => r.data

/-- The core answers within `d` cycles: a read is pending for no more than `d` cycles without `done`; `w` is the number of
cycles that the present one has been pending. -/
def UcAnswers (c : UcCfg) (d : Nat) : Nat → Uc → List UcIn → Prop
  | _, _, [] => True
  | w, s, i :: is =>
    if s.read && !i.done then w < d ∧ UcAnswers c d (w + 1) (ucStep c s i) is else UcAnswers c d 0 (ucStep c s i) is

end Verif.Spec
