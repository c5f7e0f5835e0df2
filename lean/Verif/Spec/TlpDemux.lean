import Verif.Model.TlpDemux
/-! Specification of the TLP demultiplexer: which port gets which segments. -/
namespace Verif.Spec
open Verif.Model

/-- A TLP segment as it goes through the demultiplexer: the lane in which it was accepted, what it carries, and the
port to which the control inputs of that cycle assign a TLP that starts with it (`none`: drop it). -/
structure TdmItem where
  lane : Nat
  seg : TlpSeg
  port : Option Nat
  deriving DecidableEq, Repr

/-- The assignment of segment `g` by `drop` and `select` in one cycle: no port if `drop` is set or no port is selected,
else the highest port that is selected. -/
def tdmAssign (c : TdmCfg) (i : TdmIn) (g : Nat) : Option Nat :=
  if i.drop g then none else ((List.range c.ports).filter fun p => i.select (c.segs * p + g)).getLast?

/-- The segments that are valid in one cycle, in the order of the lanes. -/
def tdmItems (c : TdmCfg) (i : TdmIn) : List TdmItem :=
  ((List.range c.segs).filter i.valid).map fun g => ⟨g, i.word g, tdmAssign c i g⟩

/-- The segments accepted in a history: those of the cycles in which `in_tlp_ready` is set. -/
def tdmAccepted (c : TdmCfg) : Tdm → List TdmIn → List TdmItem
  | _, [] => []
  | s, i :: is => (if tdmReady c s i then tdmItems c i else []) ++ tdmAccepted c (tdmStep c s i) is

/-- What the outputs of port `p` show: the lanes with `out_tlp_valid` set and what they carry. -/
def tdmShown (c : TdmCfg) (s : Tdm) (p : Nat) : List (Nat × TlpSeg) :=
  ((List.range c.segs).filter fun g => s.valid (c.segs * p + g)).map fun g => (g, s.word g)

/-- What port `p` takes in a history: what it is shown in the cycles in which it is ready. -/
def tdmTaken (c : TdmCfg) (p : Nat) : Tdm → List TdmIn → List (Nat × TlpSeg)
  | _, [] => []
  | s, i :: is => (if i.ready p then tdmShown c s p else []) ++ tdmTaken c p (tdmStep c s i) is

/-- A whole TLP: start flag on the first segment only, end flag on the last segment only. -/
def TdmTlp (t : List TdmItem) : Prop :=
  t ≠ [] ∧ ∀ (k : Nat) (h : k < t.length), (t[k].seg.sop = true ↔ k = 0) ∧ (t[k].seg.eop = true ↔ k + 1 = t.length)

/-- The beginning of a TLP (possibly nothing): start flag on the first segment only, no end flag. -/
def TdmPart (t : List TdmItem) : Prop :=
  ∀ (k : Nat) (h : k < t.length), (t[k].seg.sop = true ↔ k = 0) ∧ t[k].seg.eop = false

/-- The port of a TLP is that of its first segment. -/
def tdmDest (t : List TdmItem) : Option Nat := t.head?.bind (·.port)

/-- The segments of those TLPs in a list that are assigned to port `p`, with their lanes. -/
def tdmFor (p : Nat) (ts : List (List TdmItem)) : List (Nat × TlpSeg) :=
  ((ts.filter fun t => tdmDest t == some p).flatten).map fun x => (x.lane, x.seg)

/-- Segment `k` of a list of segments belongs to port `p`: there is a last start flag at or before it, no end flag
between, and the port of that start is `p`. -/
def TdmBelongs (l : List TdmItem) (p k : Nat) : Prop :=
  ∃ j, j ≤ k ∧ ∃ x, l[j]? = some x ∧ x.seg.sop = true ∧ x.port = some p ∧
    (∀ n y, j < n → n ≤ k → l[n]? = some y → y.seg.sop = false) ∧
    (∀ n y, j ≤ n → n < k → l[n]? = some y → y.seg.eop = false)

open Classical in
/-- The segments of a list that belong to port `p`, in order, with their lanes. -/
noncomputable def tdmBelonging (p : Nat) (l : List TdmItem) : List (Nat × TlpSeg) :=
  (l.zipIdx.filter fun x => decide (TdmBelongs l p x.2)).map fun x => (x.1.lane, x.1.seg)

end Verif.Spec

namespace Verif.Spec
open Verif.Model

/-- The BAR number of port `m` as the parameters say: the `m`-th group of three bits of `BAR_IDS`, or, if `BAR_IDS` is 0,
`BAR_BASE + m * BAR_STRIDE` modulo 8. -/
def tdmBarOf (b : TdmBarCfg) (m : Nat) : Nat :=
  if b.ids ≠ 0 then b.ids / 8 ^ m % 8 else (b.base + m * b.stride) % 8

/-- The segments of those TLPs in a list whose first segment carries BAR number `n`, with their lanes. -/
def tdmForBar (n : Nat) (ts : List (List TdmItem)) : List (Nat × TlpSeg) :=
  ((ts.filter fun t => (t.head?.map fun x => x.seg.bar) == some n).flatten).map fun x => (x.lane, x.seg)

end Verif.Spec
