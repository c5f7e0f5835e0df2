import Verif.Proofs.TlpDemux
/-! C78 to C80: the TLP demultiplexer without output FIFOs. -/
namespace Verif.Props
open Verif Verif.Model Verif.Spec Verif.Proofs

/-- **C78**: after a reset, for every history: what port `p` has taken, followed by what it is shown now, is the sequence
of the accepted segments that belong to port `p`: same order, same lanes, same contents, none lost, none twice. A
segment belongs to the port to which its TLP was assigned in the cycle in which the TLP began. The accepted segments
are arbitrary: TLPs may be cut off, and segments outside a TLP belong to no port. -/
theorem C78_route (c : TdmCfg) (s : Tdm) (r : TdmIn) (hr : r.rst = true) (is : List TdmIn)
    (hi : ∀ i ∈ is, i.rst = false) (p : Nat) (hp : p < c.ports) :
    tdmTaken c p (tdmStep c s r) is ++ tdmShown c (tdmRun c (tdmStep c s r) is) p =
      tdmBelonging p (tdmAccepted c (tdmStep c s r) is) := by
  obtain ⟨h, hs⟩ := tdm_reset c s r hr
  rw [tdm_run c is _ hi p hp, h, hs, List.nil_append, tdmRoute_belongs]

/-- **C78** for TLPs: when the accepted segments are whole TLPs, and perhaps the beginning of another, port `p` gets
exactly the TLPs assigned to it, whole and in order. -/
theorem C78_tlps (c : TdmCfg) (s : Tdm) (r : TdmIn) (hr : r.rst = true) (is : List TdmIn)
    (hi : ∀ i ∈ is, i.rst = false) (ts : List (List TdmItem)) (u : List TdmItem) (ht : ∀ t ∈ ts, TdmTlp t) (hu : TdmPart u)
    (ha : tdmAccepted c (tdmStep c s r) is = ts.flatten ++ u) (p : Nat) (hp : p < c.ports) :
    tdmTaken c p (tdmStep c s r) is ++ tdmShown c (tdmRun c (tdmStep c s r) is) p = tdmFor p (ts ++ [u]) := by
  obtain ⟨h, hs⟩ := tdm_reset c s r hr
  rw [tdm_run c is _ hi p hp, h, hs, List.nil_append, ha, tdmRoute_tlps p ts u ht hu]

/-- **C79**: as soon as a port has been ready in a cycle, it has everything that was accepted for it before that cycle. -/
theorem C79_delivery (c : TdmCfg) (s : Tdm) (r : TdmIn) (hr : r.rst = true) (is : List TdmIn)
    (hi : ∀ i ∈ is, i.rst = false) (i : TdmIn) (p : Nat) (hp : p < c.ports) (hrd : i.ready p = true) :
    tdmTaken c p (tdmStep c s r) (is ++ [i]) = tdmBelonging p (tdmAccepted c (tdmStep c s r) is) := by
  rw [← C78_route c s r hr is hi p hp]
  generalize tdmStep c s r = s
  clear hi
  induction is generalizing s with
  | nil => simp [tdmTaken, tdmRun, hrd]
  | cons x is ih => simp only [List.cons_append, tdmTaken, tdmRun, ih, List.append_assoc]

/-- **C79**: what a port is shown and does not take stays, unchanged, in every state. -/
theorem C79_stable (c : TdmCfg) (s : Tdm) (i : TdmIn) (hr : i.rst = false) (p : Nat) (hp : p < c.ports)
    (h : i.ready p = false) (hs : tdmShown c s p ≠ []) : tdmShown c (tdmStep c s i) p = tdmShown c s p := by
  have e := (tdm_step c s i hr).2 p hp
  have hn : tdmReady c s i = false := by
    cases hx : tdmReady c s i with
    | false => rfl
    | true =>
      exfalso
      apply hs
      unfold tdmShown
      rw [List.map_eq_nil_iff, List.filter_eq_nil_iff]
      intro g hg
      have := tdmVar0_clear c s i hx p g hp (List.mem_range.mp hg)
      rw [tdmVar0_valid c s i p g hp (List.mem_range.mp hg), h] at this
      simpa using this
  rw [h, hn] at e
  simpa [tdmRoute] using e

/-- **C79**: the input is ready exactly when `enable` is set and either no port is shown anything or all ports are
ready. -/
theorem C79_ready (c : TdmCfg) (s : Tdm) (i : TdmIn) :
    tdmReady c s i = true ↔
      i.enable = true ∧ ((∀ p, p < c.ports → tdmShown c s p = []) ∨ ∀ p, p < c.ports → i.ready p = true) := by
  have key : (∀ k, k < c.ports * c.segs → s.valid k = false) ↔ ∀ p, p < c.ports → tdmShown c s p = [] := by
    constructor
    · intro h p hp
      unfold tdmShown
      rw [List.map_eq_nil_iff, List.filter_eq_nil_iff]
      intro g hg
      have hg := List.mem_range.mp hg
      rw [h]; · simp
      have : c.segs * p + c.segs ≤ c.segs * c.ports := by rw [← Nat.mul_succ]; exact Nat.mul_le_mul_left _ hp
      rw [Nat.mul_comm c.ports]; omega
    · intro h k hk
      have hS : 0 < c.segs := by rcases Nat.eq_zero_or_pos c.segs with h | h; · simp [h] at hk
                                 · exact h
      have hp : k / c.segs < c.ports := (Nat.div_lt_iff_lt_mul hS).mpr hk
      have := h _ hp
      unfold tdmShown at this
      rw [List.map_eq_nil_iff, List.filter_eq_nil_iff] at this
      have := this (k % c.segs) (List.mem_range.mpr (Nat.mod_lt _ hS))
      rw [Nat.div_add_mod] at this
      simpa using this
  rw [← key]
  simp only [tdmReady, Bool.and_eq_true, Bool.or_eq_true, List.all_eq_true, List.mem_range, Bool.not_eq_true']
  exact ⟨fun h => ⟨h.2, h.1⟩, fun h => ⟨h.2, h.1⟩⟩

/-- **C79**: a port delays the others only while it leaves something that it is shown: if every port that is shown
something is ready, the input is ready in this cycle or in the next, when `enable` is set. -/
theorem C79_progress (c : TdmCfg) (s : Tdm) (i j : TdmIn) (hr : i.rst = false) (hj : j.enable = true)
    (h : ∀ p, p < c.ports → tdmShown c s p ≠ [] → i.ready p = true) :
    tdmReady c s i = true ∨ tdmReady c (tdmStep c s i) j = true := by
  cases hx : tdmReady c s i with
  | true => exact Or.inl rfl
  | false =>
    right
    refine (C79_ready _ _ _).mpr ⟨hj, Or.inl ?_⟩
    intro p hp
    have e := (tdm_step c s i hr).2 p hp
    rw [hx] at e
    simp only [Bool.false_eq_true, if_false, tdmRoute, List.append_nil] at e
    by_cases hs : tdmShown c s p = []
    · rw [hs] at e; simpa using e
    · rw [h p hp hs] at e
      simpa using e

/-- The checks of the module are that the BAR numbers of the ports are at most 5 and distinct. -/
theorem C80_checks (c : TdmCfg) (b : TdmBarCfg) :
    tdmBarOk c b = true ↔ (∀ m, m < c.ports → tdmBarOf b m ≤ 5) ∧
      ∀ m n, m < c.ports → n < c.ports → tdmBarOf b m = tdmBarOf b n → m = n := by
  have e : tdmBarId b = tdmBarOf b := funext (tdmBarId_eq b)
  simp only [tdmBarOk, e, List.all_eq_true, List.mem_range, Bool.and_eq_true, decide_eq_true_eq, Bool.not_eq_true',
    Bool.and_eq_false_iff, decide_eq_false_iff_not, beq_eq_false_iff_ne, ne_eq]
  constructor
  · intro h
    refine ⟨fun m hm => (h m hm).1, ?_⟩
    intro m n hm hn he
    rcases Nat.lt_trichotomy m n with hl | hl | hl
    · rcases (h m hm).2 n hn with h' | h'
      · exact absurd hl h'
      · exact absurd he h'
    · exact hl
    · rcases (h n hn).2 m hm with h' | h'
      · exact absurd hl h'
      · exact absurd he.symm h'
  · rintro ⟨h1, h2⟩ m hm
    refine ⟨h1 m hm, ?_⟩
    intro n hn
    by_cases he : tdmBarOf b m = tdmBarOf b n
    · left; have := h2 m n hm hn he; omega
    · exact Or.inr he

/-- **C80**: the demultiplexer by BAR. After a reset, for every history whose accepted segments are whole TLPs and perhaps
the beginning of another: the port with BAR number `n` gets exactly the TLPs whose first segment carries BAR number
`n`, whole and in order; TLPs for other BARs go nowhere. -/
theorem C80_bar (c : TdmCfg) (b : TdmBarCfg) (hb : tdmBarOk c b = true) (s : Tdm) (r : TdmIn) (hr : r.rst = true)
    (is : List TdmIn) (hi : ∀ i ∈ is, i.rst = false) (ts : List (List TdmItem)) (u : List TdmItem)
    (ht : ∀ t ∈ ts, TdmTlp t) (hu : TdmPart u)
    (ha : tdmAccepted c (tdmStep c s r) (is.map (tdmBarIn c b)) = ts.flatten ++ u) (p : Nat) (hp : p < c.ports) :
    tdmTaken c p (tdmStep c s r) (is.map (tdmBarIn c b)) ++ tdmShown c (tdmRun c (tdmStep c s r) (is.map (tdmBarIn c b))) p =
      tdmForBar (tdmBarOf b p) (ts ++ [u]) := by
  rw [C78_tlps c s r hr _ (by intro i hi'; obtain ⟨x, hx, rfl⟩ := List.mem_map.mp hi'; exact hi x hx) ts u ht hu ha p hp]
  have hport := tdmBar_accepted c b ((C80_checks c b).mp hb).2 (tdmStep c s r) is
  rw [ha] at hport
  unfold tdmFor tdmForBar
  congr 2
  apply List.filter_congr
  intro t htm
  have hmem : ∀ x ∈ t, x ∈ ts.flatten ++ u := by
    intro x hx
    rcases List.mem_append.mp htm with h | h
    · exact List.mem_append_left _ (List.mem_flatten_of_mem h hx)
    · rw [List.mem_singleton.mp h] at hx; exact List.mem_append_right _ hx
  cases t with
  | nil => rfl
  | cons x t =>
    have := hport x (hmem x (by simp)) p hp
    simp only [tdmDest, List.head?_cons, Option.bind_some, Option.map_some]
    rw [Bool.eq_iff_iff]
    simpa using this

/-! Non-vacuity: three ports, two segments per word -/

def tdmExCfg : TdmCfg := ⟨3, 2⟩

def tdmExSeg (d bar : Nat) (sop eop : Bool) : TlpSeg := { data := d, strb := 15, hdr := d + 100, bar := bar, sop := sop, eop := eop }

/-- A cycle with two segments offered and all ports but `busy` ready. -/
def tdmExIn (a b : Option TlpSeg) (busy : Nat) : TdmIn :=
  { valid := fun g => if g = 0 then a.isSome else b.isSome
    word := fun g => if g = 0 then a.getD {} else b.getD {}
    select := fun _ => false, ready := fun p => decide (p ≠ busy) }

/-- The ports have BARs 0, 2 and 4. A TLP for BAR 4 over three segments, one for BAR 1 (dropped), one for BAR 0; port 2
stalls once. -/
def tdmExHist : List TdmIn := [
  tdmExIn (some (tdmExSeg 1 4 true false)) (some (tdmExSeg 2 0 false false)) 9,
  tdmExIn (some (tdmExSeg 3 0 false true)) (some (tdmExSeg 4 1 true true)) 2,
  tdmExIn (some (tdmExSeg 3 0 false true)) (some (tdmExSeg 4 1 true true)) 9,
  tdmExIn none (some (tdmExSeg 5 0 true true)) 1,
  tdmExIn none (some (tdmExSeg 5 0 true true)) 1 ]

def tdmExBar : TdmBarCfg := { stride := 2 }

def tdmExReset : TdmIn := { rst := true, valid := fun _ => false, word := fun _ => {}, select := fun _ => false, ready := fun _ => false }

/-- The hypotheses of C80 (and with them those of C78) are met: the accepted segments are three TLPs; and what the ports
get is not trivial. -/
example :
    tdmBarOk tdmExCfg tdmExBar = true ∧
    tdmAccepted tdmExCfg (tdmStep tdmExCfg {} tdmExReset) (tdmExHist.map (tdmBarIn tdmExCfg tdmExBar)) =
      [[⟨0, tdmExSeg 1 4 true false, some 2⟩, ⟨1, tdmExSeg 2 0 false false, some 0⟩, ⟨0, tdmExSeg 3 0 false true, some 0⟩],
        [⟨1, tdmExSeg 4 1 true true, none⟩], [⟨1, tdmExSeg 5 0 true true, some 0⟩]].flatten ++ [] ∧
    tdmTaken tdmExCfg 2 (tdmStep tdmExCfg {} tdmExReset) (tdmExHist.map (tdmBarIn tdmExCfg tdmExBar)) =
      [(0, tdmExSeg 1 4 true false), (1, tdmExSeg 2 0 false false), (0, tdmExSeg 3 0 false true)] ∧
    tdmShown tdmExCfg (tdmRun tdmExCfg (tdmStep tdmExCfg {} tdmExReset) (tdmExHist.map (tdmBarIn tdmExCfg tdmExBar))) 0 =
      [(1, tdmExSeg 5 0 true true)] := by decide +kernel

example : TdmTlp [⟨0, tdmExSeg 1 4 true false, some 2⟩, ⟨1, tdmExSeg 2 0 false false, some 0⟩, ⟨0, tdmExSeg 3 0 false true, some 0⟩] ∧
    TdmTlp [⟨1, tdmExSeg 4 1 true true, none⟩] ∧ TdmPart [] := by
  refine ⟨⟨by simp, ?_⟩, ⟨by simp, ?_⟩, ?_⟩
  · intro k hk
    simp only [List.length_cons, List.length_nil] at hk
    rcases (by omega : k = 0 ∨ k = 1 ∨ k = 2) with rfl | rfl | rfl <;> simp [tdmExSeg]
  · intro k hk
    simp only [List.length_cons, List.length_nil] at hk
    obtain rfl : k = 0 := by omega
    simp [tdmExSeg]
  · intro k hk; simp at hk

/-- The hypotheses of C79: a port that is shown something and is not ready. -/
example : ∃ (s : Tdm) (i : TdmIn), tdmShown tdmExCfg s 2 = [(0, tdmExSeg 1 4 true false), (1, tdmExSeg 2 0 false false)] ∧
    i.rst = false ∧ i.ready 2 = false ∧ i.ready 0 = true :=
  ⟨tdmRun tdmExCfg (tdmStep tdmExCfg {} tdmExReset) ((tdmExHist.take 1).map (tdmBarIn tdmExCfg tdmExBar)),
    tdmExIn none none 2, by decide +kernel⟩

end Verif.Props
