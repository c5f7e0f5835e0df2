import Verif.Spec.TlpDemux
/-! Proofs about the TLP demultiplexer. -/
namespace Verif.Proofs
open Verif.Model Verif.Spec

/-- The port to which the TLP in progress goes. -/
def tdmCur (sel : Nat) (drop frame : Bool) : Option Nat := if frame && !drop then some sel else none

/-- The segments for port `p`, segment by segment. -/
def tdmRoute (p : Nat) : Option Nat → List TdmItem → List (Nat × TlpSeg)
  | _, [] => []
  | cur, x :: l =>
    (if (if x.seg.sop then x.port else cur) = some p then [(x.lane, x.seg)] else []) ++
      tdmRoute p (if x.seg.eop then none else if x.seg.sop then x.port else cur) l

/-- The port of the TLP in progress after a list of segments. -/
def tdmAfter : Option Nat → List TdmItem → Option Nat
  | cur, [] => cur
  | cur, x :: l => tdmAfter (if x.seg.eop then none else if x.seg.sop then x.port else cur) l

theorem tdmAfter_append (cur : Option Nat) (a b : List TdmItem) : tdmAfter cur (a ++ b) = tdmAfter (tdmAfter cur a) b := by
  induction a generalizing cur with
  | nil => rfl
  | cons x a ih => exact ih _

theorem tdmRoute_append (p : Nat) (cur : Option Nat) (a b : List TdmItem) :
    tdmRoute p cur (a ++ b) = tdmRoute p cur a ++ tdmRoute p (tdmAfter cur a) b := by
  induction a generalizing cur with
  | nil => rfl
  | cons x a ih => simp only [List.cons_append, tdmRoute, tdmAfter, ih, List.append_assoc]

/-- The loop over the ports picks the last selected port. -/
theorem tdmPick_spec (sel : Nat → Bool) (n : Nat) :
    (((List.range n).filter sel).getLast? = none ∧ (tdmPick sel n).2 = true) ∨
    (((List.range n).filter sel).getLast? = some (tdmPick sel n).1 ∧ (tdmPick sel n).2 = false) := by
  induction n with
  | zero => left; simp [tdmPick]
  | succ n ih =>
    rw [List.range_succ, List.filter_append, tdmPick]
    cases h : sel n with
    | true => right; simp [h]
    | false => simpa [h] using ih

theorem tdm_index {S p q g k : Nat} (hg : g < S) (hk : k < S) (h : S * p + g = S * q + k) : p = q ∧ g = k := by
  have hS : 0 < S := by omega
  have e1 : (S * p + g) / S = p := by rw [Nat.mul_add_div hS, Nat.div_eq_of_lt hg]; rfl
  have e2 : (S * q + k) / S = q := by rw [Nat.mul_add_div hS, Nat.div_eq_of_lt hk]; rfl
  have : p = q := by rw [← e1, ← e2, h]
  subst this
  exact ⟨rfl, by omega⟩

/-- The items of the first `n` lanes. -/
def tdmItemsN (c : TdmCfg) (i : TdmIn) (n : Nat) : List TdmItem :=
  ((List.range n).filter i.valid).map fun g => ⟨g, i.word g, tdmAssign c i g⟩

theorem tdmSop_cur (c : TdmCfg) (i : TdmIn) (g : Nat) (v : TdmVar) :
    tdmCur (tdmSop c i g v).sel (tdmSop c i g v).drop (tdmSop c i g v).frame =
      (if (i.word g).sop then tdmAssign c i g else tdmCur v.sel v.drop v.frame) ∧
    (tdmSop c i g v).valid = v.valid := by
  unfold tdmSop
  cases hs : (i.word g).sop with
  | false => simp
  | true =>
    refine ⟨?_, by simp⟩
    simp only [if_true, tdmCur, tdmAssign, Bool.true_and]
    cases hd : i.drop g with
    | true => simp
    | false =>
      rcases tdmPick_spec (fun port => i.select (c.segs * port + g)) c.ports with ⟨h1, h2⟩ | ⟨h1, h2⟩ <;>
        simp [h1, h2]

/-- One pass of the loop. -/
theorem tdmSeg_step (c : TdmCfg) (i : TdmIn) (v : TdmVar) (g : Nat) (hg : g < c.segs) :
    tdmCur (tdmSeg c i v g).sel (tdmSeg c i v g).drop (tdmSeg c i v g).frame =
      tdmAfter (tdmCur v.sel v.drop v.frame) (if i.valid g then [⟨g, i.word g, tdmAssign c i g⟩] else []) ∧
    ∀ p k, k < c.segs → (tdmSeg c i v g).valid (c.segs * p + k) =
      (v.valid (c.segs * p + k) ||
        (i.valid g && decide (k = g) &&
          decide ((if (i.word g).sop then tdmAssign c i g else tdmCur v.sel v.drop v.frame) = some p))) := by
  unfold tdmSeg
  cases hv : i.valid g with
  | false => simp [tdmAfter]
  | true =>
    obtain ⟨hc, hva⟩ := tdmSop_cur c i g v
    simp only [if_true, tdmAfter, Bool.true_and]
    rw [← hc]
    generalize tdmSop c i g v = w at *
    rw [← hva]
    constructor
    · by_cases hf : (w.frame && !w.drop) = true
      · cases he : (i.word g).eop <;> simp [hf, tdmCur] <;> simp_all [tdmCur]
      · cases he : (i.word g).eop <;> simp [hf, tdmCur] <;> simp_all [tdmCur]
    · intro p k hk
      by_cases hf : (w.frame && !w.drop) = true
      · have e : tdmCur w.sel w.drop w.frame = some w.sel := by rw [tdmCur, if_pos hf]
        rw [e]
        have key : ∀ b : Bool, (if c.segs * p + k = c.segs * w.sel + g then true else b) =
            (b || (decide (k = g) && decide (some w.sel = some p))) := by
          intro b
          by_cases hx : c.segs * p + k = c.segs * w.sel + g
          · obtain ⟨rfl, rfl⟩ := tdm_index hk hg hx
            simp
          · rw [if_neg hx]
            by_cases hkg : k = g
            · subst hkg
              have : w.sel ≠ p := by rintro rfl; exact hx rfl
              simp [this]
            · simp [hkg]
        cases he : (i.word g).eop <;> simp only [hf, if_true] <;> exact key _
      · have e : tdmCur w.sel w.drop w.frame = none := by rw [tdmCur, if_neg hf]
        rw [e]
        cases he : (i.word g).eop <;> simp [hf]

/-- The loop over the first `n` segments. -/
theorem tdm_fold (c : TdmCfg) (i : TdmIn) (v : TdmVar) (n : Nat) (hn : n ≤ c.segs)
    (h0 : ∀ p k, p < c.ports → k < c.segs → v.valid (c.segs * p + k) = false) :
    let w := (List.range n).foldl (tdmSeg c i) v
    tdmCur w.sel w.drop w.frame = tdmAfter (tdmCur v.sel v.drop v.frame) (tdmItemsN c i n) ∧
    (∀ p k, p < c.ports → n ≤ k → k < c.segs → w.valid (c.segs * p + k) = false) ∧
    ∀ p, p < c.ports → (((List.range n).filter fun g => w.valid (c.segs * p + g)).map fun g => (g, i.word g)) =
      tdmRoute p (tdmCur v.sel v.drop v.frame) (tdmItemsN c i n) := by
  induction n with
  | zero =>
    refine ⟨rfl, ?_, ?_⟩
    · intro p k hp _ hk; exact h0 p k hp hk
    · intro p _; rfl
  | succ n ih =>
    obtain ⟨a, b, d⟩ := ih (by omega)
    intro w
    have hw : w = tdmSeg c i ((List.range n).foldl (tdmSeg c i) v) n := by
      show (List.range (n + 1)).foldl _ _ = _
      rw [List.range_succ, List.foldl_append]; rfl
    generalize hu : (List.range n).foldl (tdmSeg c i) v = u at *
    obtain ⟨e, f⟩ := tdmSeg_step c i u n (by omega)
    rw [← hw] at e f
    have hit : tdmItemsN c i (n + 1) =
        tdmItemsN c i n ++ (if i.valid n then [⟨n, i.word n, tdmAssign c i n⟩] else []) := by
      rw [tdmItemsN, List.range_succ, List.filter_append, List.map_append]
      congr 1
      cases h : i.valid n <;> simp [h]
    refine ⟨?_, ?_, ?_⟩
    · rw [e, a, hit, tdmAfter_append]
    · intro p k hp hk hk'
      rw [f p k hk', b p k hp (by omega) hk']
      have : ¬ k = n := by omega
      simp [this]
    · intro p hp
      rw [hit, tdmRoute_append, ← a, List.range_succ, List.filter_append, List.map_append]
      have e1 : (List.range n).filter (fun g => w.valid (c.segs * p + g)) =
          (List.range n).filter (fun g => u.valid (c.segs * p + g)) := by
        apply List.filter_congr
        intro g hg
        have hg := List.mem_range.mp hg
        rw [f p g (by omega)]
        have : ¬ g = n := by omega
        simp [this]
      rw [e1, d p hp]
      congr 1
      have e2 := f p n (by omega)
      rw [b p n hp (Nat.le_refl _) (by omega)] at e2
      simp only [Bool.false_or, decide_true, Bool.and_true] at e2
      rw [List.filter_cons, e2]
      cases hv : i.valid n with
      | false => simp [tdmRoute]
      | true =>
        simp only [Bool.true_and, if_true, tdmRoute, List.filter_nil, List.append_nil, decide_eq_true_eq]
        split <;> split <;> rfl

theorem tdmVar0_valid (c : TdmCfg) (s : Tdm) (i : TdmIn) (p k : Nat) (hp : p < c.ports) (hk : k < c.segs) :
    (tdmVar0 c s i).valid (c.segs * p + k) = (s.valid (c.segs * p + k) && !i.ready p) := by
  show (s.valid _ && !(List.range c.ports).any _) = _
  congr 2
  rw [Bool.eq_iff_iff]
  simp only [List.any_eq_true, List.mem_range, Bool.and_eq_true, decide_eq_true_eq]
  constructor
  · rintro ⟨q, _, hq, h1, h2⟩
    obtain ⟨j, hj⟩ : ∃ j, c.segs * p + k = c.segs * q + j := ⟨c.segs * p + k - c.segs * q, by omega⟩
    obtain ⟨rfl, _⟩ := tdm_index hk (by omega : j < c.segs) hj
    exact hq
  · intro h
    exact ⟨p, hp, h, by omega, by omega⟩

theorem tdmVar0_clear (c : TdmCfg) (s : Tdm) (i : TdmIn) (h : tdmReady c s i = true) (p k : Nat) (hp : p < c.ports)
    (hk : k < c.segs) : (tdmVar0 c s i).valid (c.segs * p + k) = false := by
  rw [tdmVar0_valid c s i p k hp hk]
  simp only [tdmReady, Bool.and_eq_true, Bool.or_eq_true, List.all_eq_true, List.mem_range, Bool.not_eq_true'] at h
  rcases h.1 with h | h
  · rw [h]; · rfl
    have : c.segs * p + c.segs ≤ c.segs * c.ports := by rw [← Nat.mul_succ]; exact Nat.mul_le_mul_left _ hp
    rw [Nat.mul_comm c.ports]; omega
  · rw [h p hp]; simp

/-- One clock edge without reset. -/
theorem tdm_step (c : TdmCfg) (s : Tdm) (i : TdmIn) (hr : i.rst = false) :
    tdmCur (tdmStep c s i).sel (tdmStep c s i).drop (tdmStep c s i).frame =
      tdmAfter (tdmCur s.sel s.drop s.frame) (if tdmReady c s i then tdmItems c i else []) ∧
    ∀ p, p < c.ports →
      (if i.ready p then tdmShown c s p else []) ++ tdmShown c (tdmStep c s i) p =
        tdmShown c s p ++ tdmRoute p (tdmCur s.sel s.drop s.frame) (if tdmReady c s i then tdmItems c i else []) := by
  have e1 : (tdmStep c s i).sel = (tdmVar1 c s i).sel := by simp [tdmStep, hr]
  have e2 : (tdmStep c s i).drop = (tdmVar1 c s i).drop := by simp [tdmStep, hr]
  have e3 : (tdmStep c s i).frame = (tdmVar1 c s i).frame := by simp [tdmStep, hr]
  have e4 : (tdmStep c s i).valid = (tdmVar1 c s i).valid := by simp [tdmStep, hr]
  rw [e1, e2, e3]
  cases h : tdmReady c s i with
  | false =>
    have ev : tdmVar1 c s i = tdmVar0 c s i := by rw [tdmVar1, h]; rfl
    have ew : (tdmStep c s i).word = s.word := by simp [tdmStep, h]
    rw [ev] at e4 ⊢
    refine ⟨rfl, ?_⟩
    intro p hp
    simp only [Bool.false_eq_true, if_false, tdmRoute, List.append_nil]
    have : tdmShown c (tdmStep c s i) p = if i.ready p then [] else tdmShown c s p := by
      unfold tdmShown
      rw [ew, e4]
      have : ((List.range c.segs).filter fun g => (tdmVar0 c s i).valid (c.segs * p + g)) =
          ((List.range c.segs).filter fun g => s.valid (c.segs * p + g) && !i.ready p) :=
        List.filter_congr fun g hg => tdmVar0_valid c s i p g hp (List.mem_range.mp hg)
      rw [this]
      cases i.ready p <;> simp
    rw [this]
    cases i.ready p <;> simp
  | true =>
    have ev : tdmVar1 c s i = (List.range c.segs).foldl (tdmSeg c i) (tdmVar0 c s i) := by rw [tdmVar1, h]; rfl
    have ew : (tdmStep c s i).word = i.word := by simp [tdmStep, h]
    obtain ⟨a, _, d⟩ := tdm_fold c i (tdmVar0 c s i) c.segs (Nat.le_refl _) (fun p k => tdmVar0_clear c s i h p k)
    rw [ev] at e4 ⊢
    refine ⟨a, ?_⟩
    intro p hp
    have d := d p hp
    have : tdmShown c (tdmStep c s i) p = tdmRoute p (tdmCur s.sel s.drop s.frame) (tdmItems c i) := by
      unfold tdmShown
      rw [ew, e4]; exact d
    rw [this]
    simp only [if_true]
    have : (if i.ready p then tdmShown c s p else []) = tdmShown c s p := by
      cases hp' : i.ready p with
      | true => rfl
      | false =>
        have : tdmShown c s p = [] := by
          unfold tdmShown
          rw [List.map_eq_nil_iff, List.filter_eq_nil_iff]
          intro g hg
          have := tdmVar0_clear c s i h p g hp (List.mem_range.mp hg)
          rw [tdmVar0_valid c s i p g hp (List.mem_range.mp hg), hp'] at this
          simpa using this
        simp [this]
    rw [this]

theorem tdm_run (c : TdmCfg) (is : List TdmIn) (s : Tdm) (hi : ∀ i ∈ is, i.rst = false) (p : Nat) (hp : p < c.ports) :
    tdmTaken c p s is ++ tdmShown c (tdmRun c s is) p =
      tdmShown c s p ++ tdmRoute p (tdmCur s.sel s.drop s.frame) (tdmAccepted c s is) := by
  induction is generalizing s with
  | nil => simp [tdmTaken, tdmRun, tdmAccepted, tdmRoute]
  | cons i is ih =>
    obtain ⟨a, b⟩ := tdm_step c s i (hi i (by simp))
    have ih := ih (tdmStep c s i) (fun x hx => hi x (by simp [hx]))
    rw [a] at ih
    rw [tdmTaken, tdmRun, tdmAccepted, List.append_assoc, ih, tdmRoute_append, ← List.append_assoc, b p hp,
      List.append_assoc]

theorem tdm_reset (c : TdmCfg) (s : Tdm) (r : TdmIn) (hr : r.rst = true) :
    tdmCur (tdmStep c s r).sel (tdmStep c s r).drop (tdmStep c s r).frame = none ∧
    ∀ p, tdmShown c (tdmStep c s r) p = [] := by
  constructor
  · simp [tdmStep, hr, tdmCur]
  · intro p
    simp [tdmShown, tdmStep, hr]

/-! Whole TLPs -/

theorem tdmRoute_rest (p : Nat) (cur : Option Nat) (l : List TdmItem)
    (hs : ∀ k (h : k < l.length), l[k].seg.sop = false)
    (he : ∀ k (h : k < l.length), l[k].seg.eop = true → k + 1 = l.length) :
    tdmRoute p cur l = if cur = some p then l.map (fun x => (x.lane, x.seg)) else [] := by
  induction l generalizing cur with
  | nil => simp [tdmRoute]
  | cons x l ih =>
    have hx := hs 0 (by simp)
    simp only [List.getElem_cons_zero] at hx
    have hl := fun k (h : k < l.length) => hs (k + 1) (by simp; omega)
    have hl' := fun k (h : k < l.length) (e : l[k].seg.eop = true) => he (k + 1) (by simp; omega) (by simpa using e)
    simp only [List.getElem_cons_succ, List.length_cons] at hl hl'
    rw [tdmRoute, hx]
    simp only [Bool.false_eq_true, if_false]
    cases l with
    | nil => by_cases h : cur = some p <;> simp [tdmRoute, h]
    | cons y l =>
      have hxe : x.seg.eop = false := by
        cases h : x.seg.eop with
        | false => rfl
        | true => have := he 0 (by simp) (by simpa using h); simp at this
      rw [hxe]
      simp only [Bool.false_eq_true, if_false]
      rw [ih cur hl (fun k h e => by have := hl' k h e; omega)]
      by_cases h : cur = some p <;> simp [h]

theorem tdmRoute_first (p : Nat) (cur : Option Nat) (t : List TdmItem)
    (hs : ∀ k (h : k < t.length), (t[k].seg.sop = true ↔ k = 0))
    (he : ∀ k (h : k < t.length), t[k].seg.eop = true → k + 1 = t.length) :
    tdmRoute p cur t = if tdmDest t = some p then t.map (fun x => (x.lane, x.seg)) else [] := by
  cases t with
  | nil => simp [tdmRoute]
  | cons x l =>
    have hx := hs 0 (by simp)
    simp only [List.getElem_cons_zero, iff_true] at hx
    have hl := fun k (h : k < l.length) => hs (k + 1) (by simp; omega)
    have hl' := fun k (h : k < l.length) (e : l[k].seg.eop = true) => he (k + 1) (by simp; omega) (by simpa using e)
    simp only [List.getElem_cons_succ, List.length_cons] at hl hl'
    have hd : tdmDest (x :: l) = x.port := by simp [tdmDest]
    rw [hd, tdmRoute, hx]
    simp only [if_true]
    rw [tdmRoute_rest p _ l (fun k h => by have := hl k h; simp at this; exact this) (fun k h e => by have := hl' k h e; omega)]
    cases l with
    | nil => by_cases h : x.port = some p <;> simp [h]
    | cons y l =>
      have hxe : x.seg.eop = false := by
        cases h : x.seg.eop with
        | false => rfl
        | true => have := he 0 (by simp) (by simpa using h); simp at this
      by_cases h : x.port = some p <;> simp [hxe, h]

theorem tdmAfter_tlp (cur : Option Nat) (t : List TdmItem) (h : TdmTlp t) : tdmAfter cur t = none := by
  obtain ⟨l, x, rfl⟩ : ∃ l x, t = l ++ [x] := ⟨t.dropLast, t.getLast h.1, (List.dropLast_concat_getLast h.1).symm⟩
  have := (h.2 l.length (by simp)).2
  simp at this
  rw [tdmAfter_append, tdmAfter, this]; rfl

theorem tdmRoute_tlps (p : Nat) (ts : List (List TdmItem)) (u : List TdmItem) (ht : ∀ t ∈ ts, TdmTlp t) (hu : TdmPart u) :
    tdmRoute p none (ts.flatten ++ u) = tdmFor p (ts ++ [u]) := by
  induction ts with
  | nil =>
    rw [List.flatten_nil, List.nil_append,
      tdmRoute_first p none u (fun k h => (hu k h).1) (fun k h e => by rw [(hu k h).2] at e; simp at e)]
    by_cases h : tdmDest u = some p <;> simp [tdmFor, h]
  | cons t ts ih =>
    have h := ht t (by simp)
    rw [List.flatten_cons, List.append_assoc, tdmRoute_append, tdmAfter_tlp none t h, ih (fun t h => ht t (by simp [h])),
      tdmRoute_first p none t (fun k h' => (h.2 k h').1) (fun k h' e => (h.2 k h').2.mp e)]
    by_cases h : tdmDest t = some p <;> simp [tdmFor, h]

/-! Arbitrary segments -/

theorem tdm_snoc_ind {α : Type} {P : List α → Prop} (h0 : P []) (h1 : ∀ l x, P l → P (l ++ [x])) : ∀ l, P l := by
  intro l
  rw [← List.reverse_reverse l]
  generalize l.reverse = r
  induction r with
  | nil => exact h0
  | cons x r ih => rw [List.reverse_cons]; exact h1 _ _ ih

theorem tdm_snoc_get {α : Type} (l : List α) (x : α) (n : Nat) (y : α) :
    (l ++ [x])[n]? = some y ↔ l[n]? = some y ∨ (n = l.length ∧ y = x) := by
  by_cases h : n < l.length
  · rw [List.getElem?_append_left h]
    constructor
    · exact Or.inl
    · rintro (h' | ⟨h', _⟩)
      · exact h'
      · omega
  · rw [List.getElem?_append_right (by omega), List.getElem?_eq_none (l := l) (by omega)]
    by_cases h' : n = l.length
    · subst h'; simp [eq_comm]
    · obtain ⟨k, hk⟩ : ∃ k, n - l.length = k + 1 := ⟨n - l.length - 1, by omega⟩
      simp [hk, h']

theorem tdm_get_lt {α : Type} {l : List α} {n : Nat} {y : α} (h : l[n]? = some y) : n < l.length :=
  (List.getElem?_eq_some_iff.mp h).1

theorem tdmAfter_some (l : List TdmItem) (p : Nat) :
    tdmAfter none l = some p ↔ ∃ (j : Nat) (x : TdmItem), l[j]? = some x ∧ x.seg.sop = true ∧ x.port = some p ∧
      (∀ (n : Nat) (y : TdmItem), j < n → l[n]? = some y → y.seg.sop = false) ∧
      (∀ (n : Nat) (y : TdmItem), j ≤ n → l[n]? = some y → y.seg.eop = false) := by
  induction l using tdm_snoc_ind with
  | h0 => simp [tdmAfter]
  | h1 l x ih =>
    rw [tdmAfter_append, tdmAfter, tdmAfter]
    constructor
    · intro h
      cases he : x.seg.eop with
      | true => simp [he] at h
      | false =>
        cases hs : x.seg.sop with
        | true =>
          simp only [he, hs, Bool.false_eq_true, if_false, if_true] at h
          refine ⟨l.length, x, by simp, hs, h, ?_, ?_⟩
          · intro n y hn hy
            have := tdm_get_lt hy
            simp at this; omega
          · intro n y hn hy
            rcases (tdm_snoc_get l x n y).mp hy with hy | ⟨_, rfl⟩
            · have := tdm_get_lt hy; omega
            · exact he
        | false =>
          simp only [he, hs, Bool.false_eq_true, if_false] at h
          obtain ⟨j, z, h1, h2, h3, h4, h5⟩ := ih.mp h
          refine ⟨j, z, (tdm_snoc_get l x j z).mpr (Or.inl h1), h2, h3, ?_, ?_⟩
          · intro n y hn hy
            rcases (tdm_snoc_get l x n y).mp hy with hy | ⟨_, rfl⟩
            · exact h4 n y hn hy
            · exact hs
          · intro n y hn hy
            rcases (tdm_snoc_get l x n y).mp hy with hy | ⟨_, rfl⟩
            · exact h5 n y hn hy
            · exact he
    · rintro ⟨j, z, h1, h2, h3, h4, h5⟩
      have hj := tdm_get_lt h1
      simp at hj
      have he : x.seg.eop = false := h5 l.length x (by omega) (by simp)
      rcases (tdm_snoc_get l x j z).mp h1 with h1 | ⟨_, rfl⟩
      · have := tdm_get_lt h1
        have hs : x.seg.sop = false := h4 l.length x this (by simp)
        rw [he, hs]
        refine ih.mpr ⟨j, z, h1, h2, h3, ?_, ?_⟩
        · intro n y hn hy; exact h4 n y hn ((tdm_snoc_get l x n y).mpr (Or.inl hy))
        · intro n y hn hy; exact h5 n y hn ((tdm_snoc_get l x n y).mpr (Or.inl hy))
      · rw [he, h2]; exact h3

theorem tdmBelongs_snoc (l : List TdmItem) (x : TdmItem) (p k : Nat) (hk : k < l.length) :
    TdmBelongs (l ++ [x]) p k ↔ TdmBelongs l p k := by
  unfold TdmBelongs
  have e : ∀ n, n ≤ k → (l ++ [x])[n]? = l[n]? := fun n hn => List.getElem?_append_left (by omega)
  constructor
  · rintro ⟨j, hj, y, h1, h2, h3, h4, h5⟩
    exact ⟨j, hj, y, by rw [← e j hj]; exact h1, h2, h3,
      fun n z a b d => h4 n z a b (by rw [e n b]; exact d), fun n z a b d => h5 n z a b (by rw [e n (by omega)]; exact d)⟩
  · rintro ⟨j, hj, y, h1, h2, h3, h4, h5⟩
    exact ⟨j, hj, y, by rw [e j hj]; exact h1, h2, h3,
      fun n z a b d => h4 n z a b (by rw [← e n b]; exact d), fun n z a b d => h5 n z a b (by rw [← e n (by omega)]; exact d)⟩

theorem tdmBelongs_last (l : List TdmItem) (x : TdmItem) (p : Nat) :
    TdmBelongs (l ++ [x]) p l.length ↔ (if x.seg.sop then x.port else tdmAfter none l) = some p := by
  unfold TdmBelongs
  constructor
  · rintro ⟨j, hj, y, h1, h2, h3, h4, h5⟩
    rcases (tdm_snoc_get l x j y).mp h1 with h1 | ⟨_, rfl⟩
    · have := tdm_get_lt h1
      rw [h4 l.length x this (Nat.le_refl _) (by simp)]
      refine (tdmAfter_some l p).mpr ⟨j, y, h1, h2, h3, ?_, ?_⟩
      · intro n z hn hz
        have := tdm_get_lt hz
        exact h4 n z hn (by omega) ((tdm_snoc_get l x n z).mpr (Or.inl hz))
      · intro n z hn hz
        have := tdm_get_lt hz
        exact h5 n z hn (by omega) ((tdm_snoc_get l x n z).mpr (Or.inl hz))
    · rw [h2]; exact h3
  · intro h
    cases hs : x.seg.sop with
    | true =>
      rw [hs] at h
      refine ⟨l.length, Nat.le_refl _, x, by simp, hs, h, ?_, ?_⟩ <;> intro n z a b <;> omega
    | false =>
      rw [hs] at h
      obtain ⟨j, y, h1, h2, h3, h4, h5⟩ := (tdmAfter_some l p).mp h
      have hj := tdm_get_lt h1
      refine ⟨j, by omega, y, (tdm_snoc_get l x j y).mpr (Or.inl h1), h2, h3, ?_, ?_⟩
      · intro n z hn _ hz
        rcases (tdm_snoc_get l x n z).mp hz with hz | ⟨_, rfl⟩
        · exact h4 n z hn hz
        · exact hs
      · intro n z hn hn' hz
        rcases (tdm_snoc_get l x n z).mp hz with hz | ⟨h', _⟩
        · exact h5 n z hn hz
        · omega

open Classical in
theorem tdmRoute_belongs (p : Nat) (l : List TdmItem) :
    tdmRoute p none l = tdmBelonging p l := by
  induction l using tdm_snoc_ind with
  | h0 => rfl
  | h1 l x ih =>
    rw [tdmRoute_append, ih]
    unfold tdmBelonging
    rw [List.zipIdx_append, List.filter_append, List.map_append]
    congr 1
    · congr 1
      apply List.filter_congr
      rintro ⟨y, k⟩ hy
      have := List.snd_lt_of_mem_zipIdx hy
      simp only [Nat.zero_add] at this
      simp only [tdmBelongs_snoc l x p k (by omega)]
    · have := tdmBelongs_last l x p
      simp only [tdmRoute, List.append_nil, List.zipIdx_cons, List.zipIdx_nil, Nat.zero_add, List.filter_cons, List.filter_nil, this]
      by_cases h : (if x.seg.sop then x.port else tdmAfter none l) = some p
      · simp only [h, if_true, decide_true, List.map_cons, List.map_nil]
      · simp only [h, if_false, decide_false, Bool.false_eq_true, List.map_nil]

/-! The demultiplexer by BAR -/

theorem tdmBarId_eq (b : TdmBarCfg) (m : Nat) : tdmBarId b m = tdmBarOf b m := by
  unfold tdmBarId tdmBarOf
  split
  · rfl
  · induction m with
    | zero => simp [tdmCalc]
    | succ m ih => rw [tdmCalc, ih, Nat.succ_mul]; omega

theorem tdm_filter_unique {n p : Nat} (f : Nat → Bool) (hu : ∀ q r, q < n → r < n → f q = true → f r = true → q = r) :
    p < n → (((List.range n).filter f).getLast? = some p ↔ f p = true) := by
  intro hp
  constructor
  · intro h
    exact (List.mem_filter.mp (List.mem_of_getLast? h)).2
  · intro h
    have hm : p ∈ (List.range n).filter f := List.mem_filter.mpr ⟨List.mem_range.mpr hp, h⟩
    cases he : ((List.range n).filter f).getLast? with
    | none => rw [List.getLast?_eq_none_iff] at he; rw [he] at hm; simp at hm
    | some q =>
      have hq := List.mem_filter.mp (List.mem_of_getLast? he)
      rw [hu q p (List.mem_range.mp hq.1) hp hq.2 h]

theorem tdmBar_accepted (c : TdmCfg) (b : TdmBarCfg)
    (hd : ∀ m n, m < c.ports → n < c.ports → tdmBarOf b m = tdmBarOf b n → m = n) (s : Tdm) (is : List TdmIn) :
    ∀ x ∈ tdmAccepted c s (is.map (tdmBarIn c b)), ∀ p, p < c.ports → (x.port = some p ↔ x.seg.bar = tdmBarOf b p) := by
  induction is generalizing s with
  | nil => simp [tdmAccepted]
  | cons i is ih =>
    intro x hx p hp
    rw [List.map_cons, tdmAccepted] at hx
    rcases List.mem_append.mp hx with hx | hx
    · split at hx
      · obtain ⟨g, hg, rfl⟩ := List.mem_map.mp hx
        have hg := List.mem_range.mp (List.mem_filter.mp hg).1
        have hS : 0 < c.segs := by omega
        have e : ∀ q, (tdmBarIn c b i).select (c.segs * q + g) = ((i.word g).bar == tdmBarOf b q) := by
          intro q
          show ((i.word ((c.segs * q + g) % c.segs)).bar == tdmBarId b ((c.segs * q + g) / c.segs)) = _
          rw [tdmBarId_eq, Nat.mul_add_mod, Nat.mod_eq_of_lt hg, Nat.mul_add_div hS, Nat.div_eq_of_lt hg, Nat.add_zero]
        show tdmAssign c (tdmBarIn c b i) g = some p ↔ (i.word g).bar = tdmBarOf b p
        have : tdmAssign c (tdmBarIn c b i) g =
            ((List.range c.ports).filter fun q => (i.word g).bar == tdmBarOf b q).getLast? := by
          unfold tdmAssign
          simp only [e]
          rfl
        rw [this, tdm_filter_unique _ _ hp]
        · simp
        · intro q r hq hr h1 h2
          exact hd q r hq hr (by rw [← eq_of_beq h1, ← eq_of_beq h2])
      · simp at hx
    · exact ih _ x hx p hp

end Verif.Proofs
