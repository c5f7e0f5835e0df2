import Verif.Spec.Counters
/-! Helper lemmas for the pulse and credit counters. -/
namespace Verif.Proofs
open Verif Verif.Model Verif.Spec

/-! ### Pulses -/

theorem pmAdd_eq (cw x n i c : Nat) :
    pmAdd cw x n i c % 2 ^ cw =
      (c + ((List.range' i n).map fun j => (x.testBit j).toNat).sum) % 2 ^ cw := by
  induction n generalizing i c with
  | zero => simp [pmAdd]
  | succ n ih =>
    rw [pmAdd, ih, List.range'_succ, List.map_cons, List.sum_cons]
    rw [Nat.add_mod, Nat.mod_mod, ← Nat.add_mod, Nat.add_assoc]

theorem pmAdd_lt (cw x n i c : Nat) (hc : c < 2 ^ cw) : pmAdd cw x n i c < 2 ^ cw := by
  induction n generalizing i c with
  | zero => exact hc
  | succ n ih => exact ih _ _ (Nat.mod_lt _ (Nat.two_pow_pos _))

theorem pmStep_eq (iw cw : Nat) (s : PulseMerge) (x : Nat) (hs : s.count < 2 ^ cw) :
    pmStep iw cw s (false, x) =
      ⟨(s.count - 1 + ones iw x) % 2 ^ cw, decide (s.count > 0)⟩ := by
  unfold pmStep ones
  have h : (if s.count > 0 then s.count - 1 else s.count) = s.count - 1 := by split <;> omega
  rw [h]
  have e := pmAdd_eq cw x iw 0 (s.count - 1)
  rw [Nat.mod_eq_of_lt (pmAdd_lt cw x iw 0 _ (by omega)), ← List.range_eq_range'] at e
  simp [e]

/-- The state at the end of a history. -/
def pmLast (iw cw : Nat) (s : PulseMerge) (is : List (Bool × Nat)) : PulseMerge :=
  ((pmTrace iw cw s is).getLast?).getD s

theorem pmLast_cons (iw cw : Nat) (s : PulseMerge) (i : Bool × Nat) (is : List (Bool × Nat)) :
    pmLast iw cw s (i :: is) = pmLast iw cw (pmStep iw cw s i) is := by
  unfold pmLast
  rw [pmTrace, List.getLast?_cons]
  cases (pmTrace iw cw (pmStep iw cw s i) is).getLast? <;> rfl

theorem pm_conserve (iw cw : Nat) (xs : List Nat) (s : PulseMerge) (hs : s.count < 2 ^ cw)
    (h : PulsesFit iw cw s.count xs) :
    (pmTrace iw cw s (xs.map fun x => (false, x))).countP PulseMerge.pulse +
      (pmLast iw cw s (xs.map fun x => (false, x))).count = s.count + (xs.map (ones iw)).sum := by
  induction xs generalizing s with
  | nil => simp [pmTrace, pmLast]
  | cons x xs ih =>
    obtain ⟨h1, h2⟩ := h
    have e : pmStep iw cw s (false, x) = ⟨s.count - 1 + ones iw x, decide (s.count > 0)⟩ := by
      rw [pmStep_eq iw cw s x hs, Nat.mod_eq_of_lt h1]
    rw [List.map_cons, pmLast_cons, pmTrace, List.countP_cons, List.map_cons, List.sum_cons]
    have := ih (pmStep iw cw s (false, x)) (by rw [e]; exact h1) (by rw [e]; exact h2)
    rw [e] at this ⊢
    simp only at this ⊢
    by_cases h0 : s.count > 0
    · simp only [h0, decide_true, if_true] at this ⊢; omega
    · simp only [h0, decide_false, Bool.false_eq_true, if_false] at this ⊢; omega

theorem pmTrace_append (iw cw : Nat) (is js : List (Bool × Nat)) (s : PulseMerge) :
    pmTrace iw cw s (is ++ js) = pmTrace iw cw s is ++ pmTrace iw cw (pmLast iw cw s is) js := by
  induction is generalizing s with
  | nil => rfl
  | cons i is ih => rw [List.cons_append, pmTrace, ih, pmLast_cons, pmTrace, List.cons_append]

theorem ones_zero (iw : Nat) : ones iw 0 = 0 := by
  unfold ones
  induction iw with
  | zero => rfl
  | succ n ih => rw [List.range_succ, List.map_append, List.sum_append, ih]; simp

theorem pm_drain (iw cw n : Nat) (s : PulseMerge) (hs : s.count < 2 ^ cw) :
    (pmLast iw cw s (List.replicate n (false, 0))).count = s.count - n := by
  induction n generalizing s with
  | zero => rfl
  | succ n ih =>
    rw [List.replicate_succ, pmLast_cons]
    have e : pmStep iw cw s (false, 0) = ⟨s.count - 1, decide (s.count > 0)⟩ := by
      rw [pmStep_eq iw cw s 0 hs, ones_zero, Nat.add_zero, Nat.mod_eq_of_lt (by omega)]
    rw [ih _ (by rw [e]; simp only; omega), e]
    simp only; omega

/-! ### Credits of a TLP -/

theorem tlpFcType_spec (x : Nat) (h : DefinedTlp x) : tlpFcType x = some (fcClass x) := by
  have hx : x < 128 := by unfold DefinedTlp at h; omega
  have all : ∀ y : Fin 128, DefinedTlp y.1 → tlpFcType y.1 = some (fcClass y.1) := by decide +kernel
  exact all ⟨x, hx⟩ h

theorem tlpFcType_undefined (x : Nat) (h : x < 256) (hd : ¬ DefinedTlp x) : tlpFcType x = none := by
  have all : ∀ y : Fin 256, ¬ DefinedTlp y.1 → tlpFcType y.1 = none := by decide +kernel
  exact all ⟨x, h⟩ hd

theorem segHdr_type (i : FcIn) (seg : Nat) :
    segHdr i seg / 2 ^ 120 = (i.hdr >>> (seg * 128 + 120)) % 2 ^ 8 := by
  unfold segHdr
  rw [Nat.shiftRight_eq_div_pow, Nat.pow_add, ← Nat.div_div_eq_div_mul,
    show (2 : Nat) ^ 128 = 2 ^ 120 * 2 ^ 8 by rw [← Nat.pow_add], Nat.mod_mul_right_div_self]

theorem segFcD_eq (i : FcIn) (seg : Nat) (h : announced (segHdr i seg) ≤ 512) :
    segFcD i.hdr seg = dataCredits (segHdr i seg) ∧ dataCredits (segHdr i seg) ≤ 128 := by
  have hb : (segHdr i seg).testBit 126 = i.hdr.testBit (seg * 128 + 126) := by
    unfold segHdr
    rw [Nat.testBit_mod_two_pow, Nat.testBit_div_two_pow]
    simp [Nat.add_comm]
  have hl : segHdr i seg / 2 ^ 96 % 1024 = (i.hdr >>> (seg * 128 + 96)) % 1024 := by
    unfold segHdr
    rw [Nat.shiftRight_eq_div_pow, Nat.pow_add, ← Nat.div_div_eq_div_mul,
      show (2 : Nat) ^ 128 = 2 ^ 96 * 2 ^ 32 by rw [← Nat.pow_add], Nat.mod_mul_right_div_self]
    omega
  unfold segFcD dataCredits
  unfold announced at h ⊢
  rw [hb, hl] at h ⊢
  clear hb hl
  generalize i.hdr >>> (seg * 128 + 96) = z at h ⊢
  generalize i.hdr.testBit (seg * 128 + 126) = b at h ⊢
  cases b with
  | false => simp
  | true =>
    simp only [if_true] at h ⊢
    rw [Nat.shiftRight_eq_div_pow]
    split at h
    · omega
    · rename_i h0
      rw [if_neg h0]
      split <;> omega

/-- Segments on which a TLP of class `c` starts. -/
def inClass (i : FcIn) (c : FcType) (seg : Nat) : Bool :=
  tlpStarts i seg && decide (fcClass (segHdr i seg / 2 ^ 120) = c)

/-- The two counters of a class. -/
def fcH (s : FcCount) : FcType → Nat
  | .p => s.ph
  | .np => s.nph
  | .cpl => s.cplh

/-- The two counters of a class. -/
def fcD (s : FcCount) : FcType → Nat
  | .p => s.pd
  | .np => s.npd
  | .cpl => s.cpld

theorem fcSeg_eq (i : FcIn) (seg : Nat) (s : FcCount) (c : FcType) (hh : fcH s c < 16) (hd : fcD s c < 512)
    (h : tlpStarts i seg = true → DefinedTlp (segHdr i seg / 2 ^ 120) ∧ announced (segHdr i seg) ≤ 512) :
    fcH (fcSeg i seg s) c = (fcH s c + if inClass i c seg then 1 else 0) % 16 ∧
    fcD (fcSeg i seg s) c = (fcD s c + if inClass i c seg then dataCredits (segHdr i seg) else 0) % 512 := by
  unfold fcSeg inClass
  rw [← segHdr_type]
  have hc : (i.sop.testBit seg && i.valid.testBit seg && i.ready) = tlpStarts i seg := rfl
  rw [hc]
  cases ht : tlpStarts i seg with
  | false =>
    simp only [Bool.false_eq_true, if_false, Bool.false_and, Nat.add_zero]
    exact ⟨(Nat.mod_eq_of_lt hh).symm, (Nat.mod_eq_of_lt hd).symm⟩
  | true =>
    obtain ⟨h1, h2⟩ := h ht
    rw [tlpFcType_spec _ h1, (segFcD_eq i seg h2).1]
    simp only [if_true, Bool.true_and, decide_eq_true_eq]
    generalize fcClass (segHdr i seg / 2 ^ 120) = k
    generalize dataCredits (segHdr i seg) = dc
    cases k <;> cases c <;> simp [fcH, fcD] at hh hd ⊢ <;> omega

theorem fcSeg_lt (i : FcIn) (seg : Nat) (s : FcCount) (c : FcType) (hh : fcH s c < 16) (hd : fcD s c < 512) :
    fcH (fcSeg i seg s) c < 16 ∧ fcD (fcSeg i seg s) c < 512 := by
  unfold fcSeg
  split
  · split <;> cases c <;> simp only [fcH, fcD] at hh hd ⊢ <;> omega
  · exact ⟨hh, hd⟩

theorem fcFold_eq (i : FcIn) (c : FcType) (l : List Nat) (s : FcCount) (hh : fcH s c < 16)
    (hd : fcD s c < 512)
    (h : ∀ seg ∈ l, tlpStarts i seg = true →
      DefinedTlp (segHdr i seg / 2 ^ 120) ∧ announced (segHdr i seg) ≤ 512) :
    fcH (l.foldl (fun s seg => fcSeg i seg s) s) c = (fcH s c + (l.filter (inClass i c)).length) % 16 ∧
    fcD (l.foldl (fun s seg => fcSeg i seg s) s) c =
      (fcD s c + ((l.filter (inClass i c)).map fun seg => dataCredits (segHdr i seg)).sum) % 512 := by
  induction l generalizing s with
  | nil =>
    simp only [List.foldl_nil, List.filter_nil, List.length_nil, List.map_nil, List.sum_nil, Nat.add_zero]
    exact ⟨(Nat.mod_eq_of_lt hh).symm, (Nat.mod_eq_of_lt hd).symm⟩
  | cons a l ih =>
    obtain ⟨l1, l2⟩ := fcSeg_lt i a s c hh hd
    obtain ⟨e1, e2⟩ := fcSeg_eq i a s c hh hd (h a List.mem_cons_self)
    obtain ⟨f1, f2⟩ := ih (fcSeg i a s) l1 l2 (fun x hx => h x (List.mem_cons_of_mem _ hx))
    rw [List.foldl_cons, f1, f2, e1, e2, List.filter_cons]
    cases inClass i c a with
    | true =>
      simp only [if_true, List.length_cons, List.map_cons, List.sum_cons]
      constructor <;> omega
    | false =>
      simp only [Bool.false_eq_true, if_false]
      constructor <;> omega

theorem fcStep_eq (n : Nat) (i : FcIn) (c : FcType) (hr : i.rst = false)
    (h : ∀ seg < n, tlpStarts i seg = true →
      DefinedTlp (segHdr i seg / 2 ^ 120) ∧ announced (segHdr i seg) ≤ 512) :
    fcH (fcStep n i) c = headerTotal n i c % 16 ∧ fcD (fcStep n i) c = dataTotal n i c % 512 := by
  unfold fcStep
  rw [if_neg (by simp [hr])]
  have := fcFold_eq i c (List.range n) {} (by cases c <;> decide) (by cases c <;> decide)
    (fun seg hs => h seg (List.mem_range.mp hs))
  have e1 : fcH {} c = 0 := by cases c <;> rfl
  have e2 : fcD {} c = 0 := by cases c <;> rfl
  rw [e1, e2, Nat.zero_add, Nat.zero_add] at this
  exact this

theorem headerTotal_le (n : Nat) (i : FcIn) (c : FcType) : headerTotal n i c ≤ n := by
  unfold headerTotal
  have := List.length_filter_le (fun seg =>
    tlpStarts i seg && decide (fcClass (segHdr i seg / 2 ^ 120) = c)) (List.range n)
  rwa [List.length_range] at this

theorem sum_le_mul (l : List Nat) (f : Nat → Nat) (b : Nat) (h : ∀ x ∈ l, f x ≤ b) :
    (l.map f).sum ≤ l.length * b := by
  induction l with
  | nil => simp
  | cons a l ih =>
    have h1 := h a List.mem_cons_self
    have h2 := ih (fun x hx => h x (List.mem_cons_of_mem _ hx))
    simp only [List.map_cons, List.sum_cons, List.length_cons, Nat.add_mul, Nat.one_mul]
    omega

theorem dataTotal_le (n : Nat) (i : FcIn) (c : FcType)
    (h : ∀ seg < n, tlpStarts i seg = true → announced (segHdr i seg) ≤ 512) :
    dataTotal n i c ≤ n * 128 := by
  have h1 := headerTotal_le n i c
  unfold dataTotal
  refine Nat.le_trans (sum_le_mul _ _ 128 ?_) (Nat.mul_le_mul_right _ h1)
  intro seg hs
  simp only [List.mem_filter, List.mem_range, Bool.and_eq_true] at hs
  exact (segFcD_eq i seg (h seg hs.1 hs.2.1)).2

/-! ### Credit limits -/

theorem ptileAv_le (s : PtileFc) (d : Nat) : ptileAv s d ≤ s.cap := by
  unfold ptileAv
  simp only
  split
  · omega
  · split <;> omega

theorem ptile_bound (w : Nat) (is : List PtileIn) (s : PtileFc) (h : s.av ≤ s.cap) :
    (ptileRun w s is).av ≤ (ptileRun w s is).cap := by
  induction is generalizing s with
  | nil => exact h
  | cons i is ih =>
    apply ih
    have := ptileAv_le s (i.dec % 2 ^ w)
    unfold ptileStep
    split
    · exact Nat.le_refl _
    · split
      · show ptileAv s _ ≤ if s.cap = 0 then _ else s.cap
        split <;> omega
      · exact this

theorem ptile_account (w cap : Nat) (hc : 0 < cap) (hw : cap < 2 ^ w) (is : List (Nat × Nat)) (prev last used : Nat)
    (s : PtileFc) (h1 : s.cap = cap) (h2 : s.limit = last % 2 ^ w) (h3 : s.inc = last - prev)
    (h4 : s.av + used = prev) (h5 : prev ≤ last) (h6 : last ≤ used + cap)
    (l d : Nat)
    (hlast : FlowOk cap prev last used (is ++ [(l, d)])) :
    let s' := ptileRun w s ((is ++ [(l, d)]).map fun p => ⟨false, p.1, true, p.2⟩)
    s'.av + (used + consumed (is ++ [(l, d)])) = lastLimit last is ∧ s'.cap = cap := by
  induction is generalizing prev last used s with
  | nil =>
    obtain ⟨a1, a2, a3, -⟩ := hlast
    have hd : d < 2 ^ w := by omega
    simp only [List.nil_append, List.map_cons, List.map_nil, ptileRun, ptileStep, Bool.false_eq_true, if_false,
      if_true, h1, if_neg (show ¬ cap = 0 by omega), consumed, List.sum_cons, List.sum_nil, lastLimit,
      and_true, ptileAv, Nat.mod_eq_of_lt hd, h3]
    split
    · omega
    · split <;> omega
  | cons p is ih =>
    obtain ⟨l0, d0⟩ := p
    obtain ⟨a1, a2, a3, a4⟩ := hlast
    have hd : d0 < 2 ^ w := by omega
    have hm : (l0 % 2 ^ w + 2 ^ w - last % 2 ^ w) % 2 ^ w = l0 - last := by
      obtain ⟨k, rfl⟩ : ∃ k, l0 = last + k := ⟨l0 - last, by omega⟩
      have hk : k < 2 ^ w := by omega
      generalize 2 ^ w = P at *
      have hP : 0 < P := by omega
      have hr := Nat.mod_lt last hP
      rw [Nat.add_mod, Nat.mod_eq_of_lt hk]
      have e : (last % P + k) % P = if last % P + k < P then last % P + k else last % P + k - P := by
        split
        · rw [Nat.mod_eq_of_lt (by omega)]
        · rw [Nat.mod_eq_sub_mod (by omega), Nat.mod_eq_of_lt (by omega)]
      rw [e]
      split
      · rw [show last % P + k + P - last % P = k + P by omega, Nat.add_mod_right, Nat.mod_eq_of_lt hk]; omega
      · rw [show last % P + k - P + P - last % P = k by omega, Nat.mod_eq_of_lt hk]; omega
    have hav : ptileAv s d0 + (used + d0) = last := by
      simp only [ptileAv, h1, h3]
      split
      · omega
      · split <;> omega
    have step : ptileStep w s ⟨false, l0, true, d0⟩ =
        ⟨cap, l0 % 2 ^ w, l0 - last, ptileAv s d0⟩ := by
      simp only [ptileStep, Bool.false_eq_true, if_false, if_true, h1, if_neg (show ¬ cap = 0 by omega), h2, hm,
        Nat.mod_eq_of_lt hd]
    have := ih last l0 (used + d0) (ptileStep w s ⟨false, l0, true, d0⟩) (by rw [step]) (by rw [step])
      (by rw [step]) (by rw [step]; exact hav) a1 (by omega) a4
    simp only [List.cons_append, List.map_cons, ptileRun, lastLimit, consumed, List.sum_cons] at this ⊢
    rw [← Nat.add_assoc used]
    exact this

end Verif.Proofs
