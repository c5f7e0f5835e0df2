import Verif.Spec.Arbiter
/-! Helper lemmas for the priority encoder and the arbiter. -/
namespace Verif.Proofs
open Verif Verif.Model Verif.Spec

/-! ### Priority encoder -/

theorem peValid_iff (p : Nat → Bool) (l n : Nat) :
    peValid p l n = true ↔ ∃ i, i < 2 ^ (l + 1) ∧ p (n * 2 ^ (l + 1) + i) = true := by
  induction l generalizing n with
  | zero =>
    simp only [peValid, Bool.or_eq_true, Nat.zero_add, Nat.pow_one]
    constructor
    · rintro (h | h)
      · exact ⟨0, by omega, h⟩
      · exact ⟨1, by omega, h⟩
    · rintro ⟨i, hi, h⟩
      rcases (show i = 0 ∨ i = 1 by omega) with rfl | rfl
      · exact Or.inl h
      · exact Or.inr h
  | succ l ih =>
    have e1 : n * 2 * 2 ^ (l + 1) = n * 2 ^ (l + 1 + 1) := by rw [Nat.pow_succ 2 (l + 1)]; ac_rfl
    have e2 : (n * 2 + 1) * 2 ^ (l + 1) = n * 2 ^ (l + 1 + 1) + 2 ^ (l + 1) := by
      rw [Nat.add_mul, e1, Nat.one_mul]
    have e3 : 2 ^ (l + 1 + 1) = 2 ^ (l + 1) + 2 ^ (l + 1) := by rw [Nat.pow_succ 2 (l + 1)]; omega
    simp only [peValid, Bool.or_eq_true, ih, e1, e2]
    rw [e3]
    generalize 2 ^ (l + 1) = P
    constructor
    · rintro (⟨i, hi, h⟩ | ⟨i, hi, h⟩)
      · exact ⟨i, by omega, h⟩
      · exact ⟨P + i, by omega, by rw [← Nat.add_assoc]; exact h⟩
    · rintro ⟨i, hi, h⟩
      by_cases hP : i < P
      · exact Or.inl ⟨i, hP, h⟩
      · exact Or.inr ⟨i - P, by omega, by rw [show n * (P + P) + P + (i - P) = n * (P + P) + i by omega]; exact h⟩

theorem peEnc_lt (lsb : Bool) (p : Nat → Bool) (l n : Nat) : peEnc lsb p l n < 2 ^ (l + 1) := by
  induction l generalizing n with
  | zero =>
    unfold peEnc
    cases lsb <;> cases p (n * 2) <;> cases p (n * 2 + 1) <;> decide
  | succ l ih =>
    have e3 : 2 ^ (l + 1 + 1) = 2 ^ (l + 1) + 2 ^ (l + 1) := by rw [Nat.pow_succ 2 (l + 1)]; omega
    have h1 := ih (n * 2)
    have h2 := ih (n * 2 + 1)
    unfold peEnc
    split <;> split <;> omega

theorem peEnc_spec (lsb : Bool) (p : Nat → Bool) (l n : Nat) (hv : peValid p l n = true) :
    p (n * 2 ^ (l + 1) + peEnc lsb p l n) = true ∧
    ∀ j, j < 2 ^ (l + 1) → p (n * 2 ^ (l + 1) + j) = true →
      if lsb then peEnc lsb p l n ≤ j else j ≤ peEnc lsb p l n := by
  induction l generalizing n with
  | zero =>
    simp only [peValid, Bool.or_eq_true] at hv
    simp only [Nat.zero_add, Nat.pow_one]
    unfold peEnc
    constructor
    · cases lsb
      · cases h1 : p (n * 2 + 1)
        · have h0 : p (n * 2) = true := by rw [h1] at hv; simpa using hv
          simpa using h0
        · simpa using h1
      · cases h0 : p (n * 2)
        · have h1 : p (n * 2 + 1) = true := by rw [h0] at hv; simpa using hv
          simpa using h1
        · simpa using h0
    · intro j hj h
      rcases (show j = 0 ∨ j = 1 by omega) with rfl | rfl
      · cases lsb <;> simp_all
      · cases lsb <;> simp_all
        cases p (n * 2) <;> simp
  | succ l ih =>
    have e1 : n * 2 * 2 ^ (l + 1) = n * 2 ^ (l + 1 + 1) := by rw [Nat.pow_succ 2 (l + 1)]; ac_rfl
    have e2 : (n * 2 + 1) * 2 ^ (l + 1) = n * 2 ^ (l + 1 + 1) + 2 ^ (l + 1) := by
      rw [Nat.add_mul, e1, Nat.one_mul]
    have e3 : 2 ^ (l + 1 + 1) = 2 ^ (l + 1) + 2 ^ (l + 1) := by rw [Nat.pow_succ 2 (l + 1)]; omega
    have hl := ih (n * 2)
    have hh := ih (n * 2 + 1)
    have b1 := peEnc_lt lsb p l (n * 2)
    have b2 := peEnc_lt lsb p l (n * 2 + 1)
    have v1 := peValid_iff p l (n * 2)
    have v2 := peValid_iff p l (n * 2 + 1)
    rw [e1] at hl v1
    rw [e2] at hh v2
    simp only [peValid, Bool.or_eq_true] at hv
    -- bits of the upper half
    have up : ∀ j, j < 2 ^ (l + 1 + 1) → p (n * 2 ^ (l + 1 + 1) + j) = true →
        (j < 2 ^ (l + 1) ∧ peValid p l (n * 2) = true) ∨
        (2 ^ (l + 1) ≤ j ∧ j - 2 ^ (l + 1) < 2 ^ (l + 1) ∧ peValid p l (n * 2 + 1) = true ∧
          p (n * 2 ^ (l + 1 + 1) + 2 ^ (l + 1) + (j - 2 ^ (l + 1))) = true) := by
      intro j hj h
      by_cases hP : j < 2 ^ (l + 1)
      · exact Or.inl ⟨hP, v1.mpr ⟨j, hP, h⟩⟩
      · have hx : p (n * 2 ^ (l + 1 + 1) + 2 ^ (l + 1) + (j - 2 ^ (l + 1))) = true := by
          rw [show n * 2 ^ (l + 1 + 1) + 2 ^ (l + 1) + (j - 2 ^ (l + 1)) = n * 2 ^ (l + 1 + 1) + j by omega]
          exact h
        exact Or.inr ⟨by omega, by omega, v2.mpr ⟨_, by omega, hx⟩, hx⟩
    unfold peEnc
    cases lsb with
    | true =>
      simp only [if_true] at hl hh ⊢
      by_cases hc : peValid p l (n * 2) = true
      · rw [if_pos hc]
        refine ⟨(hl hc).1, fun j hj h => ?_⟩
        rcases up j hj h with ⟨a, -⟩ | ⟨a, -, -, -⟩
        · exact (hl hc).2 j a h
        · omega
      · rw [if_neg hc]
        have hc2 : peValid p l (n * 2 + 1) = true := by
          rcases hv with h | h
          · exact absurd h hc
          · exact h
        refine ⟨by rw [← Nat.add_assoc]; exact (hh hc2).1, fun j hj h => ?_⟩
        rcases up j hj h with ⟨-, a⟩ | ⟨a, b, -, d⟩
        · exact absurd a hc
        · have := (hh hc2).2 _ b d; omega
    | false =>
      simp only [Bool.false_eq_true, if_false] at hl hh ⊢
      by_cases hc : peValid p l (n * 2 + 1) = true
      · rw [if_pos hc]
        refine ⟨by rw [← Nat.add_assoc]; exact (hh hc).1, fun j hj h => ?_⟩
        rcases up j hj h with ⟨a, -⟩ | ⟨a, b, -, d⟩
        · omega
        · have := (hh hc).2 _ b d; omega
      · rw [if_neg hc]
        have hc2 : peValid p l (n * 2) = true := by
          rcases hv with h | h
          · exact h
          · exact absurd h hc
        refine ⟨(hl hc2).1, fun j hj h => ?_⟩
        rcases up j hj h with ⟨a, -⟩ | ⟨-, -, a, -⟩
        · exact (hl hc2).2 j a h
        · exact absurd a hc

theorem width_le_levels {width : Nat} (hw : 0 < width) : width ≤ 2 ^ (peLevels width - 1 + 1) := by
  unfold peLevels
  split
  · have := clog2_pos (show 1 < width by omega)
    rw [Nat.sub_add_cancel this]; exact le_two_pow_clog2 _
  · simp; omega

theorem lt_clog2Width {width i : Nat} (h : i < width) : i < 2 ^ clog2Width width := by
  unfold clog2Width
  split
  · omega
  · have := le_two_pow_clog2 width; omega

theorem pe_valid (width : Nat) (lsb : Bool) (x : Nat) (hw : 0 < width) :
    (priorityEncoder width lsb x).valid = true ↔ ∃ i, i < width ∧ x.testBit i = true := by
  unfold priorityEncoder
  simp only [peValid_iff, Nat.zero_mul, Nat.zero_add, pePadded, Bool.and_eq_true, decide_eq_true_eq]
  have := width_le_levels hw
  constructor
  · rintro ⟨i, -, h⟩; exact ⟨i, h⟩
  · rintro ⟨i, h⟩; exact ⟨i, by omega, h⟩

theorem pe_selects (width : Nat) (lsb : Bool) (x : Nat) (hw : 0 < width)
    (hv : (priorityEncoder width lsb x).valid = true) :
    Selects width lsb x (priorityEncoder width lsb x).encoded ∧
    (priorityEncoder width lsb x).unencoded = 2 ^ (priorityEncoder width lsb x).encoded := by
  have hs := peEnc_spec lsb (pePadded width x) (peLevels width - 1) 0 hv
  have hw2 := width_le_levels hw
  simp only [Nat.zero_mul, Nat.zero_add] at hs
  obtain ⟨h1, h2⟩ := hs
  have h1' : peEnc lsb (pePadded width x) (peLevels width - 1) 0 < width ∧
      x.testBit (peEnc lsb (pePadded width x) (peLevels width - 1) 0) = true := by
    simpa [pePadded] using h1
  have he : (priorityEncoder width lsb x).encoded = peEnc lsb (pePadded width x) (peLevels width - 1) 0 :=
    Nat.mod_eq_of_lt (lt_clog2Width h1'.1)
  have hu : (priorityEncoder width lsb x).unencoded = (1 <<< (priorityEncoder width lsb x).encoded) % 2 ^ width := rfl
  constructor
  · rw [he]
    refine ⟨h1'.1, h1'.2, fun hl j hj h => ?_, fun hl j hj h => ?_⟩
    · have := h2 j (by omega) (by simp [pePadded, hj, h])
      rw [hl] at this ⊢; simpa using this
    · have := h2 j (by omega) (by simp [pePadded, hj, h])
      rw [hl] at this ⊢; simpa using this
  · rw [hu, Nat.one_shiftLeft, Nat.mod_eq_of_lt]
    apply Nat.pow_lt_pow_right (by omega)
    rw [he]; exact h1'.1

/-! ### Arbiter: grants -/

/-- The grant outputs agree. -/
def GrantOk (c : ArbCfg) (s : Arb) : Prop :=
  (s.valid = false ∧ s.grant = 0 ∧ s.encoded = 0) ∨
  (s.valid = true ∧ s.encoded < c.ports ∧ s.grant = 2 ^ s.encoded)

theorem choose_cases (c : ArbCfg) (hp : 0 < c.ports) (s : Arb) (i : ArbIn) :
    ((∀ j < c.ports, i.request.testBit j = false) ∧ arbChoose c s i = ⟨0, false, 0, s.mask⟩) ∨
    ((∃ j < c.ports, i.request.testBit j = true) ∧ c.roundRobin = false ∧
      ∃ k, Selects c.ports c.lsb i.request k ∧ arbChoose c s i = ⟨2 ^ k, true, k, s.mask⟩) ∨
    ((∃ j < c.ports, i.request.testBit j = true) ∧ c.roundRobin = true ∧
      ∃ k, (Selects c.ports c.lsb (i.request &&& s.mask) k ∨
        (∀ j < c.ports, ¬ (i.request.testBit j = true ∧ s.mask.testBit j = true)) ∧
          Selects c.ports c.lsb i.request k) ∧
        arbChoose c s i = ⟨2 ^ k, true, k, arbMask c k⟩) := by
  have tb : ∀ j, j < c.ports → (i.request % 2 ^ c.ports).testBit j = i.request.testBit j := by
    intro j hj; rw [Nat.testBit_mod_two_pow]; simp [hj]
  have sel : ∀ m k, Selects c.ports c.lsb ((i.request % 2 ^ c.ports) &&& m) k →
      Selects c.ports c.lsb (i.request &&& m) k := by
    intro m k h
    refine ⟨h.inRange, ?_, fun hl j hj hb => h.lowest hl j hj ?_, fun hl j hj hb => h.highest hl j hj ?_⟩
    · have := h.isSet; rw [Nat.testBit_and, tb k h.inRange] at this; rw [Nat.testBit_and]; exact this
    · rw [Nat.testBit_and] at hb ⊢; rw [tb j hj]; exact hb
    · rw [Nat.testBit_and] at hb ⊢; rw [tb j hj]; exact hb
  have sel0 : ∀ k, Selects c.ports c.lsb (i.request % 2 ^ c.ports) k → Selects c.ports c.lsb i.request k := by
    intro k h
    refine ⟨h.inRange, ?_, fun hl j hj hb => h.lowest hl j hj ?_, fun hl j hj hb => h.highest hl j hj ?_⟩
    · have := h.isSet; rwa [tb k h.inRange] at this
    · rw [tb j hj]; exact hb
    · rw [tb j hj]; exact hb
  unfold arbChoose
  simp only
  cases hr : (priorityEncoder c.ports c.lsb (i.request % 2 ^ c.ports)).valid with
  | false =>
    left
    refine ⟨fun j hj => ?_, by simp⟩
    cases hb : i.request.testBit j with
    | false => rfl
    | true =>
      have := (pe_valid c.ports c.lsb _ hp).mpr ⟨j, hj, (tb j hj).trans hb⟩
      rw [hr] at this; exact absurd this (by simp)
  | true =>
    right
    have hex : ∃ j < c.ports, i.request.testBit j = true := by
      obtain ⟨j, hj, hb⟩ := (pe_valid c.ports c.lsb _ hp).mp hr
      exact ⟨j, hj, by rw [tb j hj] at hb; exact hb⟩
    obtain ⟨hs, hu⟩ := pe_selects _ _ _ hp hr
    simp only [if_true]
    cases hrr : c.roundRobin with
    | false =>
      left
      exact ⟨hex, rfl, _, sel0 _ hs, by simp [hu]⟩
    | true =>
      right
      refine ⟨hex, rfl, ?_⟩
      simp only [if_true]
      cases hm : (priorityEncoder c.ports c.lsb ((i.request % 2 ^ c.ports) &&& s.mask)).valid with
      | true =>
        obtain ⟨hs2, hu2⟩ := pe_selects _ _ _ hp hm
        exact ⟨_, Or.inl (sel _ _ hs2), by simp [hu2]⟩
      | false =>
        refine ⟨_, Or.inr ⟨?_, sel0 _ hs⟩, by simp [hu]⟩
        rintro j hj ⟨h1, h2⟩
        have := (pe_valid c.ports c.lsb ((i.request % 2 ^ c.ports) &&& s.mask) hp).mpr ⟨j, hj, by
          rw [Nat.testBit_and, tb j hj, h1, h2]; rfl⟩
        rw [hm] at this; exact absurd this (by simp)

theorem choose_request (c : ArbCfg) (hp : 0 < c.ports) (s : Arb) (i : ArbIn)
    (hv : (arbChoose c s i).valid = true) :
    (arbChoose c s i).encoded < c.ports ∧ i.request.testBit (arbChoose c s i).encoded = true ∧
    (arbChoose c s i).grant = 2 ^ (arbChoose c s i).encoded := by
  rcases choose_cases c hp s i with ⟨-, e⟩ | ⟨-, -, k, hk, e⟩ | ⟨-, -, k, hk, e⟩
  · rw [e] at hv; simp at hv
  · rw [e]; exact ⟨hk.inRange, hk.isSet, rfl⟩
  · rw [e]
    rcases hk with hk | ⟨-, hk⟩
    · have := hk.isSet
      rw [Nat.testBit_and, Bool.and_eq_true] at this
      exact ⟨hk.inRange, this.1, rfl⟩
    · exact ⟨hk.inRange, hk.isSet, rfl⟩

theorem step_ok (c : ArbCfg) (hp : 0 < c.ports) (s : Arb) (i : ArbIn) (h : GrantOk c s) :
    GrantOk c (arbStep c s i) := by
  unfold arbStep
  split
  · exact Or.inl ⟨rfl, rfl, rfl⟩
  · split
    · exact h
    · cases hv : (arbChoose c s i).valid with
      | true => have := choose_request c hp s i hv; exact Or.inr ⟨hv, this.1, this.2.2⟩
      | false =>
        rcases choose_cases c hp s i with ⟨-, e⟩ | ⟨-, -, k, hk, e⟩ | ⟨-, -, k, hk, e⟩
        · rw [e]; exact Or.inl ⟨rfl, rfl, rfl⟩
        · rw [e] at hv; simp at hv
        · rw [e] at hv; simp at hv

theorem run_ok (c : ArbCfg) (hp : 0 < c.ports) (is : List ArbIn) (s : Arb) (h : GrantOk c s) :
    GrantOk c (arbRun c s is) := by
  induction is generalizing s with
  | nil => exact h
  | cons i is ih => exact ih _ (step_ok c hp s i h)

theorem pow_and_ne_zero (k x : Nat) : (2 ^ k &&& x != 0) = x.testBit k := by
  cases hb : x.testBit k with
  | true =>
    simp only [bne_iff_ne]
    intro h
    have := congrArg (fun z => z.testBit k) h
    simp [Nat.testBit_and, Nat.testBit_two_pow_self, hb] at this
  | false =>
    rw [bne_eq_false_iff_eq]
    apply Nat.eq_of_testBit_eq
    intro j
    rw [Nat.testBit_and, Nat.testBit_two_pow, Nat.zero_testBit]
    by_cases hj : k = j
    · subst hj; simp [hb]
    · simp [hj]

theorem hold_iff (c : ArbCfg) (s : Arb) (i : ArbIn) (h : GrantOk c s) :
    arbHold c s i = true ↔ Unreleased c s i := by
  unfold arbHold Unreleased
  rcases h with ⟨h1, h2, h3⟩ | ⟨h1, h2, h3⟩
  · rw [h1, h2]; simp
  · rw [h1, h3, pow_and_ne_zero]
    have e : (2 ^ s.encoded &&& i.acknowledge == 0) = !i.acknowledge.testBit s.encoded := by
      rw [← pow_and_ne_zero]; simp [bne]
    rw [e]
    cases c.block <;> cases c.blockAck <;> simp

theorem arbRun_snoc (c : ArbCfg) (s : Arb) (is : List ArbIn) (i : ArbIn) :
    arbRun c s (is ++ [i]) = arbStep c (arbRun c s is) i := by
  induction is generalizing s with
  | nil => rfl
  | cons j js ih => exact ih _

/-! ### Round robin -/

/-- Position up to which the current round has got: the mask has exactly the bits on the far side. -/
def MaskOk (c : ArbCfg) (s : Arb) (m : Nat) : Prop :=
  if c.lsb then m ≤ c.ports ∧ (∀ j < c.ports, s.mask.testBit j = decide (m ≤ j))
  else m ≤ c.ports ∧ ∀ j < c.ports, s.mask.testBit j = decide (j < m)

theorem mask_choose (c : ArbCfg) (s : Arb) (k : Nat) (hk : k < c.ports) (hm : s.mask = arbMask c k) :
    MaskOk c s (if c.lsb then k + 1 else k) := by
  unfold MaskOk
  rw [hm]
  unfold arbMask
  cases c.lsb with
  | true =>
    simp only [if_true]
    refine ⟨hk, fun j hj => ?_⟩
    rw [Nat.testBit_mod_two_pow, Nat.testBit_shiftLeft, Nat.testBit_two_pow_sub_one]
    simp only [hj, decide_true, Bool.true_and]
    by_cases h : k + 1 ≤ j
    · simp [h]; omega
    · simp [h]
  | false =>
    simp only [Bool.false_eq_true, if_false]
    refine ⟨by omega, fun j hj => ?_⟩
    rw [Nat.testBit_shiftRight, Nat.testBit_two_pow_sub_one]
    by_cases h : j < k <;> simp [h] <;> omega

/-- How many choices may go elsewhere before port `p` is chosen. -/
def rank (c : ArbCfg) (p m : Nat) : Nat :=
  if c.lsb then (if m ≤ p then p + 1 - m else p + 1 + c.ports - m)
  else (if p < m then m - p else m + c.ports - p)

theorem rank_le (c : ArbCfg) (s : Arb) (p m : Nat) (hp : p < c.ports) (h : MaskOk c s m) :
    1 ≤ rank c p m ∧ rank c p m ≤ c.ports := by
  unfold MaskOk at h
  unfold rank
  cases hl : c.lsb with
  | true => rw [hl] at h; simp only [if_true] at h ⊢; have := h.1; split <;> omega
  | false => rw [hl] at h; simp only [Bool.false_eq_true, if_false] at h ⊢; have := h.1; split <;> omega

theorem choose_rank (c : ArbCfg) (hrr : c.roundRobin = true) (s : Arb) (i : ArbIn) (p m : Nat)
    (hp : p < c.ports) (hreq : i.request.testBit p = true) (hm : MaskOk c s m) :
    ∃ k, (arbChoose c s i).encoded = k ∧ (arbChoose c s i).valid = true ∧ k < c.ports ∧
      (arbChoose c s i).mask = arbMask c k ∧
      (k = p ∨ rank c p (if c.lsb then k + 1 else k) < rank c p m) := by
  rcases choose_cases c (by omega) s i with ⟨h, -⟩ | ⟨-, h, -⟩ | ⟨-, -, k, hk, e⟩
  · rw [h p hp] at hreq; simp at hreq
  · rw [hrr] at h; simp at h
  · rw [e]
    refine ⟨k, rfl, rfl, ?_, rfl, ?_⟩
    · rcases hk with hk | ⟨-, hk⟩ <;> exact hk.inRange
    · unfold MaskOk at hm
      unfold rank
      have hkr : k < c.ports := by rcases hk with hk | ⟨-, hk⟩ <;> exact hk.inRange
      cases hl : c.lsb with
      | true =>
        rw [hl] at hm
        simp only [if_true] at hm ⊢
        have hm1 := hm.1
        rcases hk with hk | ⟨hn, hk⟩
        · have hs := hk.isSet
          rw [Nat.testBit_and, hm.2 k hk.inRange] at hs
          simp at hs
          by_cases hmp : m ≤ p
          · have := hk.lowest hl p hp (by rw [Nat.testBit_and, hreq, hm.2 p hp]; simpa using hmp)
            rw [if_pos hmp]; split <;> omega
          · rw [if_neg hmp]
            split <;> omega
        · have := hk.lowest hl p hp hreq
          have hmp : ¬ m ≤ p := fun h => hn p hp ⟨hreq, by rw [hm.2 p hp]; simpa using h⟩
          rw [if_neg hmp]; split <;> omega
      | false =>
        rw [hl] at hm
        simp only [Bool.false_eq_true, if_false] at hm ⊢
        have hm1 := hm.1
        rcases hk with hk | ⟨hn, hk⟩
        · have hs := hk.isSet
          rw [Nat.testBit_and, hm.2 k hk.inRange] at hs
          simp at hs
          by_cases hmp : p < m
          · have := hk.highest hl p hp (by rw [Nat.testBit_and, hreq, hm.2 p hp]; simpa using hmp)
            rw [if_pos hmp]; split <;> omega
          · rw [if_neg hmp]
            split <;> omega
        · have := hk.highest hl p hp hreq
          have hmp : ¬ p < m := fun h => hn p hp ⟨hreq, by rw [hm.2 p hp]; simpa using h⟩
          rw [if_neg hmp]; split <;> omega

theorem mask_init (c : ArbCfg) : ∃ m, MaskOk c {} m := by
  refine ⟨if c.lsb then c.ports else 0, ?_⟩
  unfold MaskOk
  cases c.lsb with
  | true =>
    refine ⟨Nat.le_refl _, fun j hj => ?_⟩
    simp only [if_true, Nat.zero_testBit]
    simp; omega
  | false => exact ⟨Nat.zero_le _, fun j hj => by simp⟩

theorem mask_step (c : ArbCfg) (hrr : c.roundRobin = true) (hp : 0 < c.ports) (s : Arb) (i : ArbIn)
    (h : ∃ m, MaskOk c s m) : ∃ m, MaskOk c (arbStep c s i) m := by
  unfold arbStep
  split
  · exact mask_init c
  · split
    · exact h
    · rcases choose_cases c hp s i with ⟨-, e⟩ | ⟨-, h, -⟩ | ⟨-, -, k, hk, e⟩
      · rw [e]; exact h
      · rw [hrr] at h; simp at h
      · rw [e]
        refine ⟨_, mask_choose c _ k ?_ rfl⟩
        rcases hk with hk | ⟨-, hk⟩ <;> exact hk.inRange

theorem mask_run (c : ArbCfg) (hrr : c.roundRobin = true) (hp : 0 < c.ports) (is : List ArbIn) (s : Arb)
    (h : ∃ m, MaskOk c s m) : ∃ m, MaskOk c (arbRun c s is) m := by
  induction is generalizing s with
  | nil => exact h
  | cons i is ih => exact ih _ (mask_step c hrr hp s i h)

theorem choices_rank (c : ArbCfg) (hrr : c.roundRobin = true) (is : List ArbIn) (s : Arb) (p m : Nat)
    (hp : p < c.ports) (hm : MaskOk c s m) (hr : ∀ i ∈ is, i.rst = false ∧ i.request.testBit p = true)
    (hl : rank c p m ≤ (choices c s is).length) : p ∈ (choices c s is).take (rank c p m) := by
  induction is generalizing s m with
  | nil =>
    have := rank_le c s p m hp hm
    simp [choices] at hl; omega
  | cons i is ih =>
    obtain ⟨h1, h2⟩ := hr i List.mem_cons_self
    have hr' := fun j hj => hr j (List.mem_cons_of_mem _ hj)
    have hrank := rank_le c s p m hp hm
    unfold choices at hl ⊢
    simp only [h1, Bool.not_false, Bool.true_and] at hl ⊢
    cases hh : arbHold c s i with
    | true =>
      have e : arbStep c s i = s := by simp [arbStep, h1, hh]
      rw [hh, e] at hl
      rw [e]
      simpa using ih s m hm hr' (by simpa using hl)
    | false =>
      have e : arbStep c s i = arbChoose c s i := by simp [arbStep, h1, hh]
      obtain ⟨k, k1, k2, k3, k4, k5⟩ := choose_rank c hrr s i p m hp h2 hm
      rw [hh, e] at hl
      rw [e]
      simp only [Bool.not_false, Bool.true_and, k2, if_true, k1, List.cons_append, List.nil_append] at hl ⊢
      rw [show rank c p m = (rank c p m - 1) + 1 by omega, List.take_succ_cons]
      rcases k5 with rfl | k5
      · exact List.mem_cons_self
      · apply List.mem_cons_of_mem
        have hmk := mask_choose c _ k k3 k4
        simp only [List.length_cons] at hl
        have := ih _ _ hmk hr' (by omega)
        exact List.mem_of_mem_take (i := rank c p (if c.lsb then k + 1 else k))
          (by rw [List.take_take]; rw [Nat.min_eq_left (by omega)]; exact this)

end Verif.Proofs
