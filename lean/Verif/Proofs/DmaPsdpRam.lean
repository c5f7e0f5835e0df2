import Verif.Spec.DmaPsdpRam
/-! Helper lemmas for the segmented RAM: the read pipeline is a queue. -/
namespace Verif.Proofs
open Verif Verif.Model Verif.Spec

/-- The words in the pipeline, oldest first. -/
def pipeQ {β : Type} : Nat → (Nat → Bool) → (Nat → β) → List β
  | 0, _, _ => []
  | n + 1, v, d => (if v n then [d n] else []) ++ pipeQ n v d

theorem pipeQ_congr {β : Type} (n : Nat) (v v' : Nat → Bool) (d d' : Nat → β) (h : ∀ j < n, v' j = v j ∧ d' j = d j) :
    pipeQ n v' d' = pipeQ n v d := by
  induction n with
  | zero => rfl
  | succ n ih =>
    rw [pipeQ, pipeQ, (h n (by omega)).1, (h n (by omega)).2, ih fun j hj => h j (by omega)]

theorem pipeQ_shift {β : Type} (n : Nat) (v v' : Nat → Bool) (d d' : Nat → β)
    (h : ∀ j < n, v' (j + 1) = v j ∧ d' (j + 1) = d j) :
    pipeQ (n + 1) v' d' = pipeQ n v d ++ (if v' 0 then [d' 0] else []) := by
  induction n with
  | zero => simp [pipeQ]
  | succ n ih =>
    rw [pipeQ, (h n (by omega)).1, (h n (by omega)).2, ih fun j hj => h j (by omega), pipeQ]
    simp

theorem shift_succ (P : Nat) (v : Nat → Bool) (j : Nat) :
    pipeShift (P + 1) v false j = (pipeShift P v false j || (decide (j ≤ P) && !v P)) := by
  simp [pipeShift, List.range_succ, List.any_append]

theorem shift_true (P : Nat) (v : Nat → Bool) (j : Nat) : pipeShift P v true j = true := by simp [pipeShift]

/-- With the output not ready, everything behind the first free stage moves up. -/
theorem pipe_stall {β : Type} (P : Nat) (v : Nat → Bool) (d : Nat → β) (acc : Bool) (x : β)
    (h : pipeShift P v false 0 = true) :
    pipeQ P (pipeValid P v false acc) (pipeData P v d false acc x) = pipeQ P v d ++ (if acc then [x] else []) := by
  induction P with
  | zero => simp [pipeShift] at h
  | succ n ih =>
    cases hv : v n with
    | false =>
      -- the last stage is free: all stages move
      have hs : ∀ j, j ≤ n → pipeShift (n + 1) v false j = true := by
        intro j hj; rw [shift_succ, hv]; simp [hj]
      have e := pipeQ_shift n v (pipeValid (n + 1) v false acc) d (pipeData (n + 1) v d false acc x) (by
        intro j hj
        have h1 := hs (j + 1) (by omega)
        simp [pipeValid, pipeData, h1])
      rw [e, pipeQ, hv]
      simp only [Bool.false_eq_true, if_false, List.nil_append]
      congr 1
      cases acc with
      | true => simp [pipeValid, pipeData]
      | false =>
        have : pipeValid (n + 1) v false false 0 = false := by
          unfold pipeValid
          by_cases hn : n = 0
          · subst hn; simp [hv]
          · have := hs 1 (by omega)
            simp [this]; omega
        rw [this]; simp
    | true =>
      have hs : ∀ j, pipeShift (n + 1) v false j = pipeShift n v false j := by
        intro j; rw [shift_succ, hv]; simp
      rw [hs] at h
      have hn : 0 < n := by
        cases n with
        | zero => simp [pipeShift] at h
        | succ n => omega
      have hsn : ∀ j, n ≤ j → pipeShift n v false j = false := by
        intro j hj
        simp only [pipeShift, Bool.false_or, List.any_eq_false, List.mem_range, Bool.and_eq_true, not_and,
          decide_eq_true_eq]
        intro k hk hjk; omega
      have hc : ∀ j < n, pipeValid (n + 1) v false acc j = pipeValid n v false acc j ∧
          pipeData (n + 1) v d false acc x j = pipeData n v d false acc x j := by
        intro j hj
        unfold pipeValid pipeData
        simp only [hs, Bool.false_and, Bool.false_eq_true, if_false]
        refine ⟨?_, trivial⟩
        by_cases hj' : j + 1 < n
        · simp [hj', show j + 1 < n + 1 by omega]
        · have := hsn (j + 1) (by omega)
          simp [this]
      rw [pipeQ, pipeQ, pipeQ_congr n _ _ _ _ hc, ih h, hv]
      have h1 : pipeValid (n + 1) v false acc n = true := by
        unfold pipeValid
        have h0 : (n == 0) = false := by simp; omega
        simp [hs, hsn n (Nat.le_refl n), h0, hv]
      have h2 : pipeData (n + 1) v d false acc x n = d n := by
        unfold pipeData
        have h0 : (n == 0) = false := by simp; omega
        simp [hs, hsn n (Nat.le_refl n), h0]
      rw [h1, h2]; simp

/-- With the output not ready and no free stage, nothing moves. -/
theorem pipe_full {β : Type} (P : Nat) (v : Nat → Bool) (d : Nat → β) (x : β)
    (h : pipeShift P v false 0 = false) :
    pipeQ P (pipeValid P v false false) (pipeData P v d false false x) = pipeQ P v d := by
  have hs : ∀ j, pipeShift P v false j = false := by
    intro j
    simp only [pipeShift, Bool.false_or, List.any_eq_false, List.mem_range, Bool.and_eq_true, not_and,
      decide_eq_true_eq, Nat.zero_le, true_implies] at h ⊢
    intro k hk _
    exact h k hk
  apply pipeQ_congr
  intro j _
  simp [pipeValid, pipeData, hs]

theorem pipe_step {β : Type} (P : Nat) (hP : 0 < P) (v : Nat → Bool) (d : Nat → β) (ready acc : Bool) (x : β)
    (h : acc = true → (ready || (List.range P).any fun k => !v k) = true) :
    (if v (P - 1) && ready then [d (P - 1)] else []) ++
      pipeQ P (pipeValid P v ready acc) (pipeData P v d ready acc x) = pipeQ P v d ++ (if acc then [x] else []) := by
  cases ready with
  | false =>
    simp only [Bool.and_false, Bool.false_eq_true, if_false, List.nil_append]
    cases hs : pipeShift P v false 0 with
    | true => exact pipe_stall P v d acc x hs
    | false =>
      cases acc with
      | false => simpa using pipe_full P v d x hs
      | true =>
        have := h rfl
        simp [pipeShift] at hs this
        obtain ⟨k, hk, hv⟩ := this
        rw [hs k hk] at hv; simp at hv
  | true =>
    obtain ⟨n, rfl⟩ : ∃ n, P = n + 1 := ⟨P - 1, by omega⟩
    have e := pipeQ_shift n v (pipeValid (n + 1) v true acc) d (pipeData (n + 1) v d true acc x) (by
      intro j _
      simp [pipeValid, pipeData, shift_true])
    rw [e]
    have h0 : pipeValid (n + 1) v true acc 0 = acc := by
      unfold pipeValid
      cases acc with
      | true => simp
      | false =>
        by_cases hn : n = 0
        · subst hn; simp
        · simp [shift_true]; omega
    have h1 : acc = true → pipeData (n + 1) v d true acc x 0 = x := by intro ha; simp [pipeData, ha]
    rw [h0, pipeQ]
    cases acc with
    | false => simp
    | true => rw [h1 rfl]; simp

/-- Memory contents after a history. -/
theorem ram_mem (c : PsRamCfg) (is : List PsRamIn) (s : PsRam) (a l : Nat) :
    (psRamRun c s is).mem a l = ramByte c (s.mem a l) a l is := by
  induction is generalizing s with
  | nil => rfl
  | cons i is ih =>
    rw [psRamRun, ih, ramByte]
    congr 1
    simp only [psRamStep, psRamWrite, Bool.and_eq_true, decide_eq_true_eq, beq_iff_eq]
    by_cases h : i.wrValid = true ∧ i.wrBe l = true ∧ l < c.beWidth ∧ i.wrAddr % 2 ^ c.addrWidth = a
    · rw [if_pos h, if_pos ⟨⟨⟨h.1, h.2.1⟩, h.2.2.1⟩, h.2.2.2.symm⟩]
    · rw [if_neg h, if_neg (fun hh => h ⟨hh.1.1.1, hh.1.1.2, hh.1.2, hh.2.symm⟩)]

/-- The word a command accepted in cycle `k` of a history is to get. -/
def ramWordAt (c : PsRamCfg) (s : PsRam) (is : List PsRamIn) (x : Nat × Nat) : RamWord :=
  fun l => ramByte c (s.mem (x.2 % 2 ^ c.addrWidth) l) (x.2 % 2 ^ c.addrWidth) l (is.take x.1)

theorem accepted_shift (c : PsRamCfg) (is : List PsRamIn) (s : PsRam) (k n : Nat) :
    psRamAccepted c (k + n) s is = (psRamAccepted c n s is).map fun x => (x.1 + k, x.2) := by
  induction is generalizing s n with
  | nil => rfl
  | cons i is ih =>
    rw [psRamAccepted, psRamAccepted, List.map_append, show k + n + 1 = k + (n + 1) by omega, ih]
    congr 1
    split
    · simp [Nat.add_comm]
    · rfl

theorem ram_run (c : PsRamCfg) (hP : 0 < c.pipeline) (is : List PsRamIn) (s : PsRam)
    (hr : ∀ i ∈ is, i.rst = false) :
    psRamResponses c s is ++ pipeQ c.pipeline (psRamRun c s is).valid (psRamRun c s is).data =
      pipeQ c.pipeline s.valid s.data ++ (psRamAccepted c 0 s is).map (ramWordAt c s is) := by
  induction is generalizing s with
  | nil => simp [psRamResponses, psRamRun, psRamAccepted]
  | cons i is ih =>
    have h1 := ih (psRamStep c s i) fun j hj => hr j (List.mem_cons_of_mem _ hj)
    have hi := hr i List.mem_cons_self
    have hp := pipe_step c.pipeline hP s.valid s.data i.respReady (i.rdValid && psRamCmdReady c s i)
      (s.mem (i.rdAddr % 2 ^ c.addrWidth)) (by
        intro h
        simp only [Bool.and_eq_true] at h
        exact h.2)
    have e1 : (psRamStep c s i).valid =
        pipeValid c.pipeline s.valid i.respReady (i.rdValid && psRamCmdReady c s i) := by
      funext j; simp [psRamStep, hi]
    have e2 : (psRamStep c s i).data = pipeData c.pipeline s.valid s.data i.respReady
        (i.rdValid && psRamCmdReady c s i) (s.mem (i.rdAddr % 2 ^ c.addrWidth)) := rfl
    rw [← e1, ← e2] at hp
    rw [psRamResponses, psRamRun, psRamAccepted, List.append_assoc, h1, ← List.append_assoc, hp,
      List.append_assoc, List.map_append]
    congr 2
    · split
      · rfl
      · rfl
    · have := accepted_shift c is (psRamStep c s i) 1 0
      rw [Nat.zero_add, show (1 : Nat) = 1 + 0 from rfl, this, List.map_map]
      apply List.map_congr_left
      intro x _
      funext l
      simp only [Function.comp, ramWordAt, List.take_succ_cons, ramByte]
      have h := ram_mem c [i] s (x.2 % 2 ^ c.addrWidth) l
      simp only [psRamRun, ramByte] at h
      rw [h]

theorem pipeQ_length {β : Type} (n : Nat) (v : Nat → Bool) (d : Nat → β) : (pipeQ n v d).length ≤ n := by
  induction n with
  | zero => simp [pipeQ]
  | succ n ih => rw [pipeQ, List.length_append]; split <;> simp <;> omega

theorem pipeQ_empty {β : Type} (n : Nat) (v : Nat → Bool) (d : Nat → β) (h : ∀ j < n, v j = false) :
    pipeQ n v d = [] := by
  induction n with
  | zero => rfl
  | succ n ih => rw [pipeQ, h n (by omega), ih fun j hj => h j (by omega)]; rfl

/-- With the output ready and no commands, stage `j` is empty after more than `j` cycles. -/
theorem ram_drain (c : PsRamCfg) (is : List PsRamIn) (s : PsRam)
    (hq : ∀ i ∈ is, i.rst = false ∧ i.rdValid = false ∧ i.respReady = true) (n : Nat)
    (h : ∀ j < c.pipeline, j < n → s.valid j = false) :
    (∀ j < c.pipeline, j < n + is.length → (psRamRun c s is).valid j = false) ∧ psRamAccepted c 0 s is = [] := by
  induction is generalizing s n with
  | nil => exact ⟨by simpa [psRamRun] using h, rfl⟩
  | cons i is ih =>
    obtain ⟨q1, q2, q3⟩ := hq i List.mem_cons_self
    have := ih (psRamStep c s i) (fun j hj => hq j (List.mem_cons_of_mem _ hj)) (n + 1) (by
      intro j hj hn
      simp only [psRamStep, q1, q2, q3, Bool.false_eq_true, if_false, Bool.false_and, pipeValid, shift_true,
        Bool.and_true, Bool.true_and]
      by_cases h0 : 0 < j
      · simp only [h0, decide_true, if_true]; exact h (j - 1) (by omega) (by omega)
      · have : j = 0 := by omega
        subst this
        by_cases h1 : 1 < c.pipeline
        · simp [h1]
        · have : c.pipeline = 1 := by omega
          simp [this])
    constructor
    · intro j hj hn
      exact this.1 j hj (by simp only [List.length_cons] at hn; omega)
    · rw [psRamAccepted, q2]
      have e := accepted_shift c is (psRamStep c s i) 1 0
      rw [this.2] at e
      simpa using e

/-- A response that is not taken stays. -/
theorem pipe_hold {β : Type} (P : Nat) (hP : 0 < P) (v : Nat → Bool) (d : Nat → β) (acc : Bool) (x : β)
    (ha : acc = true → ((List.range P).any fun k => !v k) = true) (hv : v (P - 1) = true) :
    pipeValid P v false acc (P - 1) = true ∧ pipeData P v d false acc x (P - 1) = d (P - 1) := by
  have hs : pipeShift P v false (P - 1) = false := by
    simp only [pipeShift, Bool.false_or, List.any_eq_false, List.mem_range, Bool.and_eq_true, not_and, decide_eq_true_eq]
    intro k hk hj
    have : k = P - 1 := by omega
    rw [this, hv]; simp
  have h0 : (acc && (P - 1 == 0)) = false := by
    cases hacc : acc with
    | false => rfl
    | true =>
      by_cases h1 : P - 1 = 0
      · have hk := ha hacc
        obtain ⟨k, hk1, hk2⟩ := List.any_eq_true.mp hk
        have : k = P - 1 := by have := List.mem_range.mp hk1; omega
        rw [this, hv] at hk2; simp at hk2
      · simp [h1]
  have h2 : ¬ (P - 1 + 1 < P) := by omega
  unfold pipeValid pipeData
  rw [h0, hs]
  simp [h2, hv]

end Verif.Proofs
