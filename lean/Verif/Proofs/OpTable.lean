import Verif.Model.DmaIfPcieWr
/-! The operation table is a queue with three sections. -/
namespace Verif.Proofs
open Verif Verif.Model

/-- The table holds `A ++ B ++ C`: transmitted, in transmission, waiting; `F` operations have finished. -/
structure TblOk {α : Type} (w : Nat) (t : OpTable α) (F : Nat) (A B C : List α) : Prop where
  size : A.length + B.length + C.length ≤ 2 ^ w
  fin : t.finish = F % 2 ^ (w + 1)
  txf : t.txFinish = (F + A.length) % 2 ^ (w + 1)
  txs : t.txStart = (F + A.length + B.length) % 2 ^ (w + 1)
  start : t.start = (F + A.length + B.length + C.length) % 2 ^ (w + 1)
  mem : ∀ j x, (A ++ B ++ C)[j]? = some x → t.mem ((F + j) % 2 ^ w) = x
  active : ∀ k, k < 2 ^ w → (t.active k = true ↔ ∃ j, j < A.length + B.length + C.length ∧ (F + j) % 2 ^ w = k)

theorem mod_pow_succ (a w : Nat) : a % 2 ^ (w + 1) % 2 ^ w = a % 2 ^ w :=
  Nat.mod_mod_of_dvd _ ⟨2, by rw [Nat.pow_succ]⟩

theorem mod_ne_of_lt {a n P : Nat} (h0 : 0 < n) (hn : n < P) : a % P ≠ (a + n) % P := by
  intro h
  have : ((a + n) - a) % P = 0 := Nat.sub_mod_eq_zero_of_mod_eq h.symm
  rw [Nat.mod_eq_of_lt (by omega)] at this
  omega

theorem mod_inj_lt {a j k P : Nat} (hj : j < P) (hk : k < P) (h : (a + j) % P = (a + k) % P) : j = k := by
  rcases Nat.lt_trichotomy j k with hl | hl | hl
  · exact absurd h (by
      have := @mod_ne_of_lt (a + j) (k - j) P (by omega) (by omega)
      rwa [show a + j + (k - j) = a + k by omega] at this)
  · exact hl
  · exact absurd h.symm (by
      have := @mod_ne_of_lt (a + k) (j - k) P (by omega) (by omega)
      rwa [show a + k + (j - k) = a + j by omega] at this)

theorem mod_sub_mod (a n P : Nat) (hn : n < P) : ((a + n) % P + P - a % P) % P = n := by
  have hP : 0 < P := by omega
  have h1 := Nat.mod_lt a hP
  have h2 := Nat.mod_lt (a + n) hP
  rw [show ((a + n) % P + P - a % P) = (a + n) % P + (P - a % P) by omega, Nat.add_mod, Nat.mod_mod]
  rw [← Nat.add_mod]
  have h3 := Nat.div_add_mod a P
  rw [show a + n + (P - a % P) = n + P * (a / P + 1) by rw [Nat.mul_add]; omega]
  rw [Nat.add_mul_mod_self_left, Nat.mod_eq_of_lt hn]

section
variable {α : Type} {w : Nat} {t : OpTable α} {F : Nat} {A B C : List α}

theorem TblOk.lt2 (h : TblOk w t F A B C) : A.length + B.length + C.length < 2 ^ (w + 1) := by
  have := h.size; have := Nat.two_pow_pos w; rw [Nat.pow_succ]; omega

theorem TblOk.free (h : TblOk w t F A B C) (hf : opFree w t = true) : A.length + B.length + C.length < 2 ^ w := by
  simp only [opFree, Bool.and_eq_true, decide_eq_true_eq] at hf
  have h1 := hf.2
  rw [h.start, h.fin, show F + A.length + B.length + C.length = F + (A.length + B.length + C.length) by omega,
    mod_sub_mod _ _ _ h.lt2] at h1
  exact h1

theorem TblOk.opFree_eq (h : TblOk w t F A B C) : opFree w t = decide (A.length + B.length + C.length < 2 ^ w) := by
  rw [Bool.eq_iff_iff]
  constructor
  · intro hf; simpa using h.free hf
  · intro hf
    have hf := of_decide_eq_true hf
    simp only [opFree, Bool.and_eq_true, decide_eq_true_eq, Bool.not_eq_true']
    refine ⟨?_, ?_⟩
    · cases ha : t.active (t.start % 2 ^ w) with
      | false => rfl
      | true =>
        obtain ⟨j, hj, e⟩ := (h.active _ (Nat.mod_lt _ (Nat.two_pow_pos _))).mp ha
        rw [h.start, mod_pow_succ, show F + A.length + B.length + C.length = F + (A.length + B.length + C.length) by omega]
          at e
        have := mod_inj_lt (by omega) (by omega) e
        omega
    · rw [h.start, h.fin, show F + A.length + B.length + C.length = F + (A.length + B.length + C.length) by omega,
        mod_sub_mod _ _ _ h.lt2]
      exact hf

theorem TblOk.txs_ne (h : TblOk w t F A B C) : t.txStart ≠ t.start ↔ C ≠ [] := by
  have := h.lt2
  rw [h.txs, h.start]
  constructor
  · intro h1 h2; subst h2; exact h1 (by simp)
  · intro h1
    have h2 : 0 < C.length := by cases C <;> simp_all
    exact mod_ne_of_lt h2 (by omega)

theorem TblOk.fin_ne (h : TblOk w t F A B C) : t.finish ≠ t.txFinish ↔ A ≠ [] := by
  have := h.lt2
  rw [h.fin, h.txf]
  constructor
  · intro h1 h2; subst h2; exact h1 (by simp)
  · intro h1
    have h2 : 0 < A.length := by cases A <;> simp_all
    exact mod_ne_of_lt h2 (by omega)

theorem TblOk.mem_fin (h : TblOk w t F A B C) {a : α} {A' : List α} (hA : A = a :: A') :
    t.mem (t.finish % 2 ^ w) = a := by
  rw [h.fin, mod_pow_succ]
  exact h.mem 0 a (by rw [hA]; simp)

theorem TblOk.active_fin (h : TblOk w t F A B C) (hA : A ≠ []) : t.active (t.finish % 2 ^ w) = true := by
  rw [h.fin, mod_pow_succ]
  have : 0 < A.length := by cases A <;> simp_all
  exact (h.active _ (Nat.mod_lt _ (Nat.two_pow_pos _))).mpr ⟨0, by omega, rfl⟩

theorem TblOk.mem_txs (h : TblOk w t F A B C) {a : α} {C' : List α} (hC : C = a :: C') :
    t.mem (t.txStart % 2 ^ w) = a := by
  rw [h.txs, mod_pow_succ, show F + A.length + B.length = F + (A.length + B.length) by omega]
  refine h.mem (A.length + B.length) a ?_
  rw [List.getElem?_append_right (by simp), hC]; simp

theorem TblOk.active_txs (h : TblOk w t F A B C) (hC : C ≠ []) : t.active (t.txStart % 2 ^ w) = true := by
  rw [h.txs, mod_pow_succ]
  have : 0 < C.length := by cases C <;> simp_all
  exact (h.active _ (Nat.mod_lt _ (Nat.two_pow_pos _))).mpr ⟨A.length + B.length, by omega, by rw [Nat.add_assoc]⟩

theorem TblOk.step (h : TblOk w t F A B C) (st : Bool) (x : α) (ts tf fin : Bool)
    (hst : st = true → A.length + B.length + C.length < 2 ^ w) (hts : ts = true → C ≠ []) (htf : tf = true → B ≠ [])
    (hfin : fin = true → A ≠ []) :
    TblOk w (opTableStep w t st x ts tf fin) (F + fin.toNat) (A.drop fin.toNat ++ B.take tf.toNat)
      (B.drop tf.toNat ++ C.take ts.toNat) (C.drop ts.toNat ++ (if st then [x] else [])) := by
  have lA : fin.toNat ≤ A.length := by
    cases fin with
    | false => simp
    | true => have := hfin rfl; cases A <;> simp_all
  have lB : tf.toNat ≤ B.length := by
    cases tf with
    | false => simp
    | true => have := htf rfl; cases B <;> simp_all
  have lC : ts.toNat ≤ C.length := by
    cases ts with
    | false => simp
    | true => have := hts rfl; cases C <;> simp_all
  have lS : (if st then [x] else []).length = st.toNat := by cases st <;> rfl
  have hcat : A.drop fin.toNat ++ B.take tf.toNat ++ (B.drop tf.toNat ++ C.take ts.toNat) ++
      (C.drop ts.toNat ++ (if st then [x] else [])) = (A ++ B ++ C).drop fin.toNat ++ (if st then [x] else []) := by
    have e1 : B.take tf.toNat ++ (B.drop tf.toNat ++ C.take ts.toNat) = B ++ C.take ts.toNat := by
      rw [← List.append_assoc, List.take_append_drop]
    have e2 : B ++ C.take ts.toNat ++ (C.drop ts.toNat ++ (if st then [x] else [])) = B ++ C ++ (if st then [x] else []) := by
      rw [List.append_assoc, ← List.append_assoc (C.take _), List.take_append_drop, List.append_assoc]
    rw [List.append_assoc (A.drop _), e1, List.append_assoc (A.drop _), e2, List.append_assoc A B C,
      List.drop_append_of_le_length lA]
    simp [List.append_assoc]
  have hlen : (A.drop fin.toNat ++ B.take tf.toNat).length + (B.drop tf.toNat ++ C.take ts.toNat).length +
      (C.drop ts.toNat ++ (if st then [x] else [])).length + fin.toNat =
      A.length + B.length + C.length + st.toNat := by
    simp only [List.length_append, List.length_drop, List.length_take, lS, Nat.min_eq_left lB, Nat.min_eq_left lC]
    omega
  have l1 : (A.drop fin.toNat ++ B.take tf.toNat).length + fin.toNat = A.length + tf.toNat := by
    simp only [List.length_append, List.length_drop, List.length_take, Nat.min_eq_left lB]; omega
  have l2 : (B.drop tf.toNat ++ C.take ts.toNat).length + tf.toNat = B.length + ts.toNat := by
    simp only [List.length_append, List.length_drop, List.length_take, Nat.min_eq_left lC]; omega
  have step1 : ∀ (b : Bool) n, (if b then (n % 2 ^ (w + 1) + 1) % 2 ^ (w + 1) else n % 2 ^ (w + 1)) =
      (n + b.toNat) % 2 ^ (w + 1) := by
    intro b n; cases b <;> simp
  have hst' : A.length + B.length + C.length + st.toNat ≤ 2 ^ w := by
    cases st with
    | false => simpa using h.size
    | true => have := hst rfl; simp; omega
  have hP := Nat.two_pow_pos w
  refine ⟨?_, ?_, ?_, ?_, ?_, ?_, ?_⟩
  · omega
  · simp only [opTableStep]; rw [h.fin, step1]
  · simp only [opTableStep]; rw [h.txf, step1]
    congr 1; omega
  · simp only [opTableStep]; rw [h.txs, step1]
    congr 1; omega
  · simp only [opTableStep]; rw [h.start, step1]
    congr 1; omega
  · intro j y hj
    rw [hcat] at hj
    have hs : t.start % 2 ^ w = (F + (A.length + B.length + C.length)) % 2 ^ w := by
      rw [h.start, mod_pow_succ]; simp only [Nat.add_assoc]
    simp only [opTableStep, hs]
    by_cases hl : j < ((A ++ B ++ C).drop fin.toNat).length
    · rw [List.getElem?_append_left hl, List.getElem?_drop] at hj
      have hl' : fin.toNat + j < A.length + B.length + C.length := by
        simp only [List.length_drop, List.length_append] at hl; omega
      have := h.mem _ _ hj
      rw [show F + fin.toNat + j = F + (fin.toNat + j) by omega]
      rw [if_neg]
      · exact this
      · simp only [Bool.and_eq_true, beq_iff_eq, not_and]
        intro hst1 he
        have := hst hst1
        have := mod_inj_lt (by omega) (by omega) he
        omega
    · rw [List.getElem?_append_right (by omega)] at hj
      cases st with
      | false => simp at hj
      | true =>
        simp only [if_true] at hj
        have : j - ((A ++ B ++ C).drop fin.toNat).length = 0 := by
          have := (List.getElem?_eq_some_iff.mp hj).1
          simpa using this
        rw [this] at hj
        simp only [List.length_drop, List.length_append] at this hl
        have e : F + fin.toNat + j = F + (A.length + B.length + C.length) := by omega
        rw [e]
        simpa using hj
  · intro k hk
    rw [show (A.drop fin.toNat ++ B.take tf.toNat).length + (B.drop tf.toNat ++ C.take ts.toNat).length +
      (C.drop ts.toNat ++ (if st then [x] else [])).length = A.length + B.length + C.length + st.toNat - fin.toNat by omega]
    have hs : t.start % 2 ^ w = (F + (A.length + B.length + C.length)) % 2 ^ w := by
      rw [h.start, mod_pow_succ]; simp only [Nat.add_assoc]
    have hf : t.finish % 2 ^ w = F % 2 ^ w := by rw [h.fin, mod_pow_succ]
    simp only [opTableStep, hs, hf]
    have ha := h.active k hk
    constructor
    · intro hx
      by_cases h1 : (fin && k == F % 2 ^ w) = true
      · rw [if_pos h1] at hx; simp at hx
      · rw [if_neg h1] at hx
        have key : ∃ j, j < A.length + B.length + C.length + st.toNat ∧ (F + j) % 2 ^ w = k := by
          by_cases h2 : (st && k == (F + (A.length + B.length + C.length)) % 2 ^ w) = true
          · simp only [Bool.and_eq_true, beq_iff_eq] at h2
            refine ⟨A.length + B.length + C.length, ?_, h2.2.symm⟩
            rw [h2.1]; simp
          · rw [if_neg h2] at hx
            obtain ⟨j, hj, e⟩ := ha.mp hx
            exact ⟨j, by omega, e⟩
        obtain ⟨j, hj, e⟩ := key
        cases fin with
        | false => exact ⟨j, by simpa using hj, by simpa using e⟩
        | true =>
          have : j ≠ 0 := by
            intro h0; subst h0; apply h1; simp at e; simp [e]
          refine ⟨j - 1, by simp; omega, ?_⟩
          rw [← e]; congr 1; simp; omega
    · rintro ⟨j, hj, e⟩
      rw [if_neg]
      · by_cases h2 : (st && k == (F + (A.length + B.length + C.length)) % 2 ^ w) = true
        · rw [if_pos h2]
        · rw [if_neg h2]
          refine ha.mpr ⟨fin.toNat + j, ?_, by rw [← e, Nat.add_assoc]⟩
          cases st with
          | false => simp at hj; omega
          | true =>
            have : fin.toNat + j ≠ A.length + B.length + C.length := by
              intro h3
              apply h2
              rw [← h3, ← e, Nat.add_assoc]; simp
            simp at hj; omega
      · simp only [Bool.and_eq_true, beq_iff_eq, not_and]
        intro hf1 he
        rw [← e, Nat.add_assoc] at he
        rw [hf1] at he hj lA
        have hne : F % 2 ^ w ≠ (F + (true.toNat + j)) % 2 ^ w := by
          by_cases hz : true.toNat + j < 2 ^ w
          · exact mod_ne_of_lt (by simp; omega) hz
          · simp at hj hz lA
            omega
        exact hne he.symm

end

theorem tblOk_reset {α : Type} (w : Nat) (m : Nat → α) :
    TblOk w { start := 0, txStart := 0, txFinish := 0, finish := 0, active := fun _ => false, mem := m } 0 [] [] [] := by
  refine ⟨by simp, by simp, by simp, by simp, by simp, by simp, by simp⟩

end Verif.Proofs
