import Verif.Proofs.TlpFifoSeg
/-! Proofs about the TLP FIFO with several segments per word: the invariant. -/
namespace Verif.Proofs
open Verif.Model Verif.Spec

/-! ### Arithmetic of pointers and addresses -/

theorem tfm_segs_pos (c : TfmCfg) : 0 < c.segs := Nat.two_pow_pos _

theorem tfm_ptr_eq (c : TfmCfg) : c.ptr = c.segs * (2 * 2 ^ c.addrW) := by
  unfold TfmCfg.ptr TfmCfg.segs
  rw [show c.addrW + c.selW + 1 = c.selW + (c.addrW + 1) by omega, Nat.pow_add, Nat.pow_succ, Nat.mul_comm (2 ^ c.addrW) 2]

theorem tfm_ptr_pos (c : TfmCfg) : 0 < c.ptr := Nat.two_pow_pos _

theorem tfm_ptr_mod (c : TfmCfg) (x : Nat) : x % c.ptr % c.segs = x % c.segs :=
  Nat.mod_mod_of_dvd x ⟨_, tfm_ptr_eq c⟩

theorem tfm_div_mod (c : TfmCfg) (x e : Nat) :
    (x % c.ptr + e) / c.segs % 2 ^ c.addrW = (x + e) / c.segs % 2 ^ c.addrW := by
  have h := Nat.div_add_mod x c.ptr
  have hS := tfm_segs_pos c
  have e1 : x + e = (x % c.ptr + e) + c.segs * (2 ^ c.addrW * (2 * (x / c.ptr))) := by
    have : c.ptr * (x / c.ptr) = c.segs * (2 ^ c.addrW * (2 * (x / c.ptr))) := by
      generalize x / c.ptr = q
      rw [tfm_ptr_eq, Nat.mul_assoc, ← Nat.mul_assoc (2 ^ c.addrW), Nat.mul_comm (2 ^ c.addrW) 2, Nat.mul_assoc]
    omega
  rw [e1, Nat.add_mul_div_left _ _ hS, Nat.add_mul_mod_self_left]

theorem tfm_diff {M a b : Nat} (hM : 0 < M) (h1 : b ≤ a) (h2 : a < b + M) : (a % M + M - b % M) % M = a - b := by
  have hR : b % M ≤ M := Nat.le_of_lt (Nat.mod_lt _ hM)
  have e1 := Nat.div_add_mod a M
  have e2 := Nat.div_add_mod b M
  have : (a % M + M - b % M + M * (a / M)) = (a - b) + M * (b / M + 1) := by rw [Nat.mul_add]; omega
  have h4 : (a % M + M - b % M + M * (a / M)) % M = ((a - b) + M * (b / M + 1)) % M := by rw [this]
  rw [Nat.add_mul_mod_self_left, Nat.add_mul_mod_self_left, Nat.mod_eq_of_lt (show a - b < M by omega)] at h4
  exact h4

/-- Two positions less than the whole memory apart with the same lane and address are the same. -/
theorem tfm_slot (c : TfmCfg) {a b : Nat} (h1 : a ≤ b) (h2 : b < a + 2 ^ c.addrW * c.segs) (hl : a % c.segs = b % c.segs)
    (hd : a / c.segs % 2 ^ c.addrW = b / c.segs % 2 ^ c.addrW) : a = b := by
  have e1 := Nat.div_add_mod a c.segs
  have e2 := Nat.div_add_mod b c.segs
  have hS := tfm_segs_pos c
  have hle : a / c.segs ≤ b / c.segs := Nat.div_le_div_right h1
  have hlt : b / c.segs < a / c.segs + 2 ^ c.addrW := by
    apply Nat.lt_of_mul_lt_mul_left (a := c.segs)
    have : c.segs * (a / c.segs + 2 ^ c.addrW) = c.segs * (a / c.segs) + 2 ^ c.addrW * c.segs := by
      rw [Nat.mul_add, Nat.mul_comm c.segs (2 ^ c.addrW)]
    rw [this]
    generalize 2 ^ c.addrW * c.segs = P at *
    omega
  have := tfm_mod_inj hd hle hlt
  rw [this] at e1
  omega

/-! ### Packing -/

/-- The first `n` lanes' valid segments. -/
def tfmPre (i : TfmIn) (n : Nat) : List TlpSeg := ((List.range n).filter i.valid).map i.seg

theorem tfmPre_succ (i : TfmIn) (n : Nat) :
    tfmPre i (n + 1) = tfmPre i n ++ (if i.valid n then [i.seg n] else []) := by
  unfold tfmPre
  rw [List.range_succ, List.filter_append, List.map_append, List.filter_cons, List.filter_nil]
  cases i.valid n <;> simp

theorem tfmPre_length (i : TfmIn) (n : Nat) : (tfmPre i n).length ≤ n := by
  unfold tfmPre
  rw [List.length_map]
  have := List.length_filter_le i.valid (List.range n)
  simpa using this

/-- What the packing loop has computed after `n` passes. -/
structure TfmPackOk (c : TfmCfg) (i : TfmIn) (A : List TlpSeg) (n : Nat) (v : TfmPack) : Prop where
  cur : v.cur = (A.length + (tfmPre i n).length) % c.segs
  cnt : v.cnt = (tfmPre i n).length
  valid : ∀ l < c.segs, v.valid l = decide (tfmNx c.segs l A.length < A.length + (tfmPre i n).length)
  sel : ∀ j < (tfmPre i n).length, i.seg (v.sel ((A.length + j) % c.segs)) = (tfmPre i n).getD j {}
  eop : (tfmPre i n).any (fun x => x.eop) = true → (tlpWhole (A ++ tfmPre i n)).length = A.length + v.eop + 1
  none : (tfmPre i n).any (fun x => x.eop) = false → tlpWhole (A ++ tfmPre i n) = tlpWhole A

theorem tfm_pack_loop (c : TfmCfg) (i : TfmIn) (A : List TlpSeg) (w : Nat) (hw : w % c.segs = A.length % c.segs) (n : Nat) (hn : n ≤ c.segs) :
    TfmPackOk c i A n ((List.range n).foldl (tfmPackStep c i) { cur := w % c.segs }) := by
  induction n with
  | zero =>
    refine ⟨by simpa [tfmPre] using hw, rfl, ?_, ?_, ?_, ?_⟩
    · intro l hl
      have := tfmNx_ge c.segs l A.length
      simp [tfmPre]; omega
    · intro j hj; simp [tfmPre] at hj
    · intro h; simp [tfmPre] at h
    · intro _; simp [tfmPre]
  | succ n ih =>
    have ih := ih (by omega)
    rw [List.range_succ, List.foldl_append]
    simp only [List.foldl_cons, List.foldl_nil]
    generalize (List.range n).foldl (tfmPackStep c i) { cur := w % c.segs } = v at ih
    have hlen := tfmPre_length i n
    unfold tfmPackStep
    cases hv : i.valid n with
    | false =>
      have e : tfmPre i (n + 1) = tfmPre i n := by rw [tfmPre_succ, hv]; simp
      simp only [Bool.false_eq_true, if_false]
      obtain ⟨h1, h2, h3, h4, h5, h6⟩ := ih
      exact ⟨by rw [e]; exact h1, by rw [e]; exact h2, by rw [e]; exact h3, by rw [e]; exact h4, by rw [e]; exact h5, by rw [e]; exact h6⟩
    | true =>
      have e : tfmPre i (n + 1) = tfmPre i n ++ [i.seg n] := by rw [tfmPre_succ, hv]; simp
      have hl1 : (tfmPre i (n + 1)).length = (tfmPre i n).length + 1 := by rw [e]; simp
      have hcl : v.cur < c.segs := by rw [ih.cur]; exact Nat.mod_lt _ (by omega)
      simp only [if_true]
      refine ⟨?_, ?_, ?_, ?_, ?_, ?_⟩
      · simp only [hl1]; rw [ih.cur]; have := @tfm_mod_step c.segs
        rw [Nat.mod_add_mod]; congr 1
      · simp only [hl1, ih.cnt]
      · intro l hl
        simp only [hl1]
        have hc := ih.cur
        by_cases h : l = v.cur
        · rw [if_pos h]
          have := tfmNx_unique (k := A.length + (tfmPre i n).length) (N := A.length) hl (by omega) (by omega) (by rw [h, hc])
          rw [this]; simp
        · rw [if_neg h, ih.valid l hl]
          congr 1
          apply propext
          constructor
          · omega
          · intro h'
            have hm := tfmNx_mod hl A.length
            apply Classical.byContradiction
            intro h''
            have : tfmNx c.segs l A.length = A.length + (tfmPre i n).length := by omega
            rw [this] at hm
            exact h (by rw [hc, hm])
      · intro j hj
        simp only
        rw [hl1] at hj
        rw [e]
        by_cases hj' : j < (tfmPre i n).length
        · rw [if_neg]
          · rw [ih.sel j hj']
            simp only [List.getD_eq_getElem?_getD]
            rw [List.getElem?_append_left hj']
          · intro h
            rw [ih.cur] at h
            have := tfm_mod_inj h (by omega) (by omega)
            omega
        · have : j = (tfmPre i n).length := by omega
          subst this
          rw [if_pos ih.cur.symm]
          simp
      · intro h
        simp only
        rw [e, ← List.append_assoc, tlpWhole_snoc]
        cases he : (i.seg n).eop with
        | true =>
          simp only [if_true]
          rw [ih.cnt, Nat.mod_eq_of_lt (by omega)]
          simp; omega
        | false =>
          simp only [Bool.false_eq_true, if_false]
          apply ih.eop
          rw [e, List.any_append] at h
          simpa [he] using h
      · intro h
        rw [e, List.any_append] at h
        simp at h
        rw [e, ← List.append_assoc, tlpWhole_snoc, h.2]
        simp only [Bool.false_eq_true, if_false]
        apply ih.none
        simpa using h.1

end Verif.Proofs
