import Verif.Spec.CfgMonitor
/-! Lemmas on the configuration monitors. -/
namespace Verif.Proofs
open Verif Verif.Model Verif.Spec

/-- What an assignment says about its field. -/
def cmPiece (e : CmEntry) : CmPiece := ⟨e.add, e.lo + e.n - 1, e.lo, e.off, e.off + e.cnt - 1⟩

/-- The assignments to an output are those for the pieces of its field, and stay in the slice of the function. -/
def cmGood (t : CmTile) (ps : CmOut → List CmPiece) (o : CmOut) : Bool :=
  ((t.entries.filter fun e => e.out == o).map cmPiece == ps o) &&
    (t.entries.filter fun e => e.out == o).all fun e =>
      decide (e.off + e.cnt ≤ t.width o) && decide (0 < e.cnt) && decide (0 < e.n)

theorem cm_slice (W f g k b : Nat) (hk : k < W) (hb : b = f * W + k) (a c : Nat) (ha : a + c ≤ W) :
    (g * W + a ≤ b ∧ b < g * W + a + c) ↔ (g = f ∧ a ≤ k ∧ k < a + c) := by
  subst hb
  constructor
  · rintro ⟨h1, h2⟩
    have : g = f := by
      rcases Nat.lt_trichotomy g f with h | h | h
      · have := Nat.mul_le_mul_right W h
        rw [Nat.succ_mul] at this; omega
      · exact h
      · have := Nat.mul_le_mul_right W h
        rw [Nat.succ_mul] at this; omega
    subst this
    exact ⟨rfl, by omega, by omega⟩
  · rintro ⟨rfl, h1, h2⟩
    omega

theorem cmStep_bit (t : CmTile) (ps : CmOut → List CmPiece) (o : CmOut) (hg : cmGood t ps o = true) (pf : Nat) (s : Cm) (i : CmIn)
    (hr : i.rst = false) (f k : Nat) (hf : f < pf) (hk : k < t.width o) :
    cmStep t pf s i o (f * t.width o + k) =
      if i.func = f then
        match ((ps o).filter fun p => p.add == i.add % 2 ^ t.bits && decide (p.bot ≤ k ∧ k ≤ p.top)).getLast? with
        | none => s o (f * t.width o + k)
        | some p => decide (p.lo + (k - p.bot) ≤ p.hi) && i.ctl.testBit (p.lo + (k - p.bot))
      else s o (f * t.width o + k) := by
  simp only [cmGood, Bool.and_eq_true, beq_iff_eq, List.all_eq_true, decide_eq_true_eq] at hg
  obtain ⟨h1, h2⟩ := hg
  have hlt : f * t.width o + k < pf * t.width o := by
    have := Nat.mul_le_mul_right (t.width o) hf
    rw [Nat.succ_mul] at this; omega
  have hfl : t.entries.filter (cmHit t i o (f * t.width o + k)) =
      (t.entries.filter fun e => e.out == o).filter fun e =>
        e.add == i.add % 2 ^ t.bits && decide (i.func = f ∧ e.off ≤ k ∧ k < e.off + e.cnt) := by
    rw [List.filter_filter]
    apply List.filter_congr
    intro e he
    unfold cmHit
    cases ho : (e.out == o) with
    | false => simp
    | true =>
      obtain ⟨⟨q1, q2⟩, q3⟩ := h2 e (List.mem_filter.mpr ⟨he, ho⟩)
      simp only [Bool.true_and, Bool.and_true]
      rw [decide_eq_decide.mpr (cm_slice (t.width o) f i.func k _ hk rfl e.off e.cnt q1)]
  have hps : ((ps o).filter fun p => p.add == i.add % 2 ^ t.bits && decide (p.bot ≤ k ∧ k ≤ p.top)) =
      ((t.entries.filter fun e => e.out == o).filter fun e =>
        e.add == i.add % 2 ^ t.bits && decide (e.off ≤ k ∧ k < e.off + e.cnt)).map cmPiece := by
    rw [← h1, List.filter_map]
    congr 1
    apply List.filter_congr
    intro e he
    obtain ⟨⟨q1, q2⟩, q3⟩ := h2 e he
    simp only [Function.comp, cmPiece]
    congr 1
    apply decide_eq_decide.mpr
    omega
  unfold cmStep
  rw [hr, hfl, hps]
  simp only [Bool.false_eq_true, if_false]
  by_cases hfu : i.func = f
  · rw [if_pos ⟨by omega, hlt⟩, if_pos hfu, List.getLast?_map]
    simp only [hfu, true_and]
    cases hx : ((t.entries.filter fun e => e.out == o).filter fun e =>
        e.add == i.add % 2 ^ t.bits && decide (e.off ≤ k ∧ k < e.off + e.cnt)).getLast? with
    | none => rfl
    | some e =>
      have hm := List.mem_of_getLast? hx
      simp only [List.mem_filter, Bool.and_eq_true, beq_iff_eq, decide_eq_true_eq] at hm
      obtain ⟨⟨he, ho⟩, -, hb⟩ := hm
      obtain ⟨⟨q1, q2⟩, q3⟩ := h2 e (by simp [he, ho])
      simp only [Option.map_some, cmPiece]
      rw [show f * t.width o + k - (f * t.width o + e.off) = k - e.off by omega]
      congr 1
      apply decide_eq_decide.mpr
      omega
  · rw [if_neg hfu]
    split
    · rw [List.filter_eq_nil_iff.mpr (by simp [hfu])]
      rfl
    · rfl

theorem cmRun_bit (t : CmTile) (ps : CmOut → List CmPiece) (o : CmOut) (hg : cmGood t ps o = true) (pf : Nat) (is : List CmIn)
    (hi : ∀ i ∈ is, i.rst = false) (s : Cm) (f k : Nat) (hf : f < pf) (hk : k < t.width o) :
    cmRun t pf s is o (f * t.width o + k) = cmBit t.bits (ps o) f k is (s o (f * t.width o + k)) := by
  induction is generalizing s with
  | nil => rfl
  | cons i is ih =>
    rw [cmRun, ih (fun j hj => hi j (List.mem_cons_of_mem _ hj)), cmBit,
      cmStep_bit t ps o hg pf s i (hi i (List.mem_cons_self ..)) f k hf hk]
    rfl

theorem cmGood_L (o : CmOut) : cmGood tileL cmFieldsL o = true := by cases o <;> decide +kernel

theorem cmGood_H (o : CmOut) : cmGood tileH cmFieldsH o = true := by cases o <;> decide +kernel

theorem cmGood_P (o : CmOut) (h : cmNotAer o = true) : cmGood tileP cmFieldsP o = true := by
  revert h; cases o <;> decide +kernel

end Verif.Proofs
