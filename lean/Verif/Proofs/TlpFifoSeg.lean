import Verif.Spec.TlpFifoSeg
import Verif.Proofs.TlpFifo
import Verif.Proofs.OutFifo
/-! Proofs about the TLP FIFO with several segments per word: lanes, loops and lane registers. -/
namespace Verif.Proofs
open Verif.Model Verif.Spec

/-! ### Positions of a lane -/

/-- The first position from `N` on that belongs to lane `l`. -/
def tfmNx (S l N : Nat) : Nat := N + (l + S - N % S) % S

theorem tfmNx_ge (S l N : Nat) : N ≤ tfmNx S l N := Nat.le_add_right _ _

theorem tfmNx_lt {S : Nat} (hS : 0 < S) (l N : Nat) : tfmNx S l N < N + S := by
  unfold tfmNx; have := Nat.mod_lt (l + S - N % S) hS; omega

theorem tfmNx_mod {S l : Nat} (hl : l < S) (N : Nat) : tfmNx S l N % S = l := by
  unfold tfmNx
  have h1 := Nat.mod_lt N (show 0 < S by omega)
  rw [Nat.add_mod, Nat.mod_mod, ← Nat.add_mod]
  have h2 := Nat.div_add_mod N S
  have : N + (l + S - N % S) = l + S * (N / S + 1) := by rw [Nat.mul_add]; omega
  rw [this, Nat.add_mul_mod_self_left, Nat.mod_eq_of_lt hl]

theorem tfm_mod_inj {S a b : Nat} (h : a % S = b % S) (h1 : a ≤ b) (h2 : b < a + S) : a = b := by
  have e : (b - a) % S = 0 := Nat.sub_mod_eq_zero_of_mod_eq h.symm
  rw [Nat.mod_eq_of_lt (by omega)] at e
  omega

theorem tfmNx_unique {S l N k : Nat} (hl : l < S) (h1 : N ≤ k) (h2 : k < N + S) (h3 : k % S = l) : tfmNx S l N = k := by
  have a := tfmNx_ge S l N
  have b := tfmNx_lt (show 0 < S by omega) l N
  have d := tfmNx_mod hl N
  rcases Nat.le_total k (tfmNx S l N) with h | h
  · exact (tfm_mod_inj (S := S) (by omega) h (by omega)).symm
  · exact tfm_mod_inj (S := S) (by omega) h (by omega)

theorem tfmNx_div {S l N : Nat} (hl : l < S) : (N + (S - 1 - l)) / S = tfmNx S l N / S := by
  have a := tfmNx_ge S l N
  have b := tfmNx_lt (show 0 < S by omega) l N
  have d := tfmNx_mod hl N
  have e := Nat.div_add_mod (tfmNx S l N) S
  generalize hq : tfmNx S l N / S = q at *
  apply Nat.div_eq_of_lt_le
  · rw [Nat.mul_comm]; omega
  · rw [Nat.add_mul, Nat.mul_comm, Nat.one_mul]; omega

/-- The position after `n` steps. -/
theorem tfmNx_add {S l N n : Nat} (hl : l < S) (hn : n ≤ S) :
    tfmNx S l (N + n) = if tfmNx S l N < N + n then tfmNx S l N + S else tfmNx S l N := by
  have a := tfmNx_ge S l N
  have b := tfmNx_lt (show 0 < S by omega) l N
  have d := tfmNx_mod hl N
  split
  · exact tfmNx_unique hl (by omega) (by omega) (by rw [Nat.add_mod_right]; exact d)
  · exact tfmNx_unique hl (by omega) (by omega) d

theorem tfmHit_eq (c : TfmCfg) (N n l : Nat) :
    tfmHit c (N % c.segs) n l = decide (tfmNx c.segs l N < N + n) := by
  unfold tfmHit tfmNx
  congr 1
  apply propext
  omega

/-- The positions of lane `l` between `H` and `R`. -/
def tfmIdx (S l H R : Nat) : List Nat := (List.range' H (R - H)).filter fun k => k % S == l

theorem tfmIdx_split {S l H K R : Nat} (h1 : H ≤ K) (h2 : K ≤ R) : tfmIdx S l H R = tfmIdx S l H K ++ tfmIdx S l K R := by
  unfold tfmIdx
  rw [← List.filter_append]
  congr 1
  rw [show R - H = (K - H) + (R - K) by omega]
  have e := List.range'_append_1 (s := H) (m := K - H) (n := R - K)
  rw [← e]
  congr 2
  omega

theorem tfmIdx_short {S l R n : Nat} (hl : l < S) (hn : n ≤ S) :
    tfmIdx S l R (R + n) = if tfmNx S l R < R + n then [tfmNx S l R] else [] := by
  induction n with
  | zero => rw [if_neg (by have := tfmNx_ge S l R; omega)]; simp [tfmIdx]
  | succ n ih =>
    rw [tfmIdx_split (K := R + n) (by omega) (by omega), ih (by omega)]
    have a := tfmNx_ge S l R
    have b := tfmNx_lt (show 0 < S by omega) l R
    have d := tfmNx_mod hl R
    have e : tfmIdx S l (R + n) (R + (n + 1)) = if (R + n) % S = l then [R + n] else [] := by
      unfold tfmIdx
      rw [show R + (n + 1) - (R + n) = 1 by omega]
      simp only [List.range'_one, List.filter_cons, List.filter_nil, beq_iff_eq]
    rw [e]
    by_cases h : (R + n) % S = l
    · have := tfmNx_unique hl (k := R + n) (N := R) (by omega) (by omega) h
      rw [this, if_neg (by omega), if_pos h, if_pos (by omega)]; rfl
    · rw [if_neg h]
      by_cases h2 : tfmNx S l R < R + n
      · rw [if_pos h2, if_pos (by omega)]; rfl
      · rw [if_neg h2, if_neg]
        · rfl
        · intro h3
          have : tfmNx S l R = R + n := by omega
          rw [this] at d
          exact h d

theorem tfmIdx_mem {S l H R k : Nat} : k ∈ tfmIdx S l H R ↔ H ≤ k ∧ k < R ∧ k % S = l := by
  unfold tfmIdx
  rw [List.mem_filter, List.mem_range'_1]
  simp only [beq_iff_eq]
  omega

theorem tfmIdx_nil {S l H R : Nat} (hl : l < S) : tfmIdx S l H R = [] ↔ R ≤ tfmNx S l H := by
  constructor
  · intro h
    apply Classical.byContradiction
    intro hlt
    have : tfmNx S l H ∈ tfmIdx S l H R := tfmIdx_mem.mpr ⟨tfmNx_ge _ _ _, by omega, tfmNx_mod hl _⟩
    rw [h] at this
    simp at this
  · intro h
    apply List.eq_nil_iff_forall_not_mem.mpr
    intro k hk
    obtain ⟨h1, h2, h3⟩ := tfmIdx_mem.mp hk
    by_cases h4 : k < H + S
    · have := tfmNx_unique hl h1 h4 h3; omega
    · have := tfmNx_lt (show 0 < S by omega) l H; omega

theorem tfmIdx_cons {S l H R : Nat} (hl : l < S) (h : tfmNx S l H < R) :
    tfmIdx S l H R = tfmNx S l H :: tfmIdx S l (tfmNx S l H + 1) R := by
  have a := tfmNx_ge S l H
  have b := tfmNx_lt (show 0 < S by omega) l H
  have d := tfmNx_mod hl H
  have e1 : tfmNx S l H + 1 = H + (tfmNx S l H + 1 - H) := by omega
  rw [tfmIdx_split (K := tfmNx S l H + 1) (by omega) (by omega)]
  have := tfmIdx_short (R := H) (n := tfmNx S l H + 1 - H) hl (by omega)
  rw [← e1, if_pos (by omega)] at this
  rw [this]; rfl

/-- Dropping the positions before `H + n`. -/
theorem tfmIdx_drop {S l H R n : Nat} (hl : l < S) (hn : n ≤ S) (hR : H + n ≤ R) :
    tfmIdx S l (H + n) R = (tfmIdx S l H R).drop (decide (tfmNx S l H < H + n)).toNat := by
  rw [tfmIdx_split (H := H) (K := H + n) (by omega) hR, tfmIdx_short hl hn]
  by_cases h : tfmNx S l H < H + n <;> simp [h]

/-! ### Loops -/

theorem tfmLoop_le (c : TfmCfg) (ok : Nat → Nat → Bool) (left g cur : Nat) : tfmLoop c ok left g cur ≤ left := by
  induction left generalizing g cur with
  | zero => simp [tfmLoop]
  | succ n ih =>
    rw [tfmLoop]
    split
    · have := ih (g + 1) ((cur + 1) % c.segs); omega
    · omega

theorem tfm_mod_step {S cur j : Nat} : ((cur + 1) % S + j) % S = (cur + (j + 1)) % S := by
  rw [Nat.add_mod, Nat.mod_mod, ← Nat.add_mod]; congr 1; omega

theorem tfmLoop_ok (c : TfmCfg) (ok : Nat → Nat → Bool) (left g cur : Nat) (hc : cur < c.segs) (j : Nat)
    (hj : j < tfmLoop c ok left g cur) : ok (g + j) ((cur + j) % c.segs) = true := by
  induction left generalizing g cur j with
  | zero => simp [tfmLoop] at hj
  | succ n ih =>
    rw [tfmLoop] at hj
    split at hj
    · rename_i h
      cases j with
      | zero => rw [Nat.add_zero, Nat.add_zero, Nat.mod_eq_of_lt hc]; exact h
      | succ j =>
        have := ih (g + 1) ((cur + 1) % c.segs) (Nat.mod_lt _ (by omega)) j (by omega)
        rw [tfm_mod_step] at this
        rw [show g + (j + 1) = g + 1 + j by omega]
        exact this
    · omega

theorem tfmLoop_stop (c : TfmCfg) (ok : Nat → Nat → Bool) (left g cur : Nat) (hc : cur < c.segs)
    (h : tfmLoop c ok left g cur < left) :
    ok (g + tfmLoop c ok left g cur) ((cur + tfmLoop c ok left g cur) % c.segs) = false := by
  induction left generalizing g cur with
  | zero => omega
  | succ n ih =>
    rw [tfmLoop] at h ⊢
    split at h
    · rename_i h'
      rw [if_pos h']
      have := ih (g + 1) ((cur + 1) % c.segs) (Nat.mod_lt _ (by omega)) (by omega)
      rw [tfm_mod_step] at this
      rw [show g + (tfmLoop c ok n (g + 1) ((cur + 1) % c.segs) + 1) = g + 1 + tfmLoop c ok n (g + 1) ((cur + 1) % c.segs) by omega]
      exact this
    · rename_i h'
      rw [if_neg h', Nat.add_zero, Nat.add_zero, Nat.mod_eq_of_lt hc]
      simpa using h'

theorem tfmLoop_eq (c : TfmCfg) (ok : Nat → Nat → Bool) (left cur m : Nat) (hc : cur < c.segs) (hm : m ≤ left)
    (h1 : ∀ j < m, ok j ((cur + j) % c.segs) = true) (h2 : m < left → ok m ((cur + m) % c.segs) = false) :
    tfmLoop c ok left 0 cur = m := by
  have hle := tfmLoop_le c ok left 0 cur
  rcases Nat.lt_trichotomy (tfmLoop c ok left 0 cur) m with h | h | h
  · have := tfmLoop_stop c ok left 0 cur hc (by omega)
    rw [Nat.zero_add, h1 _ h] at this
    exact absurd this (by decide)
  · exact h
  · have := tfmLoop_ok c ok left 0 cur hc m h
    rw [Nat.zero_add, h2 (by omega)] at this
    exact absurd this (by decide)

/-! ### Registers of one lane -/

/-- The segments in a lane of the data path, the oldest first. -/
def tfmDList (d : TfmData) : List TlpSeg := (if d.oV then [d.o] else []) ++ (if d.mV then [d.m] else [])

/-- The segments in a lane of the control path, the oldest first. -/
def tfmCList (d : TfmCtrl) : List TlpSeg :=
  (if d.oV then [d.o] else []) ++ (if d.tV then [d.t] else []) ++ (if d.pV then [d.p] else []) ++ (if d.mV then [d.m] else [])

theorem tfm_dlane (c : TfmCfg) (s : Tfm) (l : Nat)
    (hp : tfmHit c s.off (tfmPop c s) l = true → (s.data l).oV = true)
    (hr : tfmHit c (s.rd % c.segs) (tfmRead c s) l = true → tfmMem c s l = false) :
    tfmDList (tfmDataNext c s false l) = (tfmDList (s.data l)).drop (tfmHit c s.off (tfmPop c s) l).toNat ++
      (if tfmHit c (s.rd % c.segs) (tfmRead c s) l then [s.mem l (s.rdAddr l)] else []) := by
  unfold tfmDList tfmDataNext
  simp only []
  unfold tfmMem tfmKeep at *
  generalize tfmHit c s.off (tfmPop c s) l = a at *
  generalize tfmHit c (s.rd % c.segs) (tfmRead c s) l = b at *
  generalize s.data l = d at *
  cases d with
  | mk mV m oV o =>
    cases a <;> cases b <;> cases mV <;> cases oV <;> simp at hp hr ⊢

theorem tfm_clane (c : TfmCfg) (s : Tfm) (l : Nat) (ht : (s.ctrl l).rdy = true → (s.ctrl l).tV = false)
    (hp : tfmHit c s.offC (tfmPopC c s) l = true → (s.ctrl l).oV = true)
    (hr : tfmHit c (s.rdC % c.segs) (tfmReadC c s) l = true → tfmMemC s l = false) :
    tfmCList (tfmCtrlNext c s false l) = (tfmCList (s.ctrl l)).drop (tfmHit c s.offC (tfmPopC c s) l).toNat ++
      (if tfmHit c (s.rdC % c.segs) (tfmReadC c s) l then [s.mem l (s.rdAddrC l)] else []) ∧
    ((tfmCtrlNext c s false l).rdy = true → (tfmCtrlNext c s false l).tV = false) := by
  unfold tfmCList tfmCtrlNext
  simp only []
  unfold tfmMemC tfmKeepC at *
  generalize tfmHit c s.offC (tfmPopC c s) l = a at *
  generalize tfmHit c (s.rdC % c.segs) (tfmReadC c s) l = b at *
  generalize s.ctrl l = d at *
  cases d with
  | mk mV m pV p tV t oV o rdy =>
    cases a <;> cases b <;> cases mV <;> cases pV <;> cases tV <;> cases oV <;> cases rdy <;> simp at ht hp hr ⊢

end Verif.Proofs
