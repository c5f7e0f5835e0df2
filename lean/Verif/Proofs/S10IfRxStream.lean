import Verif.Spec.S10IfRx
/-! The receive side of the Stratix 10 adapter: from segments with headers to rows of payload. -/
namespace Verif.Proofs
open Verif Verif.Model Verif.Spec

/-! ### Double words -/

theorem dwsOf_length (n x : Nat) : (dwsOf n x).length = n := by
  induction n generalizing x with
  | zero => rfl
  | succ n ih => simp [dwsOf, ih]

theorem dwsNum_dwsOf (n x : Nat) : dwsNum (dwsOf n x) = x % 2 ^ (32 * n) := by
  induction n generalizing x with
  | zero => simp [dwsOf, dwsNum, Nat.mod_one]
  | succ n ih =>
    rw [dwsOf, dwsNum, ih, show 32 * (n + 1) = 32 + 32 * n by omega, Nat.pow_add, Nat.mod_mul]

theorem dwsOf_take (k n x : Nat) : (dwsOf n x).take k = dwsOf (min k n) x := by
  induction n generalizing x k with
  | zero => simp [dwsOf]
  | succ n ih => cases k with
    | zero => simp [dwsOf]
    | succ k => rw [dwsOf, List.take_succ_cons, ih, Nat.succ_min_succ]; rfl

theorem dwsOf_drop (k n x : Nat) : (dwsOf n x).drop k = dwsOf (n - k) (x / 2 ^ (32 * k)) := by
  induction n generalizing x k with
  | zero => simp [dwsOf]
  | succ n ih => cases k with
    | zero => simp
    | succ k =>
      rw [dwsOf, List.drop_succ_cons, ih, Nat.add_sub_add_right, Nat.div_div_eq_div_mul, ← Nat.pow_add,
        show 32 + 32 * k = 32 * (k + 1) by omega]

theorem dwsOf_append (a b x y : Nat) : dwsOf a x ++ dwsOf b y = dwsOf (a + b) (x % 2 ^ (32 * a) + 2 ^ (32 * a) * y) := by
  induction a generalizing x with
  | zero => simp [dwsOf, Nat.mod_one]
  | succ a ih =>
    rw [show a + 1 + b = (a + b) + 1 by omega, dwsOf, dwsOf, List.cons_append, ih]
    have e : 2 ^ (32 * (a + 1)) = 2 ^ 32 * 2 ^ (32 * a) := by rw [← Nat.pow_add]; congr 1; omega
    rw [e, Nat.mod_mul, Nat.mul_assoc, Nat.add_assoc, ← Nat.mul_add]
    have hp : 0 < 2 ^ 32 := by decide
    rw [Nat.add_mul_mod_self_left, Nat.mod_mod, Nat.add_mul_div_left _ _ hp, Nat.div_eq_of_lt (Nat.mod_lt _ hp), Nat.zero_add]

/-! ### The stream of rows -/

/-- Whether the header has four double words, after the segment `x`. -/
def s10D (d : Bool) (x : S10Seg) : Bool := if x.sop then (s10Hdr x).testBit 125 else d

/-- The same after several segments. -/
def s10After (d : Bool) (l : List S10Seg) : Bool := l.foldl s10D d

def s10Fin (c : S10RxCfg) (d : Bool) (x : S10Seg) : TlpSeg := rxLook (s10Word c d x {} false {})
def s10Mid (c : S10RxCfg) (d : Bool) (x y : S10Seg) : TlpSeg := rxLook (s10Word c d x y true {})

/-- The rows made from a sequence of segments. -/
def s10Outs (c : S10RxCfg) : Bool → List S10Seg → List TlpSeg
  | _, [] => []
  | d, x :: xs =>
    (if x.eop then (if s10Ends (s10D d x) x then [s10Fin c (s10D d x) x] else [])
      else xs.head?.toList.map (s10Mid c (s10D d x) x)) ++ s10Outs c (s10D d x) xs

theorem s10Outs_eop (c : S10RxCfg) (d : Bool) (x : S10Seg) (xs : List S10Seg) (he : x.eop = true) :
    s10Outs c d (x :: xs) = (if s10Ends (s10D d x) x then [s10Fin c (s10D d x) x] else []) ++ s10Outs c (s10D d x) xs := by
  rw [s10Outs, if_pos he]

theorem s10Outs_mid (c : S10RxCfg) (d : Bool) (x y : S10Seg) (xs : List S10Seg) (he : x.eop = false) :
    s10Outs c d (x :: y :: xs) = s10Mid c (s10D d x) x y :: s10Outs c (s10D d x) (y :: xs) := by
  rw [s10Outs, if_neg (by simp [he])]
  rfl

theorem s10Outs_wait (c : S10RxCfg) (d : Bool) (x : S10Seg) (he : x.eop = false) : s10Outs c d [x] = [] := by
  rw [s10Outs, if_neg (by simp [he])]
  rfl

theorem s10After_append (d : Bool) (a b : List S10Seg) : s10After d (a ++ b) = s10After (s10After d a) b := List.foldl_append ..

/-- Whatever comes before, the last segments are treated in the same way. -/
theorem s10Outs_append (c : S10RxCfg) (a b : List S10Seg) (d : Bool) (hb : b ≠ [] ∨ ∀ x ∈ a.getLast?, x.eop = true) :
    ∃ q, s10Outs c d (a ++ b) = q ++ s10Outs c (s10After d a) b := by
  induction a generalizing d with
  | nil => exact ⟨[], rfl⟩
  | cons x a ih =>
    obtain ⟨q, hq⟩ := ih (s10D d x) (by
      rcases hb with hb | hb
      · exact Or.inl hb
      · refine Or.inr ?_
        intro y hy
        refine hb y ?_
        rw [List.getLast?_cons]
        have hy' : a.getLast? = some y := hy
        rw [hy']; rfl)
    cases he : x.eop with
    | true =>
      refine ⟨(if s10Ends (s10D d x) x then [s10Fin c (s10D d x) x] else []) ++ q, ?_⟩
      rw [List.cons_append, s10Outs_eop _ _ _ _ he, hq, ← List.append_assoc]; rfl
    | false =>
      cases hab : a ++ b with
      | nil =>
        have ha := (List.append_eq_nil_iff.mp hab)
        rcases hb with hb | hb
        · exact absurd ha.2 hb
        · have := hb x (by rw [ha.1]; rfl)
          rw [he] at this; cases this
      | cons y l =>
        refine ⟨s10Mid c (s10D d x) x y :: q, ?_⟩
        rw [List.cons_append, hab, s10Outs_mid _ _ _ _ _ he, List.cons_append, ← hab, hq]; rfl

/-! ### One segment -/

theorem s10_hdr_bit (x : S10Seg) : (s10Hdr x).testBit 125 = (x.data % 2 ^ 32).testBit 29 := by
  rw [Nat.testBit_eq_decide_div_mod_eq, Nat.testBit_eq_decide_div_mod_eq]
  unfold s10Hdr
  have h1 := Nat.mod_lt (x.data / 2 ^ 32) (show 2 ^ 32 > 0 by decide)
  have h2 := Nat.mod_lt (x.data / 2 ^ 64) (show 2 ^ 32 > 0 by decide)
  have h3 := Nat.mod_lt (x.data / 2 ^ 96) (show 2 ^ 32 > 0 by decide)
  generalize x.data % 2 ^ 32 = a
  generalize x.data / 2 ^ 32 % 2 ^ 32 = b at *
  generalize x.data / 2 ^ 64 % 2 ^ 32 = c at *
  generalize x.data / 2 ^ 96 % 2 ^ 32 = d at *
  have : (a * 2 ^ 96 + b * 2 ^ 64 + c * 2 ^ 32 + d) / 2 ^ 125 = a / 2 ^ 29 := by omega
  rw [this]

theorem s10_hdr_eq (x : S10Seg) : s10Hdr x = dwsNum ((dwsOf 4 x.data).reverse) := by
  simp only [dwsOf, List.reverse_cons, List.reverse_nil, List.nil_append, List.cons_append, dwsNum, s10Hdr, Nat.div_div_eq_div_mul]
  rw [show 2 ^ 32 * 2 ^ 32 = 2 ^ 64 from rfl, show 2 ^ 64 * 2 ^ 32 = 2 ^ 96 from rfl]
  generalize x.data % 2 ^ 32 = a
  generalize x.data / 2 ^ 32 % 2 ^ 32 = b
  generalize x.data / 2 ^ 64 % 2 ^ 32 = c
  generalize x.data / 2 ^ 96 % 2 ^ 32 = d
  omega

theorem s10_bar_eq (c : S10RxCfg) (x : S10Seg) : s10Bar c x = s10BarOf c x.bar := by
  unfold s10Bar s10BarOf
  split
  · rename_i h; rw [h]; rfl
  · split
    · rename_i h; rw [h]; rfl
    · split <;> first | contradiction | rfl

theorem rxLook_word (c : S10RxCfg) (d : Bool) (x y : S10Seg) (vy : Bool) (old : TlpSeg) :
    rxLook (s10Word c d x y vy old) = rxLook (s10Word c d x y vy {}) := by
  cases hs : x.sop <;> simp [rxLook, s10Word, rxView, hs]

theorem s10K_le (d : Bool) : 3 ≤ s10K d ∧ s10K d ≤ 4 := by cases d <;> decide

theorem s10_fin_strb (d : Bool) (x : S10Seg) (he : x.eop = true) (hx : x.empty < 8) :
    s10Strb x >>> s10K d = 2 ^ (s10Lanes x - s10K d) - 1 ∧ (s10StrbEop x >>> s10K d ≠ 0 ↔ s10K d < s10Lanes x) := by
  simp only [s10Strb, s10StrbEop, s10Lanes, he, if_true]
  generalize x.empty = e at hx
  cases d <;> rcases (by omega : e = 0 ∨ e = 1 ∨ e = 2 ∨ e = 3 ∨ e = 4 ∨ e = 5 ∨ e = 6 ∨ e = 7) with
    rfl | rfl | rfl | rfl | rfl | rfl | rfl | rfl <;> decide

theorem s10_mid_strb (d : Bool) (x y : S10Seg) (he : x.eop = false) (hy : y.empty < 8) :
    (s10Strb x + 2 ^ 8 * s10Strb y) >>> s10K d % 2 ^ 8 = 2 ^ (8 - s10K d + min (s10K d) (s10Lanes y)) - 1 ∧
    (s10StrbEop y &&& (if d then 15 else 7) ≠ 0 ↔ y.eop = true ∧ s10Lanes y ≤ s10K d) := by
  simp only [s10Strb, s10StrbEop, s10Lanes, he, Bool.false_eq_true, if_false]
  generalize y.empty = e at hy
  cases y.eop <;> cases d <;> rcases (by omega : e = 0 ∨ e = 1 ∨ e = 2 ∨ e = 3 ∨ e = 4 ∨ e = 5 ∨ e = 6 ∨ e = 7) with
    rfl | rfl | rfl | rfl | rfl | rfl | rfl | rfl <;> decide

theorem log2_strb (n : Nat) : (2 ^ n - 1 + 1).log2 = n := by
  rw [Nat.sub_add_cancel (Nat.two_pow_pos n), Nat.log2_two_pow]

/-- The data of a row that is the last one. -/
theorem s10_fin_data (d : Bool) (x y : S10Seg) (he : x.eop = true) :
    (x.data % 2 ^ 256 + 2 ^ 256 * y.data) >>> (32 * s10K d) % 2 ^ 256 % 2 ^ (32 * (s10Lanes x - s10K d)) =
      dwsNum ((dwsOf (s10Lanes x) x.data).drop (s10K d)) := by
  rw [dwsOf_drop, dwsNum_dwsOf, Nat.shiftRight_eq_div_pow]
  have h8 : s10Lanes x ≤ 8 := by unfold s10Lanes; split <;> omega
  obtain ⟨k3, k4⟩ := s10K_le d
  have e : 2 ^ 256 = 2 ^ (32 * s10K d) * 2 ^ (32 * (8 - s10K d)) := by rw [← Nat.pow_add]; congr 1; omega
  have hd : (2 : Nat) ^ (32 * (s10Lanes x - s10K d)) ∣ 2 ^ (32 * (8 - s10K d)) := Nat.pow_dvd_pow 2 (by omega)
  have hd' : (2 : Nat) ^ (32 * (s10Lanes x - s10K d)) ∣ 2 ^ 256 := Nat.pow_dvd_pow 2 (by omega)
  rw [Nat.mod_mod_of_dvd _ hd']
  conv => lhs; rw [e]
  rw [Nat.mul_assoc, Nat.add_mul_div_left _ _ (Nat.two_pow_pos _), Nat.mod_mul_right_div_self, Nat.add_mod,
    Nat.mod_mod_of_dvd _ hd, Nat.mod_eq_zero_of_dvd (Nat.dvd_trans hd (Nat.dvd_mul_right _ _)), Nat.add_zero, Nat.mod_mod]

theorem s10_mid_data (d : Bool) (x y : S10Seg) (he : x.eop = false) :
    (x.data % 2 ^ 256 + 2 ^ 256 * y.data) >>> (32 * s10K d) % 2 ^ 256 % 2 ^ (32 * (8 - s10K d + min (s10K d) (s10Lanes y))) =
      dwsNum ((dwsOf (s10Lanes x) x.data).drop (s10K d) ++ (dwsOf (s10Lanes y) y.data).take (s10K d)) := by
  obtain ⟨k3, k4⟩ := s10K_le d
  have h8 : s10Lanes x = 8 := by simp [s10Lanes, he]
  rw [dwsOf_drop, dwsOf_take, dwsOf_append, dwsNum_dwsOf, Nat.shiftRight_eq_div_pow, h8]
  have e : 2 ^ 256 = 2 ^ (32 * s10K d) * 2 ^ (32 * (8 - s10K d)) := by rw [← Nat.pow_add]; congr 1; omega
  have hd' : (2 : Nat) ^ (32 * (8 - s10K d + min (s10K d) (s10Lanes y))) ∣ 2 ^ 256 := Nat.pow_dvd_pow 2 (by omega)
  rw [Nat.mod_mod_of_dvd _ hd']
  conv => lhs; rw [e]
  rw [Nat.mul_assoc, Nat.add_mul_div_left _ _ (Nat.two_pow_pos _), Nat.mod_mul_right_div_self]

/-- What is said with a start flag. -/
def s10Meta (c : S10RxCfg) (x : S10Seg) : TlpSeg :=
  if x.sop then { sop := true, hdr := dwsNum ((dwsOf 4 x.data).reverse), bar := s10BarOf c x.bar, func := x.func % 4 } else {}

theorem s10Fin_any (c : S10RxCfg) (d : Bool) (x y : S10Seg) (vy : Bool) (old : TlpSeg) (he : x.eop = true) (hx : x.empty < 8)
    (hn : s10Ends d x = true) : rxLook (s10Word c d x y vy old) =
      { s10Meta c x with data := dwsNum ((dwsOf (s10Lanes x) x.data).drop (s10K d)), strb := 2 ^ (s10Lanes x - s10K d) - 1, eop := true } := by
  rw [rxLook_word]
  have h1 := (s10_fin_strb d x he hx).1
  have h2 := s10_fin_data d x y he
  cases hs : x.sop with
  | true =>
    simp only [rxLook, s10Word, rxView, he, hs, if_true, h1, log2_strb, h2, s10Meta, s10_hdr_eq, s10_bar_eq, hn]
  | false =>
    simp only [rxLook, s10Word, rxView, he, hs, if_true, h1, log2_strb, h2, s10Meta, hn]
    rfl

theorem s10Fin_eq (c : S10RxCfg) (d : Bool) (x : S10Seg) (he : x.eop = true) (hx : x.empty < 8) (hn : s10Ends d x = true) :
    s10Fin c d x =
      { s10Meta c x with data := dwsNum ((dwsOf (s10Lanes x) x.data).drop (s10K d)), strb := 2 ^ (s10Lanes x - s10K d) - 1, eop := true } :=
  s10Fin_any c d x {} false {} he hx hn

theorem s10Mid_eq (c : S10RxCfg) (d : Bool) (x y : S10Seg) (he : x.eop = false) (hy : y.empty < 8) :
    s10Mid c d x y =
      { s10Meta c x with
        data := dwsNum ((dwsOf (s10Lanes x) x.data).drop (s10K d) ++ (dwsOf (s10Lanes y) y.data).take (s10K d))
        strb := 2 ^ (8 - s10K d + min (s10K d) (s10Lanes y)) - 1
        eop := y.eop && decide (s10Lanes y ≤ s10K d) } := by
  obtain ⟨h1, h3⟩ := s10_mid_strb d x y he hy
  have h2 := s10_mid_data d x y he
  have h3' : decide (s10StrbEop y &&& (if d then 15 else 7) ≠ 0) = (y.eop && decide (s10Lanes y ≤ s10K d)) := by
    rw [Bool.eq_iff_iff, decide_eq_true_eq, h3, Bool.and_eq_true, decide_eq_true_eq]
  unfold s10Mid
  cases hs : x.sop with
  | true =>
    simp only [rxLook, s10Word, rxView, he, hs, if_true, h1, log2_strb, h2, s10Meta, s10_hdr_eq, s10_bar_eq, h3', Bool.false_eq_true,
      if_false, Bool.true_and]
  | false =>
    simp only [rxLook, s10Word, rxView, he, hs, h1, log2_strb, h2, s10Meta, h3', Bool.false_eq_true, if_false, Bool.true_and]

/-! ### One TLP -/

theorem s10Lanes_le (x : S10Seg) : s10Lanes x ≤ 8 := by unfold s10Lanes; split <;> omega

/-- From a segment on, to the end of its TLP. -/
theorem s10Outs_rest (c : S10RxCfg) (d : Bool) (x : S10Seg) (ys rest : List S10Seg)
    (hl : ∀ (k : Nat) (h : k < (x :: ys).length), ((x :: ys)[k].eop = true ↔ k = ys.length) ∧ (x :: ys)[k].empty < 8)
    (hs : ∀ y ∈ ys, y.sop = false) :
    s10Outs c d (x :: ys ++ rest) =
      (if x.eop = true ∧ s10Ends (s10D d x) x = false then []
        else rxRows (s10Meta c x) ((dwsOf (s10Lanes x) x.data).drop (s10K (s10D d x)) ++ s10Dws ys)) ++
      s10Outs c (s10D d x) rest := by
  induction ys generalizing d x with
  | nil =>
    have h0 := hl 0 (by simp)
    have he : x.eop = true := h0.1.mpr rfl
    have hx : x.empty < 8 := h0.2
    rw [List.cons_append, List.nil_append, s10Outs_eop _ _ _ _ he]
    cases hn : s10Ends (s10D d x) x with
    | false => simp [he]
    | true =>
      have hlen : ((dwsOf (s10Lanes x) x.data).drop (s10K (s10D d x))).length = s10Lanes x - s10K (s10D d x) := by
        rw [List.length_drop, dwsOf_length]
      have h8 := s10Lanes_le x
      simp only [s10Dws, List.flatMap_nil, List.append_nil]
      simp only [Bool.true_eq_false, and_false, if_false, if_true]
      rw [rxRows, if_pos (by omega), hlen, s10Fin_eq c _ x he hx hn]
  | cons y ys ih =>
    have h0 := hl 0 (by simp)
    have he : x.eop = false := by
      cases h : x.eop with
      | false => rfl
      | true => have := h0.1.mp h; simp at this
    have hy : y.sop = false := hs y (by simp)
    have hye : y.empty < 8 := (hl 1 (by simp)).2
    have ih' := ih (s10D d x) y (by
      intro k hk
      have := hl (k + 1) (by simpa using hk)
      simpa using this) (fun z h => hs z (by simp [h]))
    have hyd : s10D (s10D d x) y = s10D d x := by generalize s10D d x = D; simp [s10D, hy]
    have hym : s10Meta c y = {} := by simp [s10Meta, hy]
    rw [hyd, hym] at ih'
    have hxe : ¬(x.eop = true ∧ s10Ends (s10D d x) x = false) := by simp [he]
    rw [List.cons_append, List.cons_append, s10Outs_mid _ _ _ _ _ he, if_neg hxe, ← List.cons_append (a := y), ih', s10Mid_eq c _ x y he hye]
    clear ih ih' hxe hyd
    generalize hD : s10D d x = D
    obtain ⟨k3, k4⟩ := s10K_le D
    have h8 : s10Lanes x = 8 := by simp [s10Lanes, he]
    have hly := s10Lanes_le y
    have hA : ((dwsOf (s10Lanes x) x.data).drop (s10K D)).length = 8 - s10K D := by rw [List.length_drop, dwsOf_length, h8]
    have hB : (dwsOf (s10Lanes y) y.data).length = s10Lanes y := dwsOf_length _ _
    have hcons : s10Dws (y :: ys) = dwsOf (s10Lanes y) y.data ++ s10Dws ys := rfl
    rw [hcons]
    generalize hA' : (dwsOf (s10Lanes x) x.data).drop (s10K D) = A at hA ⊢
    generalize hB' : dwsOf (s10Lanes y) y.data = B at hB ⊢
    by_cases hend : y.eop = true ∧ s10Lanes y ≤ s10K D
    · -- the rest fits into this row
      have hys : ys = [] := by
        have h1 := (hl 1 (by simp)).1.mp (by simpa using hend.1)
        simp at h1
        first | exact List.length_eq_zero_iff.mp h1.symm | exact h1.symm | exact h1
      subst hys
      have hne : s10Ends D y = false := by
        unfold s10Ends
        rw [hy, Bool.false_or, decide_eq_false_iff_not]
        intro h
        have := (s10_fin_strb D y hend.1 hye).2.mp h
        omega
      rw [if_pos ⟨hend.1, hne⟩, List.nil_append]
      have e0 : s10Dws ([] : List S10Seg) = [] := rfl
      rw [e0, List.append_nil]
      conv => rhs; rw [rxRows]
      rw [if_pos (by rw [List.length_append]; omega), List.length_append, hA, hB, List.take_of_length_le (by omega), hend.1,
        Nat.min_eq_right (by omega)]
      simp [hend.2]
    · have hlt : s10K D < s10Lanes y := by
        apply Classical.byContradiction
        intro h
        apply hend
        refine ⟨?_, by omega⟩
        cases hq : y.eop with
        | true => rfl
        | false => simp [s10Lanes, hq] at h; omega
      have hne : ¬(y.eop = true ∧ s10Ends D y = false) := by
        intro ⟨h1, h2⟩
        have := (s10_fin_strb D y h1 hye).2.mpr hlt
        unfold s10Ends at h2
        simp [this] at h2
      rw [if_neg hne]
      conv => rhs; rw [rxRows]
      rw [if_neg (by rw [List.length_append, List.length_append]; omega), Nat.min_eq_left (by omega)]
      have e1 : (A ++ (B ++ s10Dws ys)).take 8 = A ++ B.take (s10K D) := by
        rw [List.take_append, List.take_append, List.take_of_length_le (by omega), hA,
          show 8 - (8 - s10K D) - B.length = 0 by omega, show 8 - (8 - s10K D) = s10K D by omega]
        simp
      have e2 : (A ++ (B ++ s10Dws ys)).drop 8 = B.drop (s10K D) ++ s10Dws ys := by
        rw [List.drop_append, List.drop_append, List.drop_of_length_le (by omega), hA,
          show 8 - (8 - s10K D) - B.length = 0 by omega, show 8 - (8 - s10K D) = s10K D by omega]
        simp
      rw [e1, e2, show 8 - s10K D + s10K D = 8 by omega]
      have e3 : (y.eop && decide (s10Lanes y ≤ s10K D)) = false := by
        rw [Bool.and_eq_false_iff]; right; rw [decide_eq_false_iff_not]; omega
      rw [e3]
      have e4 : ∀ m : TlpSeg, m.eop = false → ∀ (dd ss : Nat),
          ({ m with data := dd, strb := ss, eop := false } : TlpSeg) = { m with data := dd, strb := ss } := by
        intro m hm dd ss; cases m; cases hm; rfl
      rw [e4 _ (by unfold s10Meta; split <;> rfl)]
      rfl

theorem s10Outs_tlp (c : S10RxCfg) (d : Bool) (t rest : List S10Seg) (ht : S10Tlp t) :
    s10Outs c d (t ++ rest) = s10TlpOut c t ++ s10Outs c (s10After d t) rest := by
  cases t with
  | nil => exact absurd rfl ht.1
  | cons x ys =>
    have hx : x.sop = true := (ht.2.1 0 (by simp)).1.mpr rfl
    have hys : ∀ y ∈ ys, y.sop = false := by
      intro y hy
      obtain ⟨k, hk, rfl⟩ := List.getElem_of_mem hy
      cases h : ys[k].sop with
      | false => rfl
      | true =>
        have := (ht.2.1 (k + 1) (by simpa using hk)).1.mp (by simpa using h)
        omega
    have h := s10Outs_rest c d x ys rest (by
      intro k hk
      have := ht.2.1 k hk
      refine ⟨this.2.1.trans (by simp), this.2.2⟩) hys
    rw [h, if_neg (by unfold s10Ends; simp [hx])]
    have hD : s10After d (x :: ys) = s10D d x := by
      unfold s10After
      rw [List.foldl_cons]
      generalize s10D d x = D
      clear ht h
      induction ys generalizing D with
      | nil => rfl
      | cons y ys ih =>
        rw [List.foldl_cons]
        have : s10D D y = D := by unfold s10D; rw [hys y (by simp)]; simp
        rw [this]
        exact ih (fun z h => hys z (by simp [h])) D
    rw [hD]
    congr 1
    have hK : s10K (s10D d x) = s10HdrLen (x :: ys) := by
      unfold s10HdrLen s10D
      rw [if_pos hx, s10_hdr_bit, List.head?_cons, Option.any_some]
      generalize (x.data % 2 ^ 32).testBit 29 = b
      cases b <;> rfl
    have hm : s10Meta c x = { sop := true, hdr := dwsNum ((dwsOf 4 x.data).reverse), bar := s10BarOf c x.bar, func := x.func % 4 } := by
      simp [s10Meta, hx]
    rw [hK, hm, s10TlpOut]
    have e : s10Dws (x :: ys) = dwsOf (s10Lanes x) x.data ++ s10Dws ys := rfl
    have hlen : s10HdrLen (x :: ys) ≤ (dwsOf (s10Lanes x) x.data).length ∨ ys = [] := by
      cases ys with
      | nil => exact Or.inr rfl
      | cons y ys =>
        refine Or.inl ?_
        have he : x.eop = false := by
          cases h : x.eop with
          | false => rfl
          | true => have := (ht.2.1 0 (by simp)).2.1.mp h; simp at this
        rw [dwsOf_length]
        simp only [s10Lanes, he, Bool.false_eq_true, if_false, s10HdrLen]
        split <;> omega
    rw [e]
    congr 1
    rcases hlen with hlen | rfl
    · rw [List.drop_append_of_le_length hlen]
    · simp [s10Dws]

theorem s10Outs_tlps (c : S10RxCfg) (d : Bool) (ts : List (List S10Seg)) (rest : List S10Seg) (ht : ∀ t ∈ ts, S10Tlp t) :
    s10Outs c d (ts.flatten ++ rest) = (ts.map (s10TlpOut c)).flatten ++ s10Outs c (s10After d ts.flatten) rest := by
  induction ts generalizing d with
  | nil => rfl
  | cons t ts ih =>
    rw [List.flatten_cons, List.append_assoc, s10Outs_tlp c d t _ (ht t (by simp)), ih _ (fun t h => ht t (by simp [h])), List.map_cons,
      List.flatten_cons, List.append_assoc, s10After_append]

/-! ### Flags -/

theorem rxRows_tlp (m : TlpSeg) (l : List Nat) : rxRows m l ≠ [] ∧ ∀ (k : Nat) (h : k < (rxRows m l).length),
    ((rxRows m l)[k].sop = if k = 0 then m.sop else false) ∧ ((rxRows m l)[k].eop = true ↔ k + 1 = (rxRows m l).length ∨ (k = 0 ∧ m.eop = true)) := by
  generalize hn : l.length = n
  induction n using Nat.strongRecOn generalizing m l with
  | ind n ih =>
    subst hn
    rw [rxRows]
    split
    · refine ⟨by simp, ?_⟩
      intro k hk
      simp only [List.length_singleton] at hk
      have : k = 0 := by omega
      subst this
      simp
    · rename_i hlt
      obtain ⟨h1, h2⟩ := ih (l.drop 8).length (by rw [List.length_drop]; omega) {} (l.drop 8) rfl
      refine ⟨by simp, ?_⟩
      intro k hk
      cases k with
      | zero =>
        simp only [List.getElem_cons_zero, if_true, true_and, List.length_cons]
        have := List.length_pos_iff.mpr h1
        constructor
        · intro h; exact Or.inr h
        · rintro (h | h)
          · omega
          · exact h
      | succ k =>
        have := h2 k (by simpa using hk)
        simp only [List.getElem_cons_succ, List.length_cons]
        refine ⟨?_, ?_⟩
        · rw [this.1]; simp
        · rw [this.2]
          constructor
          · rintro (h | h)
            · omega
            · have := h.2; cases this
          · rintro (h | h)
            · omega
            · omega

theorem s10TlpOut_tlp (c : S10RxCfg) (t : List S10Seg) : SegTlp (s10TlpOut c t) := by
  obtain ⟨h1, h2⟩ := rxRows_tlp { sop := true, hdr := dwsNum ((dwsOf 4 (t.headD {}).data).reverse), bar := s10BarOf c (t.headD {}).bar, func := (t.headD {}).func % 4 }
    ((s10Dws t).drop (s10HdrLen t))
  refine ⟨h1, ?_⟩
  intro k hk
  obtain ⟨a, b⟩ := h2 k hk
  refine ⟨?_, ?_⟩
  · have : (s10TlpOut c t)[k].sop = _ := a
    rw [this]; split <;> simp_all
  · refine Iff.trans b ⟨?_, Or.inl⟩
    rintro (h | h)
    · exact h
    · have := h.2; cases this

theorem s10Outs_part_aux (c : S10RxCfg) (d : Bool) (u : List S10Seg) (he : ∀ x ∈ u, x.eop = false) :
    (s10Outs c d u).length ≤ u.length ∧ ∀ (k : Nat) (h : k < (s10Outs c d u).length) (h' : k < u.length),
      (s10Outs c d u)[k].sop = u[k].sop ∧ (s10Outs c d u)[k].eop = false := by
  induction u generalizing d with
  | nil => simp [s10Outs]
  | cons x u ih =>
    have hx := he x (by simp)
    have ih' := ih (s10D d x) (fun y h => he y (by simp [h]))
    cases u with
    | nil => simp [s10Outs, hx]
    | cons y u =>
      have hy := he y (by simp)
      have e : s10Outs c d (x :: y :: u) = s10Mid c (s10D d x) x y :: s10Outs c (s10D d x) (y :: u) := by
        exact s10Outs_mid _ _ _ _ _ hx
      rw [e]
      refine ⟨by simpa using ih'.1, ?_⟩
      intro k hk hk'
      cases k with
      | zero =>
        simp only [List.getElem_cons_zero]
        unfold s10Mid
        constructor
        · cases hs : x.sop <;> simp [rxLook, s10Word, rxView, hs]
        · cases hs : x.sop <;> simp [rxLook, s10Word, rxView, hs, hx, s10StrbEop, hy]
      | succ k =>
        simp only [List.getElem_cons_succ]
        exact ih'.2 k (by simpa using hk) (by simpa using hk')

theorem s10Outs_part (c : S10RxCfg) (d : Bool) (u : List S10Seg) (hu : S10Part u) :
    SegPart (s10Outs c d u) ∧ (s10Outs c d u).length ≤ u.length := by
  have h := s10Outs_part_aux c d u (by
    intro x hx
    obtain ⟨k, hk, rfl⟩ := List.getElem_of_mem hx
    exact (hu k hk).2)
  refine ⟨?_, h.1⟩
  intro k hk
  have hk' : k < u.length := by omega
  obtain ⟨a, b⟩ := h.2 k hk hk'
  rw [a, b]
  exact ⟨(hu k hk').1, rfl⟩

end Verif.Proofs
