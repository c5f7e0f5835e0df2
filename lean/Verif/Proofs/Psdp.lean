import Verif.Model.Psdp
/-! Helper lemmas for the segmented RAM: one command and one operation. -/
namespace Verif.Proofs
open Verif Verif.Model Verif.Spec

theorem u8_lt (b : UInt8) : b.toNat < 256 := b.toNat_lt

/-- Bits of the value assembled by the loop. -/
theorem valLoop_spec (data : List UInt8) (n j off v : Nat) (h : off + n ≤ data.length) :
    ∃ r, valLoop data n j off v = some (r, off + n) ∧ ∀ i, r.testBit i = (v.testBit i ||
      (decide (8 * j ≤ i ∧ i < 8 * (j + n)) &&
        (data.getD (off + (i / 8 - j)) 0).toNat.testBit (i % 8))) := by
  induction n generalizing j off v with
  | zero =>
    refine ⟨v, rfl, fun i => ?_⟩
    have : ¬ (8 * j ≤ i ∧ i < 8 * (j + 0)) := by omega
    rw [decide_eq_false this]; simp
  | succ n ih =>
    obtain ⟨r, h1, h2⟩ := ih (j + 1) (off + 1) (v ||| ((data.getD off 0).toNat <<< (j * 8)))
      (by omega)
    refine ⟨r, ?_, fun i => ?_⟩
    · unfold valLoop
      have hb : data[off]? = some (data.getD off 0) := by
        rw [List.getD_eq_getElem?_getD, List.getElem?_eq_getElem (by omega)]; rfl
      simp only [hb, Option.bind_eq_bind, Option.bind_some, h1]
      simp only [Option.some.injEq, Prod.mk.injEq, true_and]
      omega
    · rw [h2 i, Nat.testBit_or, Nat.testBit_shiftLeft]
      by_cases ha : 8 * j ≤ i
      · by_cases hb : i < 8 * (j + 1)
        · have e1 : i / 8 = j := by omega
          have e2 : i - j * 8 = i % 8 := by omega
          have e3 : ¬ (8 * (j + 1) ≤ i ∧ i < 8 * (j + 1 + n)) := by omega
          have e4 : (8 * j ≤ i ∧ i < 8 * (j + (n + 1))) := by omega
          simp [e1, e2, e3, e4, show j * 8 ≤ i by omega]
        · have e0 : (data.getD off 0).toNat.testBit (i - j * 8) = false := by
            apply Nat.testBit_lt_two_pow
            have := u8_lt (data.getD off 0)
            have : 2 ^ 8 ≤ 2 ^ (i - j * 8) := Nat.pow_le_pow_right (by omega) (by omega)
            omega
          rw [e0, show off + 1 + (i / 8 - (j + 1)) = off + (i / 8 - j) by omega]
          by_cases hc : i < 8 * (j + 1 + n)
          · simp [show 8 * (j + 1) ≤ i by omega, hc, ha, show i < 8 * (j + (n + 1)) by omega]
          · simp [hc, show ¬ i < 8 * (j + (n + 1)) by omega]
      · simp [ha, show ¬ 8 * (j + 1) ≤ i by omega, show ¬ j * 8 ≤ i by omega]

/-- The operation of iteration `k` of a write of `data` at `A`: it goes to word `A / W + k`. -/
structure OpFor (g : SegGeo) (A : Nat) (data : List UInt8) (k : Nat) (o : Nat × SegWrite) : Prop where
  seg : o.1 = (A / g.segBytes + k) % g.segCount
  addr : o.2.addr = (A / g.segBytes + k) / g.segCount
  be : ∀ j, o.2.be.testBit j = decide (j < g.segBytes ∧ A ≤ (A / g.segBytes + k) * g.segBytes + j ∧
    (A / g.segBytes + k) * g.segBytes + j < A + data.length)
  data : ∀ j, j < g.segBytes → A ≤ (A / g.segBytes + k) * g.segBytes + j →
    (A / g.segBytes + k) * g.segBytes + j < A + data.length →
    UInt8.ofNat ((o.2.data >>> (8 * j)) % 256) =
      data.getD ((A / g.segBytes + k) * g.segBytes + j - A) 0
  dataLt : o.2.data < 2 ^ (8 * g.segBytes)

def OpsFrom (g : SegGeo) (A : Nat) (data : List UInt8) : Nat → List (Nat × SegWrite) → Prop
  | _, [] => True
  | k, o :: os => OpFor g A data k o ∧ OpsFrom g A data (k + 1) os

theorem testBit_laneMask (W j : Nat) : (2 ^ W - 1).testBit j = decide (j < W) := by
  rw [Nat.testBit_two_pow_sub_one]

theorem ofNat_toNat_bits (x : Nat) (b : UInt8) (h : ∀ i, i < 8 → x.testBit i = b.toNat.testBit i) :
    UInt8.ofNat (x % 256) = b := by
  have : x % 256 = b.toNat := by
    apply Nat.eq_of_testBit_eq
    intro i
    rw [show (256 : Nat) = 2 ^ 8 from rfl, Nat.testBit_mod_two_pow]
    by_cases hi : i < 8
    · simp [hi, h i hi]
    · have := u8_lt b
      have h2 : 2 ^ 8 ≤ 2 ^ i := Nat.pow_le_pow_right (by omega) (by omega)
      rw [Nat.testBit_lt_two_pow (x := b.toNat) (by omega)]
      simp [hi]
  rw [this]
  exact UInt8.ofNat_toNat

/-- Arithmetic of the number of segments. -/
theorem segments_arith (W A len : Nat) (hW : 0 < W) :
    let n := (len + A % W + W - 1) / W
    (n = 0 → len = 0) ∧
    (0 < n → W * (n - 1) ≤ len + A % W - 1 ∧ len + A % W ≤ W * n ∧ 0 < len + A % W ∧
      (A + len - 1) % W + 1 = len + A % W - W * (n - 1)) := by
  intro n
  have hd : W * n + (len + A % W + W - 1) % W = len + A % W + W - 1 := Nat.div_add_mod _ _
  have hm := Nat.mod_lt (len + A % W + W - 1) hW
  have hA : W * (A / W) + A % W = A := Nat.div_add_mod _ _
  have ho := Nat.mod_lt A hW
  refine ⟨fun h0 => ?_, fun h0 => ?_⟩
  · rw [h0, Nat.mul_zero] at hd; omega
  · have hs : W * n = W * (n - 1) + W := by
      conv => lhs; rw [show n = n - 1 + 1 by omega, Nat.mul_succ]
    have key : (A + len - 1) % W = len + A % W - 1 - W * (n - 1) := by
      have e : A + len - 1 = (len + A % W - 1 - W * (n - 1)) + W * (A / W + (n - 1)) := by
        rw [Nat.mul_add]; omega
      rw [e, Nat.add_mul_mod_self_left, Nat.mod_eq_of_lt (by omega)]
    refine ⟨by omega, by omega, by omega, by omega⟩

theorem writeLoop_spec (g : SegGeo) (A : Nat) (data : List UInt8) (hW : 0 < g.segBytes)
    (n k seg off : Nat) (hn : k + n = segmentsOf g A data.length)
    (hseg : seg = (A / g.segBytes + k) % g.segCount)
    (hoff : off = k * g.segBytes - A % g.segBytes) :
    ∃ ops, writeLoop g A data (segmentsOf g A data.length) n k seg off = some ops ∧
      ops.length = n ∧ OpsFrom g A data k ops := by
  induction n generalizing k seg off with
  | zero => exact ⟨[], rfl, rfl, trivial⟩
  | succ n ih =>
    have har := segments_arith g.segBytes A data.length hW
    simp only at har
    rw [← segmentsOf] at har
    have har2 := har.2 (by omega)
    generalize hN : segmentsOf g A data.length = N at *
    obtain ⟨a1, a2, a3, a4⟩ := har2
    have hA : g.segBytes * (A / g.segBytes) + A % g.segBytes = A := Nat.div_add_mod _ _
    have ho := Nat.mod_lt A hW
    have hsplit : (A / g.segBytes + k) * g.segBytes = g.segBytes * (A / g.segBytes) + k * g.segBytes := by
      rw [Nat.add_mul, Nat.mul_comm g.segBytes]
    have hNW : g.segBytes * N = g.segBytes * (N - 1) + g.segBytes := by
      conv => lhs; rw [show N = N - 1 + 1 by omega, Nat.mul_succ]
    have hkW : k * g.segBytes ≤ g.segBytes * (N - 1) := by
      rw [Nat.mul_comm g.segBytes]; exact Nat.mul_le_mul_right _ (by omega)
    have hk1 : k ≠ N - 1 → k * g.segBytes + g.segBytes ≤ g.segBytes * (N - 1) := by
      intro h
      rw [Nat.mul_comm g.segBytes, ← Nat.succ_mul]
      exact Nat.mul_le_mul_right _ (by omega)
    have hk0 : k ≠ 0 → g.segBytes ≤ k * g.segBytes := by
      intro h
      have := Nat.mul_le_mul_right g.segBytes (show 1 ≤ k by omega)
      omega
    have hkl : k = N - 1 → k * g.segBytes = g.segBytes * (N - 1) := by
      intro h; rw [h, Nat.mul_comm]
    have hz : k = 0 → k * g.segBytes = 0 := by intro h; rw [h, Nat.zero_mul]
    generalize hKW : k * g.segBytes = KW at *
    generalize hLW : g.segBytes * (N - 1) = LW at *
    -- start and stop of this iteration
    generalize hst : (if k = 0 then A % g.segBytes else 0) = start
    generalize hsp : (if k = N - 1 then (A + data.length - 1) % g.segBytes + 1 else g.segBytes) = stop
    have hle : start ≤ stop ∧ stop ≤ g.segBytes := by
      subst hst hsp; split <;> split <;> omega
    have hoffn : off + (stop - start) = KW + stop - A % g.segBytes := by
      subst hst hsp; split <;> split <;> omega
    have hlen : off + (stop - start) ≤ data.length := by
      subst hst hsp; split <;> split <;> omega
    obtain ⟨val, v1, v2⟩ := valLoop_spec data (stop - start) start off 0 hlen
    have hnext : n ≠ 0 → stop = g.segBytes := by
      intro h; subst hsp; rw [if_neg (by omega)]
    have hrest : ∃ ops, writeLoop g A data N n (k + 1) ((seg + 1) % g.segCount)
        (off + (stop - start)) = some ops ∧ ops.length = n ∧ OpsFrom g A data (k + 1) ops := by
      cases n with
      | zero => exact ⟨[], rfl, rfl, trivial⟩
      | succ n =>
        refine ih (k + 1) _ _ (by omega) ?_ ?_
        · subst hseg
          rw [Nat.mod_add_mod, Nat.add_assoc]
        · rw [hoffn, hnext (by omega), Nat.add_mul, hKW]; omega
    obtain ⟨ops, o1, o2, o3⟩ := hrest
    -- range of this word
    have hin : ∀ j, j < g.segBytes → ((A ≤ (A / g.segBytes + k) * g.segBytes + j ∧
        (A / g.segBytes + k) * g.segBytes + j < A + data.length) ↔ (start ≤ j ∧ j < stop)) := by
      intro j hj
      rw [hsplit]
      subst hst hsp
      split <;> split <;> omega
    unfold writeLoop
    simp only [hst, hsp, v1, o1, Option.bind_eq_bind, Option.bind_some]
    refine ⟨_, rfl, by simp [o2], ?_, o3⟩
    refine ⟨hseg, ?_, ?_, ?_, ?_⟩
    · show (A + k * g.segBytes) / g.byteLanes = _
      unfold SegGeo.byteLanes
      rw [← Nat.div_div_eq_div_mul, Nat.add_mul_div_right _ _ hW]
    · intro j
      show (if k = N - 1 then (if k = 0 then _ else _) &&& _ else (if k = 0 then _ else _) : Nat).testBit j = _
      have hbs : (if k = 0 then (2 ^ g.segBytes - 1) &&& (((2 ^ g.segBytes - 1) <<< (A % g.segBytes)) &&&
          (2 ^ g.segBytes - 1)) else 2 ^ g.segBytes - 1).testBit j =
          decide (start ≤ j ∧ j < g.segBytes) := by
        subst hst
        split
        · rw [Nat.testBit_and, Nat.testBit_and, testBit_laneMask, Nat.testBit_shiftLeft, testBit_laneMask]
          simp only [← Bool.decide_and, decide_eq_decide]
          omega
        · rw [testBit_laneMask]; simp
      by_cases hj : j < g.segBytes
      · by_cases hk : k = N - 1
        · rw [if_pos hk, Nat.testBit_and, hbs, Nat.testBit_shiftRight, testBit_laneMask]
          simp only [← Bool.decide_and, decide_eq_decide]
          have := hin j hj
          have hstop : stop = (A + data.length - 1) % g.segBytes + 1 := by subst hsp; rw [if_pos hk]
          omega
        · rw [if_neg hk, hbs]
          simp only [decide_eq_decide]
          have := hin j hj
          have hstop : stop = g.segBytes := by subst hsp; rw [if_neg hk]
          omega
      · have hf : ∀ P : Prop, [Decidable P] → decide (j < g.segBytes ∧ P) = false := by
          intro P _; simp [hj]
        rw [hf]
        split
        · rw [Nat.testBit_and, hbs]; simp [hj]
        · rw [hbs]; simp [hj]
    · intro j hj h1 h2
      have hj' := (hin j hj).mp ⟨h1, h2⟩
      apply ofNat_toNat_bits
      intro i hi
      show (val >>> (8 * j)).testBit i = _
      rw [Nat.testBit_shiftRight, v2]
      have e1 : (8 * j + i) / 8 = j := by omega
      have e2 : (8 * j + i) % 8 = i := by omega
      have e3 : off + (j - start) = (A / g.segBytes + k) * g.segBytes + j - A := by
        rw [hsplit]; omega
      have e4 : 8 * start ≤ 8 * j + i ∧ 8 * j + i < 8 * (start + (stop - start)) := by omega
      rw [e1, e2, e3]
      simp [e4]
    · show val < 2 ^ (8 * g.segBytes)
      apply Nat.lt_pow_two_of_testBit
      intro i hi
      rw [v2]
      have : ¬ (8 * start ≤ i ∧ i < 8 * (start + (stop - start))) := by omega
      simp [this]

/-- Every write is expanded without an exception, one operation per word. -/
theorem writeOps_spec (g : SegGeo) (A : Nat) (data : List UInt8) (hW : 0 < g.segBytes) :
    ∃ ops, writeOps g A data = some ops ∧ ops.length = segmentsOf g A data.length ∧
      OpsFrom g A data 0 ops :=
  writeLoop_spec g A data hW _ 0 _ _ (by omega) rfl (by omega)

/-! ### One operation at the RAM -/

/-- Whether a run of enabled bytes in progress contains lane `j`. -/
def pendLane (start : Option Nat) (off j : Nat) : Bool :=
  match start with
  | none => false
  | some s => decide (s ≤ j ∧ j < off)

theorem store_slice (m : Mem) (data : List UInt8) (addr s e x : Nat) (hs : s ≤ e)
    (he : e ≤ data.length) : store m (addr + s) (sliceBytes data s e) x =
      if addr + s ≤ x ∧ x < addr + e then data.getD (x - addr) 0 else m x := by
  unfold store sliceBytes
  have hl : ((data.drop s).take (e - s)).length = e - s := by
    rw [List.length_take, List.length_drop]; omega
  rw [hl]
  by_cases h : addr + s ≤ x ∧ x < addr + e
  · rw [if_pos h, if_pos (by omega)]
    simp only [List.getD_eq_getElem?_getD]
    rw [List.getElem?_take_of_lt (by omega), List.getElem?_drop, show s + (x - (addr + s)) = x - addr by omega]
  · rw [if_neg h, if_neg (by omega)]

theorem flushRun (m : Mem) (data : List UInt8) (addr off x : Nat) (start : Option Nat)
    (h1 : ∀ s, start = some s → s ≤ off) (h2 : start ≠ none → off ≤ data.length) :
    (closeRun start off).foldl
      (fun m r => store m (addr + r.1) (sliceBytes data r.1 r.2)) m x =
    if addr ≤ x ∧ pendLane start off (x - addr) = true then data.getD (x - addr) 0 else m x := by
  cases start with
  | none => simp [pendLane, closeRun]
  | some s =>
    have hs := h1 s rfl
    have hl := h2 (by simp)
    simp only [pendLane, closeRun, decide_eq_true_eq]
    split
    · simp only [List.foldl_cons, List.foldl_nil]
      rw [store_slice m data addr s off x hs hl]
      by_cases h : addr + s ≤ x ∧ x < addr + off
      · rw [if_pos h, if_pos (by omega)]
      · rw [if_neg h, if_neg (by omega)]
    · rw [List.foldl_nil, if_neg (by omega)]

theorem ramRuns_spec (be : Nat) (data : List UInt8) (addr x : Nat)
    (hbe : ∀ j, be.testBit j = true → j < data.length) (n off : Nat) (start : Option Nat) (m : Mem)
    (h1 : ∀ s, start = some s → s ≤ off) (h2 : start ≠ none → off ≤ data.length) :
    (ramRuns be n off start).foldl
      (fun m r => store m (addr + r.1) (sliceBytes data r.1 r.2)) m x =
    if addr ≤ x ∧ (pendLane start off (x - addr) || (decide (off ≤ x - addr ∧ x - addr < off + n) &&
      be.testBit (x - addr))) = true then data.getD (x - addr) 0 else m x := by
  have hbit : ∀ o, (be &&& (1 <<< o) ≠ 0) ↔ be.testBit o = true := by
    intro o
    rw [Nat.one_shiftLeft]
    constructor
    · intro h
      apply Classical.byContradiction
      intro hc
      apply h
      apply Nat.eq_of_testBit_eq
      intro i
      rw [Nat.testBit_and, Nat.testBit_two_pow, Nat.zero_testBit]
      by_cases hi : o = i
      · subst hi; simp at hc; simp [hc]
      · simp [hi]
    · intro h hc
      have := congrArg (Nat.testBit · o) hc
      simp [Nat.testBit_and, Nat.testBit_two_pow, h] at this
  induction n generalizing off start m with
  | zero =>
    unfold ramRuns
    rw [flushRun m data addr off x start h1 h2]
    rw [decide_eq_false (show ¬ (off ≤ x - addr ∧ x - addr < off + 0) by omega)]
    simp
  | succ n ih =>
    unfold ramRuns
    by_cases hb : be.testBit off = true
    · rw [if_pos ((hbit off).mpr hb)]
      have hd := hbe off hb
      rw [ih _ _ _ ?_ ?_]
      · have : (pendLane (openRun start off) (off + 1) (x - addr) ||
            (decide (off + 1 ≤ x - addr ∧ x - addr < off + 1 + n) && be.testBit (x - addr))) =
          (pendLane start off (x - addr) || (decide (off ≤ x - addr ∧ x - addr < off + (n + 1)) &&
            be.testBit (x - addr))) := by
          generalize x - addr = j
          by_cases hj : j = off
          · subst hj
            cases start with
            | none => simp [pendLane, openRun, hb]
            | some s => simp [pendLane, openRun, hb, h1 s rfl]
          · have e : decide (off + 1 ≤ j ∧ j < off + 1 + n) = decide (off ≤ j ∧ j < off + (n + 1)) := by
              rw [decide_eq_decide]; omega
            rw [e]
            congr 1
            cases start with
            | none => simp only [pendLane, openRun, decide_eq_false_iff_not]; omega
            | some s => simp only [pendLane, openRun, decide_eq_decide]; omega
        rw [this]
      · intro s hs
        cases start with
        | none => simp [openRun] at hs; omega
        | some s' => have := h1 s' rfl; simp [openRun] at hs; omega
      · intro _; omega
    · rw [if_neg (fun h => hb ((hbit off).mp h)), List.foldl_append]
      rw [ih _ _ _ (by simp) (by simp)]
      have hf := flushRun m data addr off x start h1 h2
      have hb' : be.testBit off = false := by simpa using hb
      by_cases hx : addr ≤ x
      · simp only [hx, true_and, pendLane, Bool.false_or] at hf ⊢
        generalize hj : x - addr = j at *
        have e : (decide (off + 1 ≤ j ∧ j < off + 1 + n) && be.testBit j) =
            (decide (off ≤ j ∧ j < off + (n + 1)) && be.testBit j) := by
          by_cases hj : j = off
          · subst hj; simp [hb']
          · congr 1; rw [decide_eq_decide]; omega
        rw [e, hf]
        cases start with
        | none => simp
        | some s =>
          simp only [Bool.or_eq_true]
          by_cases c1 : (decide (off ≤ j ∧ j < off + (n + 1)) && be.testBit j) = true
          · rw [if_pos c1, if_pos (Or.inr c1)]
          · rw [if_neg c1]
            by_cases c2 : decide (s ≤ j ∧ j < off) = true
            · rw [if_pos c2, if_pos (Or.inl c2)]
            · rw [if_neg c2, if_neg (by rintro (h | h); exact c2 h; exact c1 h)]
      · rw [if_neg (by omega), if_neg (by omega), hf, if_neg (by omega)]

/-- One operation at the RAM writes exactly the enabled bytes of its word. -/
theorem ramWrite_spec (g : SegGeo) (m : Mem) (seg a d be x : Nat) (hS : 0 < g.segCount)
    (hbe : be < 2 ^ g.segBytes) :
    ramWrite g m seg a d be x = if (a * g.segCount + seg) * g.segBytes ≤ x ∧
      be.testBit (x - (a * g.segCount + seg) * g.segBytes) = true then
      UInt8.ofNat ((d >>> (8 * (x - (a * g.segCount + seg) * g.segBytes))) % 256) else m x := by
  have hbl : ∀ j, be.testBit j = true → j < g.segBytes := by
    intro j h
    apply Classical.byContradiction
    intro hc
    have := Nat.pow_le_pow_right (show 0 < 2 by omega) (show g.segBytes ≤ j by omega)
    rw [Nat.testBit_lt_two_pow (by omega)] at h
    exact absurd h (by simp)
  unfold ramWrite
  rw [ramRuns_spec be (segLeBytes g.segBytes d) _ x (by simpa [segLeBytes] using hbl) _ 0 none m
    (by simp) (by simp)]
  generalize (a * g.segCount + seg) * g.segBytes = addr
  simp only [pendLane, Bool.false_or, Nat.zero_le, true_and, Nat.zero_add]
  by_cases h : addr ≤ x ∧ be.testBit (x - addr) = true
  · have hl := hbl _ h.2
    have hBL : x - addr < g.byteLanes := by
      unfold SegGeo.byteLanes
      have := Nat.mul_le_mul_left g.segBytes (show 1 ≤ g.segCount by omega)
      omega
    rw [if_pos h, if_pos (by simp [h.1, h.2, hBL])]
    simp only [segLeBytes, List.getD_eq_getElem?_getD, List.getElem?_map]
    rw [List.getElem?_range hl]
    rfl
  · rw [if_neg h, if_neg]
    intro hc
    apply h
    refine ⟨hc.1, ?_⟩
    have := hc.2
    simp only [Bool.and_eq_true] at this
    exact this.2

theorem opFor_be_lt {g : SegGeo} {A : Nat} {data : List UInt8} {k : Nat} {o : Nat × SegWrite}
    (h : OpFor g A data k o) : o.2.be < 2 ^ g.segBytes := by
  apply Nat.lt_pow_two_of_testBit
  intro i hi
  rw [h.be i]
  simp only [decide_eq_false_iff_not]
  omega

/-- An operation of a command stores the command's bytes that lie in its word. -/
theorem ramWrite_opFor (g : SegGeo) (m : Mem) (A : Nat) (data : List UInt8) (k x : Nat)
    (o : Nat × SegWrite) (hS : 0 < g.segCount) (hW : 0 < g.segBytes) (h : OpFor g A data k o) :
    ramWrite g m o.1 o.2.addr o.2.data o.2.be x =
      if x / g.segBytes = A / g.segBytes + k then store m A data x else m x := by
  rw [ramWrite_spec g m _ _ _ _ x hS (opFor_be_lt h)]
  have hw : o.2.addr * g.segCount + o.1 = A / g.segBytes + k := by
    rw [h.addr, h.seg, Nat.mul_comm]; exact Nat.div_add_mod _ _
  rw [hw]
  have hd := h.data
  have hbe := h.be
  generalize A / g.segBytes + k = w at *
  have hx : g.segBytes * (x / g.segBytes) + x % g.segBytes = x := Nat.div_add_mod _ _
  have hxm := Nat.mod_lt x hW
  by_cases hw2 : x / g.segBytes = w
  · rw [if_pos hw2]
    have hx2 : w * g.segBytes + x % g.segBytes = x := by rw [← hw2, Nat.mul_comm]; exact hx
    have e : x - w * g.segBytes = x % g.segBytes := by omega
    rw [e, hbe]
    have hd' := hd _ hxm
    rw [hx2] at hd' ⊢
    unfold store
    by_cases hin : A ≤ x ∧ x < A + data.length
    · rw [if_pos (by simp [hin, hxm]; omega), if_pos hin, hd' hin.1 hin.2]
    · rw [if_neg (by simp; omega), if_neg hin]
  · rw [if_neg hw2, if_neg]
    intro hc
    apply hw2
    rw [hbe] at hc
    have h2 := hc.2
    simp only [decide_eq_true_eq] at h2
    have : x = (x - w * g.segBytes) + g.segBytes * w := by rw [Nat.mul_comm g.segBytes]; omega
    rw [this, Nat.add_mul_div_left _ _ hW, Nat.div_eq_of_lt h2.1]; omega

end Verif.Proofs
