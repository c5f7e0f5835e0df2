import Verif.Proofs.Config
import Verif.Proofs.Region
import Verif.Proofs.MemWrite
import Verif.Model.Bar
/-! Helper lemmas for C18 and C19. -/
namespace Verif.Proofs
open Verif Verif.Model Verif.Spec

/-- `2^32 - 2^k` as a bit mask. -/
theorem mask_eq (n k : Nat) (h : k ≤ n) : 2 ^ n - 2 ^ k = (2 ^ (n - k) - 1) <<< k := by
  rw [Nat.shiftLeft_eq, Nat.sub_mul, Nat.one_mul, ← Nat.pow_add]
  have : n - k + k = n := by omega
  rw [this]

theorem testBit_mask (n k i : Nat) (h : k ≤ n) :
    (2 ^ n - 2 ^ k).testBit i = (decide (k ≤ i) && decide (i < n)) := by
  rw [mask_eq n k h, testBit_two_pow_sub_one_shift]
  have : k + (n - k) = n := by omega
  rw [this]

theorem and_mask (x n k : Nat) (h : k ≤ n) (hx : x < 2 ^ n) : x &&& (2 ^ n - 2 ^ k) = x / 2 ^ k * 2 ^ k := by
  rw [mask_eq n k h, and_field]
  rw [Nat.mod_eq_of_lt]
  rw [Nat.div_lt_iff_lt_mul (Nat.two_pow_pos k), ← Nat.pow_add]
  have : n - k + k = n := by omega
  rw [this]; exact hx

theorem andNot_mask' (x n k : Nat) (h : k ≤ n) (hx : x < 2 ^ n) : andNot x (2 ^ n - 2 ^ k) = x % 2 ^ k := by
  apply Nat.eq_of_testBit_eq
  intro i
  rw [testBit_andNot, testBit_mask n k i h, Nat.testBit_mod_two_pow]
  by_cases h1 : i < n
  · by_cases h2 : k ≤ i
    · have : ¬ i < k := by omega
      simp [h1, h2, this]
    · have : i < k := by omega
      simp [h1, h2, this]
  · have : x.testBit i = false :=
      Nat.testBit_lt_two_pow (Nat.lt_of_lt_of_le hx (Nat.pow_le_pow_right (by decide) (by omega)))
    simp [this]

theorem base_flags (k base f : Nat) (hb : 2 ^ k ∣ base) (hf : f < 2 ^ k) : (base + f) / 2 ^ k * 2 ^ k = base := by
  obtain ⟨c, rfl⟩ := hb
  rw [Nat.mul_add_div (Nat.two_pow_pos k), Nat.div_eq_of_lt hf, Nat.add_zero, Nat.mul_comm]

/-- An address hits an aligned window iff it agrees with the base above the window size. -/
theorem hit_iff (k base addr : Nat) (hb : 2 ^ k ∣ base) :
    addr / 2 ^ k * 2 ^ k = base ↔ base ≤ addr ∧ addr < base + 2 ^ k := by
  obtain ⟨c, rfl⟩ := hb
  have hp := Nat.two_pow_pos k
  have hd := Nat.div_add_mod addr (2 ^ k)
  have hm := Nat.mod_lt addr hp
  rw [Nat.mul_comm (addr / 2 ^ k)]
  constructor
  · intro h; rw [← h]; omega
  · rintro ⟨h1, h2⟩
    have : addr / 2 ^ k = c := by
      rw [Nat.div_eq_iff hp]
      have e : c * 2 ^ k = 2 ^ k * c := Nat.mul_comm _ _
      omega
    rw [this]

theorem hit_offset (k base addr : Nat) (h : addr / 2 ^ k * 2 ^ k = base) : addr % 2 ^ k = addr - base := by
  have hd := Nat.div_add_mod addr (2 ^ k)
  rw [Nat.mul_comm] at hd
  omega

theorem and_1_ne (x : Nat) : (x &&& 1 ≠ 0) ↔ x % 2 = 1 := by rw [and_1]; omega
theorem and_4_ne (x : Nat) : (x &&& 4 ≠ 0) ↔ x / 4 % 2 = 1 := by rw [and_4]; omega

theorem dvd4_of (k base : Nat) (hk : 2 ≤ k) (hb : 2 ^ k ∣ base) : 4 ∣ base :=
  Nat.dvd_trans (Nat.pow_dvd_pow 2 hk) hb

theorem dvd16_of (k base : Nat) (hk : 4 ≤ k) (hb : 2 ^ k ∣ base) : 16 ∣ base :=
  Nat.dvd_trans (Nat.pow_dvd_pow 2 hk) hb

theorem le_base_top (n k base : Nat) (hkn : k ≤ n) (hb : 2 ^ k ∣ base) (h : base < 2 ^ n) : base + 2 ^ k ≤ 2 ^ n := by
  obtain ⟨c, rfl⟩ := hb
  have e : 2 ^ n = 2 ^ k * 2 ^ (n - k) := by rw [← Nat.pow_add]; congr 1; omega
  rw [e] at h ⊢
  have : c < 2 ^ (n - k) := Nat.lt_of_mul_lt_mul_left h
  calc 2 ^ k * c + 2 ^ k = 2 ^ k * (c + 1) := by rw [Nat.mul_add, Nat.mul_one]
    _ ≤ 2 ^ k * 2 ^ (n - k) := Nat.mul_le_mul_left _ this

theorem pow4 {k : Nat} (hk : 4 ≤ k) : 16 ≤ 2 ^ k := Nat.pow_le_pow_right (n := 2) (i := 4) (by decide) hk
theorem pow2 {k : Nat} (hk : 2 ≤ k) : 4 ≤ 2 ^ k := Nat.pow_le_pow_right (n := 2) (i := 2) (by decide) hk

theorem mask_ne_zero (k : Nat) (hk : k < 32) : 2 ^ 32 - 2 ^ k ≠ 0 := by
  have : 2 ^ k < 2 ^ 32 := Nat.pow_lt_pow_right (by decide) hk
  omega

/-- `match_bar` finds exactly the windows containing the address. -/
theorem matchBar_spec (addr : Nat) (io : Bool) : ∀ (ds : List BarDesc) (idx : Nat),
    (∀ d ∈ ds, d.Valid) → addr < 2 ^ 64 →
    (addr < 2 ^ 32 ∨ ∀ d ∈ ds, ∀ k b p, d ≠ .mem32 k b p ∧ d ≠ .io k b) →
    matchBar addr io idx (ds.flatMap BarDesc.values) (ds.flatMap BarDesc.masks) = some (barHits addr io idx ds)
  | [], idx, _, _, _ => by rw [List.flatMap_nil, List.flatMap_nil]; unfold matchBar; rfl
  | d :: ds, idx, hv, ha64, ha => by
    have ih := fun idx => matchBar_spec addr io ds idx (fun x hx => hv x (List.mem_cons_of_mem _ hx)) ha64
      (ha.imp id fun h x hx => h x (List.mem_cons_of_mem _ hx))
    have hd := hv d List.mem_cons_self
    rw [List.flatMap_cons, List.flatMap_cons]
    cases d with
    | unused =>
      simp only [BarDesc.values, BarDesc.masks, List.cons_append, List.nil_append]
      unfold matchBar
      rw [if_pos rfl, ih]
      cases io <;> simp [barHits, BarDesc.window, BarDesc.values]
    | io k base =>
      obtain ⟨h1, h2, h3, h4⟩ := hd
      have ha32 : addr < 2 ^ 32 := by
        rcases ha with ha | ha
        · exact ha
        · exact absurd rfl (ha _ List.mem_cons_self k base true).2
      have h5 := le_base_top 32 k base (by omega) h3 h4
      have h6 := dvd4_of k base h1 h3
      have h7 := pow2 h1
      simp only [BarDesc.values, BarDesc.masks, List.cons_append, List.nil_append]
      unfold matchBar
      rw [if_neg (mask_ne_zero k h2), if_pos ((and_1_ne _).2 (by omega)), ih,
        and_mask _ 32 k (by omega) ha32, and_mask _ 32 k (by omega) (by omega : base + 1 < 2 ^ 32),
        base_flags k base 1 h3 (by omega), andNot_mask' _ 32 k (by omega) ha32]
      simp only [Option.bind_eq_bind, Option.bind_some, hit_iff k base addr h3, barHits, BarDesc.values,
        List.length_cons, List.length_nil]
      cases io with
      | false => simp [BarDesc.window]
      | true =>
        simp only [BarDesc.window, true_and]
        by_cases hh : base ≤ addr ∧ addr < base + 2 ^ k
        · rw [if_pos hh, if_pos hh, hit_offset k base addr ((hit_iff k base addr h3).2 hh)]; rfl
        · rw [if_neg hh, if_neg hh]; rfl
    | mem32 k base pf =>
      obtain ⟨h1, h2, h3, h4⟩ := hd
      have ha32 : addr < 2 ^ 32 := by
        rcases ha with ha | ha
        · exact ha
        · exact absurd rfl (ha _ List.mem_cons_self k base pf).1
      have h5 := le_base_top 32 k base (by omega) h3 h4
      have h6 := dvd16_of k base h1 h3
      have h7 := pow4 h1
      have hf : (if pf then 8 else 0) = 8 ∨ (if pf then 8 else 0) = 0 := by cases pf <;> simp
      generalize hfe : (if pf then 8 else 0) = f at hf
      simp only [BarDesc.values, BarDesc.masks, List.cons_append, List.nil_append, hfe]
      unfold matchBar
      rw [if_neg (mask_ne_zero k h2), if_neg (by rw [and_1_ne]; omega),
        if_neg (by rw [and_4_ne]; omega), ih,
        and_mask _ 32 k (by omega) ha32, and_mask _ 32 k (by omega) (by omega : base + f < 2 ^ 32),
        base_flags k base f h3 (by omega), andNot_mask' _ 32 k (by omega) ha32]
      simp only [Option.bind_eq_bind, Option.bind_some, hit_iff k base addr h3, barHits, BarDesc.values,
        List.length_cons, List.length_nil]
      cases io with
      | true => simp [BarDesc.window]
      | false =>
        simp only [BarDesc.window, Bool.false_eq_true, not_false_eq_true, true_and]
        by_cases hh : base ≤ addr ∧ addr < base + 2 ^ k
        · rw [if_pos hh, if_pos hh, hit_offset k base addr ((hit_iff k base addr h3).2 hh)]; rfl
        · rw [if_neg hh, if_neg hh]; rfl
    | mem64 k base pf =>
      obtain ⟨h1, h2, h3, h4⟩ := hd
      have h5 := le_base_top 64 k base (by omega) h3 h4
      have h6 := dvd16_of k base h1 h3
      have h7 := pow4 h1
      have hf : (if pf then 8 else 0) = 8 ∨ (if pf then 8 else 0) = 0 := by cases pf <;> simp
      generalize hfe : (if pf then 8 else 0) = f at hf
      simp only [BarDesc.values, BarDesc.masks, List.cons_append, List.nil_append, hfe]
      have hlow : base % 2 ^ 32 + 4 + f < 2 ^ 32 := by
        have : 16 ∣ base % 2 ^ 32 := (Nat.dvd_mod_iff (by decide)).2 h6
        omega
      have hval : (base % 2 ^ 32 + 4 + f) ||| ((base / 2 ^ 32) <<< 32) = base + (4 + f) := by
        rw [or_shift _ _ 32 hlow]; omega
      have hmask : (2 ^ 32 - 2 ^ k) ||| ((2 ^ 32 - 1) <<< 32) = 2 ^ 64 - 2 ^ k := by
        apply Nat.eq_of_testBit_eq
        intro i
        rw [Nat.testBit_or, testBit_mask 32 k i (by omega), testBit_mask 64 k i (by omega),
          testBit_two_pow_sub_one_shift]
        by_cases j1 : i < 32
        · have e1 : i < 64 := by omega
          have e2 : ¬ 32 ≤ i := by omega
          simp [j1, e1, e2]
        · have e2 : 32 ≤ i := by omega
          have e3 : k ≤ i := by omega
          simp [j1, e2, e3]
      unfold matchBar
      rw [if_neg (mask_ne_zero k h2), if_neg (by rw [and_1_ne]; omega),
        if_pos (by rw [and_4_ne]; omega)]
      simp only []
      rw [ih, hval, hmask, and_mask _ 64 k (by omega) ha64,
        and_mask _ 64 k (by omega) (by omega : base + (4 + f) < 2 ^ 64),
        base_flags k base (4 + f) h3 (by omega), andNot_mask' _ 64 k (by omega) ha64]
      simp only [Option.bind_eq_bind, Option.bind_some, hit_iff k base addr h3, barHits, BarDesc.values,
        List.length_cons, List.length_nil]
      cases io with
      | true => simp [BarDesc.window]
      | false =>
        simp only [BarDesc.window, Bool.false_eq_true, not_false_eq_true, true_and]
        by_cases hh : base ≤ addr ∧ addr < base + 2 ^ k
        · rw [if_pos hh, if_pos hh, hit_offset k base addr ((hit_iff k base addr h3).2 hh)]; rfl
        · rw [if_neg hh, if_neg hh]; rfl

/-! ### Sizing -/

/-- Writable bits of a BAR: the address bits from the window size up, but at least from bit `a`. -/
theorem bar_mask_eq (a j : Nat) (ha : a ≤ 32) (hj : j ≤ 32) :
    andNot (2 ^ 32 - 2 ^ a) (2 ^ j - 1) = 2 ^ 32 - 2 ^ (max a j) := by
  apply Nat.eq_of_testBit_eq
  intro i
  rw [testBit_andNot, testBit_mask 32 a i ha, testBit_mask 32 (max a j) i (by omega), Nat.testBit_two_pow_sub_one]
  by_cases h1 : a ≤ i
  · by_cases h2 : i < j
    · have : ¬ max a j ≤ i := by omega
      simp [h1, h2, this]
    · have : max a j ≤ i := by omega
      simp [h1, h2, this]
  · have : ¬ max a j ≤ i := by omega
    simp [h1, this]

theorem hi_mask_eq (j : Nat) (hj : j ≤ 64) : andNot 0xffffffff ((2 ^ j - 1) >>> 32) = 2 ^ 32 - 2 ^ (j - 32) := by
  apply Nat.eq_of_testBit_eq
  intro i
  rw [testBit_andNot, testBit_ffffffff, Nat.testBit_shiftRight, Nat.testBit_two_pow_sub_one,
    testBit_mask 32 (j - 32) i (by omega)]
  by_cases h1 : j - 32 ≤ i
  · have : ¬ 32 + i < j := by omega
    simp [h1, this]
  · have : 32 + i < j := by omega
    simp [h1, this]

/-- Writing a full DWORD to a BAR. -/
theorem bmu_full (old data m : Nat) (ho : old < 2 ^ 32) (hd : data < 2 ^ 32) :
    byteMaskUpdate old 0xf data (some m) = (data &&& m) ||| andNot old m := by
  apply Nat.eq_of_testBit_eq
  intro i
  rw [testBit_bmu_some, Nat.testBit_or, Nat.testBit_and, testBit_andNot]
  have hf : Nat.testBit 0xf (i / 8) = decide (i / 8 < 4) := by
    rw [show (0xf : Nat) = 2 ^ 4 - 1 from rfl, Nat.testBit_two_pow_sub_one]
  rw [hf]
  by_cases h : i < 32
  · have : i / 8 < 4 := by omega
    by_cases hm : m.testBit i = true <;> simp [this, hm]
  · have h1 : old.testBit i = false :=
      Nat.testBit_lt_two_pow (Nat.lt_of_lt_of_le ho (Nat.pow_le_pow_right (by decide) (by omega)))
    have h2 : data.testBit i = false :=
      Nat.testBit_lt_two_pow (Nat.lt_of_lt_of_le hd (Nat.pow_le_pow_right (by decide) (by omega)))
    have : ¬ i / 8 < 4 := by omega
    simp [h1, h2]

/-- The register after writing `data` to a BAR with type bits `f`. -/
theorem bar_written (k f data : Nat) (hk : k ≤ 32) (hf : f < 2 ^ k) (hf32 : f < 2 ^ 32) (hd : data < 2 ^ 32) :
    byteMaskUpdate f 0xf data (some (2 ^ 32 - 2 ^ k)) = data / 2 ^ k * 2 ^ k + f := by
  rw [bmu_full f data _ hf32 hd, and_mask data 32 k hk hd, andNot_mask' f 32 k hk hf32,
    Nat.mod_eq_of_lt hf, ← Nat.shiftLeft_eq, shift_or f _ k hf, Nat.shiftLeft_eq]
  omega

theorem ceilLog2_pow (k : Nat) : ceilLog2 (2 ^ k) = k := by
  have h := ceilLog2_spec (2 ^ k)
  have h1 := h.2 k (Nat.le_refl _)
  have h2 := h.1
  have := (Nat.pow_le_pow_iff_right (a := 2) (by decide)).1 h2
  omega

/-! ### MSI -/

/-- An aligned DWORD is written by one TLP. -/
theorem memWrite_dword (id : PcieId) (mps attr tc addr : Nat) (data : List UInt8) (ha : addr % 4 = 0)
    (hl : data.length = 4) (ts : List Tlp) (h : memWriteLoop id mps attr tc addr data = some ts) :
    ts.length = 1 := by
  have hc : chunkLen addr data.length mps = 4 := by
    obtain ⟨h1, h2, h3⟩ := chunkLen_bounds addr data.length mps
    have hp := Nat.two_pow_pos mps
    have hf : firstPad addr = 0 := by unfold firstPad; exact ha
    unfold chunkLen
    rw [hl, hf, Nat.shiftLeft_eq, and_4095]
    omega
  unfold memWriteLoop at h
  rw [dif_pos (by omega)] at h
  simp only [hc, Option.bind_eq_bind] at h
  rw [Option.bind_eq_some_iff] at h
  obtain ⟨t, _, h⟩ := h
  split at h
  · rw [Option.bind_eq_some_iff] at h
    obtain ⟨rest, h1, h2⟩ := h
    unfold memWriteLoop at h1
    rw [dif_neg (by simp [hl])] at h1
    cases h1; cases h2; rfl
  · cases h

/-- Values the MSI registers can hold. -/
structure MsiWf (s : MsiState) : Prop where
  addr : s.message_address % 4 = 0
  data : s.message_data < 2 ^ 16
  mme : s.multiple_message_enable < 8

theorem msiWf_write (s : MsiState) (h : MsiWf s) (reg data mask : Nat) : MsiWf (writeMsiCap s reg data mask) := by
  have ha : ∀ x, (x &&& 0xfffffffffffffffc) % 4 = 0 := by
    intro x
    rw [show (0xfffffffffffffffc : Nat) = (2 ^ 62 - 1) <<< 2 from rfl, and_field]
    omega
  have hd : ∀ x : Nat, x &&& 0xffff < 2 ^ 16 := fun x => Nat.and_lt_two_pow x (by decide)
  unfold writeMsiCap
  split
  · refine ⟨h.addr, h.data, ?_⟩
    show (if _ then _ else _) < 8
    split
    · exact Nat.and_lt_two_pow (n := 3) _ (by decide)
    · exact h.mme
  split
  · exact ⟨ha _, h.data, h.mme⟩
  split
  · exact ⟨ha _, h.data, h.mme⟩
  generalize (if s.addr64_capable then 3 else 2) = a
  generalize (if s.addr64_capable then 4 else 3) = b
  split
  · exact ⟨h.addr, hd _, h.mme⟩
  split
  · exact ⟨h.addr, h.data, h.mme⟩
  · exact h

theorem msi_value (d m n : Nat) (hn : n < 2 ^ m) : andNot d (2 ^ m - 1) ||| n = d / 2 ^ m * 2 ^ m + n := by
  rw [andNot_mask, ← Nat.shiftLeft_eq, shift_or n _ m hn, Nat.shiftLeft_eq]
  omega

theorem msi_value_lt (d m n : Nat) (hn : n < 2 ^ m) (hm : m < 8) (hd : d < 2 ^ 16) :
    d / 2 ^ m * 2 ^ m + n < 2 ^ 32 := by
  have h1 : d / 2 ^ m * 2 ^ m ≤ d := Nat.div_mul_le_self _ _
  have h2 : 2 ^ m ≤ 2 ^ 7 := Nat.pow_le_pow_right (by decide) (by omega)
  omega

/-! ### BAR registers -/

theorem writeConfig_bar (s : ConfigState) (i data : Nat) (hi : i < 6) :
    writeConfig s (4 + i) data 0xf = some { s with
      bar := s.bar.set i (byteMaskUpdate (s.bar.getD i 0) 0xf data (some (s.bar_mask.getD i 0))) } := by
  unfold writeConfig
  rw [if_pos (by omega)]
  have e : 4 + i - 4 = i := by omega
  rw [e]

theorem readConfig_bar (s : ConfigState) (i : Nat) (hi : i < 6) :
    readConfig s (4 + i) = some (s.bar.getD i 0) := by
  unfold readConfig
  rw [if_pos (by omega)]
  have e : 4 + i - 4 = i := by omega
  rw [e]

theorem getD_set_self (l : List Nat) (i x : Nat) (h : i < l.length) : (l.set i x).getD i 0 = x := by
  simp [List.getD_eq_getElem?_getD, List.getElem?_set_self h]

theorem configure_mem32 (bar mask : List Nat) (i size : Nat) (hb : i < bar.length) (h0 : 0 < size)
    (hs : size ≤ 2 ^ 32) (pf : Bool) :
    configureBar bar mask i size false pf false =
      some (bar.set i (if pf then 8 else 0), mask.set i (2 ^ 32 - 2 ^ max 4 (ceilLog2 size))) := by
  have hc := (ceilLog2_spec size).2 32 hs
  have hmask : andNot 0xfffffff0 (2 ^ ceilLog2 size - 1) = 2 ^ 32 - 2 ^ max 4 (ceilLog2 size) := by
    rw [show (0xfffffff0 : Nat) = 2 ^ 32 - 2 ^ 4 from rfl, bar_mask_eq 4 _ (by decide) hc]
  unfold configureBar
  rw [if_neg (by omega)]
  simp only [Bool.false_eq_true, false_and, or_false, if_false]
  rw [if_neg (by omega), hmask]
  cases pf with
  | false => simp
  | true => simp only [if_true, getD_set_self _ _ _ hb, List.set_set]; rfl

theorem configure_io (bar mask : List Nat) (i size : Nat) (hb : i < bar.length) (h0 : 0 < size)
    (hs : size ≤ 2 ^ 32) (pf : Bool) :
    configureBar bar mask i size false pf true =
      some (bar.set i 1, mask.set i (2 ^ 32 - 2 ^ max 2 (ceilLog2 size))) := by
  have hc := (ceilLog2_spec size).2 32 hs
  have hmask : andNot 0xfffffffc (2 ^ ceilLog2 size - 1) = 2 ^ 32 - 2 ^ max 2 (ceilLog2 size) := by
    rw [show (0xfffffffc : Nat) = 2 ^ 32 - 2 ^ 2 from rfl, bar_mask_eq 2 _ (by decide) hc]
  unfold configureBar
  rw [if_neg (by omega)]
  simp only [Bool.false_eq_true, false_and, or_false]
  rw [if_neg (by omega), hmask, if_pos trivial]

theorem lo_mask_eq (j : Nat) : andNot 0xfffffff0 (2 ^ j - 1) = 2 ^ 32 - 2 ^ min 32 (max 4 j) := by
  by_cases h : j ≤ 32
  · rw [show (0xfffffff0 : Nat) = 2 ^ 32 - 2 ^ 4 from rfl, bar_mask_eq 4 _ (by decide) h]
    congr 2; omega
  · have : min 32 (max 4 j) = 32 := by omega
    rw [this]
    apply Nat.eq_of_testBit_eq
    intro i
    rw [testBit_andNot, show (0xfffffff0 : Nat) = 2 ^ 32 - 2 ^ 4 from rfl, testBit_mask 32 4 i (by decide),
      Nat.testBit_two_pow_sub_one]
    by_cases hi : i < 32
    · have : i < j := by omega
      simp [this]
    · simp [hi]

theorem configure_mem64 (bar mask : List Nat) (i size : Nat) (hb : i + 1 < bar.length) (h0 : 0 < size)
    (hs : size ≤ 2 ^ 64) (pf : Bool) :
    configureBar bar mask i size true pf false =
      some ((bar.set i (4 + if pf then 8 else 0)).set (i + 1) 0,
        (mask.set i (2 ^ 32 - 2 ^ min 32 (max 4 (ceilLog2 size)))).set (i + 1) (2 ^ 32 - 2 ^ (ceilLog2 size - 32))) := by
  have hc := (ceilLog2_spec size).2 64 hs
  unfold configureBar
  rw [if_neg (by omega)]
  simp only [Bool.false_eq_true, true_and, if_false, if_true]
  rw [if_neg (by omega), hi_mask_eq _ hc, lo_mask_eq, getD_set_self _ _ _ (by omega)]
  have e0 : (0 : Nat) ||| 4 = 4 := rfl
  rw [List.set_set, e0]
  cases pf with
  | false => simp
  | true =>
    simp only [if_true]
    have e1 : ((bar.set i 4).set (i + 1) 0).getD i 0 = 4 := by
      simp [List.getD_eq_getElem?_getD, List.getElem?_set, (by omega : i < bar.length)]
    rw [e1]
    have e2 : ((bar.set i 4).set (i + 1) 0).set i (4 ||| 8) = (bar.set i (4 + 8)).set (i + 1) 0 := by
      rw [List.set_comm _ _ (by omega : i + 1 ≠ i), List.set_set]; rfl
    rw [e2]

theorem ones_masked (k : Nat) (hk : k ≤ 32) : 0xffffffff / 2 ^ k * 2 ^ k = 2 ^ 32 - 2 ^ k := by
  rw [← and_mask 0xffffffff 32 _ hk (by decide), Nat.and_comm]
  have := Nat.two_pow_pos k
  exact Nat.and_two_pow_sub_one_of_lt_two_pow (n := 32) (by omega)

end Verif.Proofs
