import Verif.Proofs.Config
import Verif.Proofs.Bar
import Verif.Model.Bridge
/-! Helper lemmas for the type 1 configuration header. -/
namespace Verif.Proofs
open Verif Verif.Model Verif.Spec

/-- Widths of the registers of a bridge, and the granularity of its windows: 4 KiB for I/O, 1 MiB
for memory. -/
structure BridgeWf (b : Bridge) : Prop where
  pri : b.pri_bus_num < 256
  sec : b.sec_bus_num < 256
  sub : b.sub_bus_num < 256
  lat : b.sec_lat_timer < 256
  io_base : b.io_base < 2 ^ 32 ∧ ∀ i, i < 12 → b.io_base.testBit i = false
  io_limit : b.io_limit < 2 ^ 32 ∧ ∀ i, i < 12 → b.io_limit.testBit i = true
  mem_base : b.mem_base < 2 ^ 32 ∧ ∀ i, i < 20 → b.mem_base.testBit i = false
  mem_limit : b.mem_limit < 2 ^ 32 ∧ ∀ i, i < 20 → b.mem_limit.testBit i = true
  pref_base : b.prefetchable_mem_base < 2 ^ 64 ∧ ∀ i, i < 20 → b.prefetchable_mem_base.testBit i = false
  pref_limit : b.prefetchable_mem_limit < 2 ^ 64 ∧ ∀ i, i < 20 → b.prefetchable_mem_limit.testBit i = true
  status : b.sec_status < 2 ^ 16
  bars : b.fn.bar.length = 2

theorem lane_hi (mask k : Nat) (hm : mask < 16) (hk : 4 ≤ k) : mask.testBit k = false := by
  apply Nat.testBit_lt_two_pow
  exact Nat.lt_of_lt_of_le hm (Nat.pow_le_pow_right (n := 2) (i := 4) (by decide) hk)

theorem bmu_lt (x mask new n : Nat) (hx : x < 2 ^ n) (hm : ∀ i, n ≤ i → mask.testBit (i / 8) = false) (bm : BitMask) :
    byteMaskUpdate x mask new bm < 2 ^ n := by
  apply Nat.lt_pow_two_of_testBit
  intro i hi
  rw [testBit_bmu, hm i hi]
  simp [Nat.testBit_lt_two_pow (Nat.lt_of_lt_of_le hx (Nat.pow_le_pow_right (by decide) hi))]

theorem or_lt (x y n : Nat) (hx : x < 2 ^ n) (hy : y < 2 ^ n) : x ||| y < 2 ^ n := Nat.or_lt_two_pow hx hy

theorem lit_testBit_hi (c n i : Nat) (h : c < 2 ^ n) (hi : n ≤ i) : c.testBit i = false :=
  Nat.testBit_lt_two_pow (Nat.lt_of_lt_of_le h (Nat.pow_le_pow_right (by decide) hi))

/-- Equality of two values masked by a 32-bit constant, bit by bit. -/
theorem and_eq_of_bits (x y c : Nat) (hc : c < 2 ^ 32)
    (h : ∀ i, i < 32 → (x &&& c).testBit i = (y &&& c).testBit i) : x &&& c = y &&& c := by
  apply Nat.eq_of_testBit_eq
  intro i
  by_cases hi : i < 32
  · exact h i hi
  · rw [Nat.testBit_and, Nat.testBit_and, lit_testBit_hi c 32 i hc (by omega)]; simp

macro "bitsimp" : tactic => `(tactic|
  simp only [Nat.testBit_or, Nat.testBit_and, Nat.testBit_shiftLeft, Nat.testBit_shiftRight, testBit_bmu_none,
    testBit_bmu_some])

theorem f7_limit (x mask data : Nat) :
    (byteMaskUpdate x (mask &&& 2) data (some 0xf000) ||| 0xfff) &&& 0xffff0000 = x &&& 0xffff0000 := by
  apply and_eq_of_bits _ _ _ (by decide)
  intro i hi
  bitsimp
  bits32 hi <;> simp [-Nat.testBit_zero]

theorem f7_base (x mask data : Nat) :
    byteMaskUpdate x ((mask &&& 1) <<< 1) (data <<< 8) (some 0xf000) &&& 0xffff0000 = x &&& 0xffff0000 := by
  apply and_eq_of_bits _ _ _ (by decide)
  intro i hi
  bitsimp
  bits32 hi <;> simp [-Nat.testBit_zero]

theorem f12_limit (x mask data : Nat) :
    byteMaskUpdate x (mask &&& 0xc) data &&& 0xf000 = x &&& 0xf000 := by
  apply and_eq_of_bits _ _ _ (by decide)
  intro i hi
  bitsimp
  bits32 hi <;> simp [-Nat.testBit_zero]

theorem f12_base (x mask data : Nat) :
    byteMaskUpdate x ((mask &&& 3) <<< 2) (data <<< 16) &&& 0xf000 = x &&& 0xf000 := by
  apply and_eq_of_bits _ _ _ (by decide)
  intro i hi
  bitsimp
  bits32 hi <;> simp [-Nat.testBit_zero]

theorem f10 (x mask data : Nat) :
    byteMaskUpdate x (mask <<< 4) (data <<< 32) &&& 0xfff00000 = x &&& 0xfff00000 := by
  apply and_eq_of_bits _ _ _ (by decide)
  intro i hi
  bitsimp
  bits32 hi <;> simp [-Nat.testBit_zero]

theorem f9_base (x mask data : Nat) :
    byteMaskUpdate x ((mask &&& 3) <<< 2) (data <<< 16) (some 0xfff00000) >>> 32 = x >>> 32 := by
  apply Nat.eq_of_testBit_eq
  intro i
  bitsimp
  rw [lit_testBit_hi 0xfff00000 32 (32 + i) (by decide) (by omega)]
  simp

theorem f9_limit (x mask data : Nat) :
    (byteMaskUpdate x (mask &&& 0xc) data (some 0xfff00000) ||| 0xfffff) >>> 32 = x >>> 32 := by
  apply Nat.eq_of_testBit_eq
  intro i
  bitsimp
  rw [lit_testBit_hi 0xfff00000 32 (32 + i) (by decide) (by omega), lit_testBit_hi 0xfffff 32 (32 + i) (by decide) (by omega)]
  simp

theorem reg6_bit (b : Bridge) (h : BridgeWf b) (bm : List Nat) (data mask i : Nat) (hi : i < 32) :
    (((byteMaskUpdate b.sec_lat_timer ((mask >>> 3) &&& 1) (data >>> 24)) <<< 24) |||
      ((byteMaskUpdate b.sub_bus_num ((mask >>> 2) &&& 1) (data >>> 16)) <<< 16) |||
      ((byteMaskUpdate b.sec_bus_num ((mask >>> 1) &&& 1) (data >>> 8)) <<< 8) |||
      byteMaskUpdate b.pri_bus_num (mask &&& 1) data).testBit i =
      writtenBit (bridgeAttr bm 6)
        ((b.sec_lat_timer <<< 24) ||| (b.sub_bus_num <<< 16) ||| (b.sec_bus_num <<< 8) ||| b.pri_bus_num) data mask i := by
  have a1 := bmu_byte_lt b.pri_bus_num (mask &&& 1) data h.pri (and1_and1 _)
  have a2 := bmu_byte_lt b.sec_bus_num ((mask >>> 1) &&& 1) (data >>> 8) h.sec (and1_and1 _)
  have a3 := bmu_byte_lt b.sub_bus_num ((mask >>> 2) &&& 1) (data >>> 16) h.sub (and1_and1 _)
  have b1 := h.pri
  have b2 := h.sec
  have b3 := h.sub
  unfold writtenBit bridgeAttr
  simp only [Nat.testBit_or, Nat.testBit_shiftLeft]
  by_cases h1 : i < 8
  · bitsimp
    bits32 hi <;> simp [-Nat.testBit_zero] at h1 ⊢ <;> (try split) <;> simp_all [-Nat.testBit_zero]
  rw [testBit_of_lt_256 a1 (by omega), testBit_of_lt_256 b1 (by omega)]
  by_cases h2 : i < 16
  · bitsimp
    bits32 hi <;> simp [-Nat.testBit_zero] at h1 h2 ⊢ <;> (try split) <;> simp_all [-Nat.testBit_zero]
  rw [testBit_of_lt_256 a2 (by omega), testBit_of_lt_256 b2 (by omega)]
  by_cases h3 : i < 24
  · bitsimp
    bits32 hi <;> simp [-Nat.testBit_zero] at h2 h3 ⊢ <;> (try split) <;> simp_all [-Nat.testBit_zero]
  rw [testBit_of_lt_256 a3 (by omega), testBit_of_lt_256 b3 (by omega)]
  bitsimp
  bits32 hi <;> simp [-Nat.testBit_zero] at h3 ⊢ <;> (try split) <;> simp_all [-Nat.testBit_zero]

theorem reg7_bit (b : Bridge) (bm : List Nat) (st data mask i : Nat) (hi : i < 16) :
    ((st <<< 16) |||
      ((byteMaskUpdate b.io_limit (mask &&& 2) data (some 0xf000) ||| 0xfff) &&& 0xf000) |||
      ((byteMaskUpdate b.io_base ((mask &&& 1) <<< 1) (data <<< 8) (some 0xf000) &&& 0xf000) >>> 8)).testBit i =
      writtenBit (bridgeAttr bm 7)
        ((b.sec_status <<< 16) ||| (b.io_limit &&& 0xf000) ||| ((b.io_base &&& 0xf000) >>> 8)) data mask i := by
  have hi' : i < 32 := by omega
  unfold writtenBit bridgeAttr
  bitsimp
  bits32 hi' <;> simp [-Nat.testBit_zero] at hi ⊢ <;> (try split) <;> simp_all [-Nat.testBit_zero]

theorem reg8_bit (base limit data mask i : Nat) (hi : i < 32) (a : RegAttr) (ha : a = { rw := 0xfff0fff0 }) :
    (((byteMaskUpdate limit (mask &&& 0xc) data (some 0xfff00000) ||| 0xfffff) &&& 0xfff00000) |||
      ((byteMaskUpdate base ((mask &&& 3) <<< 2) (data <<< 16) (some 0xfff00000) &&& 0xfff00000) >>> 16)).testBit i =
      writtenBit a ((limit &&& 0xfff00000) ||| ((base &&& 0xfff00000) >>> 16)) data mask i := by
  subst ha
  unfold writtenBit
  bitsimp
  bits32 hi <;> simp [-Nat.testBit_zero] <;> (try split) <;> simp_all [-Nat.testBit_zero]

theorem reg10_bit (x data mask i : Nat) (hi : i < 32) (a : RegAttr) (ha : a = { rw := 0xffffffff }) :
    (byteMaskUpdate x (mask <<< 4) (data <<< 32) >>> 32).testBit i = writtenBit a (x >>> 32) data mask i := by
  subst ha
  unfold writtenBit
  bitsimp
  bits32 hi <;> simp [-Nat.testBit_zero]

theorem reg12b_bit (base limit data mask i : Nat) (hi : i < 32) (bm : List Nat) :
    ((byteMaskUpdate limit (mask &&& 0xc) data &&& 0xffff0000) |||
      ((byteMaskUpdate base ((mask &&& 3) <<< 2) (data <<< 16) &&& 0xffff0000) >>> 16)).testBit i =
      writtenBit (bridgeAttr bm 12) ((limit &&& 0xffff0000) ||| ((base &&& 0xffff0000) >>> 16)) data mask i := by
  unfold writtenBit bridgeAttr
  bitsimp
  bits32 hi <;> simp [-Nat.testBit_zero] <;> (try split) <;> simp_all [-Nat.testBit_zero]

theorem lt20 {i : Nat} (h : i < 20) : i < 32 := by omega
theorem lt12 {i : Nat} (h : i < 12) : i < 32 := by omega

/-- Bits outside the writable ones keep their value. -/
theorem bmu_keep_some (x mask new c i : Nat) (h : c.testBit i = false) :
    (byteMaskUpdate x mask new (some c)).testBit i = x.testBit i := by
  rw [testBit_bmu_some, h]; simp

/-- Lanes that are not enabled keep their value. -/
theorem bmu_keep_lane (x mask new i : Nat) (bm : BitMask) (h : mask.testBit (i / 8) = false) :
    (byteMaskUpdate x mask new bm).testBit i = x.testBit i := by
  rw [testBit_bmu, h]; simp

theorem f000_low : ∀ i, i < 12 → Nat.testBit 0xf000 i = false := by decide
theorem fff_low : ∀ i, i < 12 → Nat.testBit 0xfff i = true := by decide
theorem fff00000_low : ∀ i, i < 20 → Nat.testBit 0xfff00000 i = false := by decide
theorem fffff_low : ∀ i, i < 20 → Nat.testBit 0xfffff i = true := by decide

theorem shl_low (m k j : Nat) (h : j < k) : (m <<< k).testBit j = false := by
  rw [Nat.testBit_shiftLeft]; simp; omega
theorem and_c_low (m j : Nat) (h : j < 2) : (m &&& 0xc).testBit j = false := by
  have : j = 0 ∨ j = 1 := by omega
  rcases this with rfl | rfl <;> simp [Nat.testBit_and, -Nat.testBit_zero]
theorem and_c_hi (m j : Nat) (h : 4 ≤ j) : (m &&& 0xc).testBit j = false := by
  rw [Nat.testBit_and, lit_testBit_hi 12 4 j (by decide) h]; simp
theorem and_2_hi (m j : Nat) (h : 2 ≤ j) : (m &&& 2).testBit j = false := by
  rw [Nat.testBit_and, lit_testBit_hi 2 2 j (by decide) h]; simp
theorem and_1_hi (m j : Nat) (h : 1 ≤ j) : (m &&& 1).testBit j = false := by
  rw [Nat.testBit_and, lit_testBit_hi 1 1 j (by decide) h]; simp
theorem and_1_shl_hi (m j : Nat) (h : 2 ≤ j) : ((m &&& 1) <<< 1).testBit j = false := by
  rw [Nat.testBit_shiftLeft, and_1_hi m (j - 1) (by omega)]; simp
theorem and_3_shl_hi (m j : Nat) (h : 4 ≤ j) : ((m &&& 3) <<< 2).testBit j = false := by
  rw [Nat.testBit_shiftLeft, Nat.testBit_and, lit_testBit_hi 3 2 (j - 2) (by decide) (by omega)]; simp
theorem shl4_hi (m j : Nat) (hm : m < 16) (h : 8 ≤ j) : (m <<< 4).testBit j = false := by
  rw [Nat.testBit_shiftLeft, lane_hi m (j - 4) hm (by omega)]; simp

theorem or_true_right (x c i : Nat) (h : c.testBit i = true) : (x ||| c).testBit i = true := by
  rw [Nat.testBit_or, h]; simp

theorem bridge_frame (b b' : Bridge) (reg : Nat) (hf : b'.fn = b.fn)
    (h : ∀ r, r ∈ [4, 5, 6, 7, 8, 9, 10, 11, 12, 13, 14, 15] → r ≠ reg → b'.readConfig r = b.readConfig r) :
    ∀ r, r ≠ reg → b'.readConfig r = b.readConfig r := by
  intro r hne
  by_cases hr : r ∈ [4, 5, 6, 7, 8, 9, 10, 11, 12, 13, 14, 15]
  · exact h r hr hne
  · simp only [List.mem_cons, List.not_mem_nil, or_false, not_or] at hr
    obtain ⟨a, b, c, d, e, f, g, h, i, j, k, l⟩ := hr
    unfold Bridge.readConfig
    simp only [a, b, c, d, e, f, g, h, i, j, k, l, if_false, hf]

theorem bridge_frame_bar (b : Bridge) (k x r : Nat) (hne : r ≠ k + 4) (hk : k < 2) (hl : b.fn.bar.length = 2) :
    Bridge.readConfig { b with fn := { b.fn with bar := b.fn.bar.set k x } } r = b.readConfig r := by
  have e : (b.fn.bar.set k x).getD (1 - k) 0 = b.fn.bar.getD (1 - k) 0 := by
    rw [List.getD_eq_getElem?_getD, List.getElem?_set_ne (by omega), List.getD_eq_getElem?_getD]
  have : k = 0 ∨ k = 1 := by omega
  by_cases h4 : r = 4
  · subst h4
    have : k = 1 := by omega
    subst this
    exact congrArg some e
  · by_cases h5 : r = 5
    · subst h5
      have : k = 0 := by omega
      subst this
      exact congrArg some e
    · unfold Bridge.readConfig
      rw [if_neg h4, if_neg h5, if_neg h4, if_neg h5]
      rfl

macro "each_reg" h:ident : tactic => `(tactic|
  (simp only [List.mem_cons, List.not_mem_nil, or_false] at $h:ident
   rcases $h:ident with e | e | e | e | e | e | e | e | e | e | e | e <;> subst e))

/-- Reads of registers 4 to 14 give a value. -/
theorem bridge_read_some (b : Bridge) (r : Nat) (h4 : 4 ≤ r) (h15 : r < 16) : ∃ v, b.readConfig r = some v := by
  have hr : r = 4 ∨ r = 5 ∨ r = 6 ∨ r = 7 ∨ r = 8 ∨
      r = 9 ∨ r = 10 ∨ r = 11 ∨ r = 12 ∨ r = 13 ∨ r = 14 ∨ r = 15 := by omega
  rcases hr with rfl | rfl | rfl | rfl | rfl | rfl | rfl | rfl | rfl | rfl | rfl | rfl <;> exact ⟨_, rfl⟩

theorem bridge_write (b : Bridge) (h : BridgeWf b) (reg data mask : Nat) (h4 : 4 ≤ reg) (h15 : reg < 15)
    (hm : mask < 16) :
    ∃ b' v v', b.writeConfig reg data mask = some b' ∧ BridgeWf b' ∧ b'.fn.bar_mask = b.fn.bar_mask ∧
      b'.id = b.id ∧ b'.root = b.root ∧
      b.readConfig reg = some v ∧ b'.readConfig reg = some v' ∧
      (∀ i, i < 32 → (reg = 7 → i < 16) → v'.testBit i = writtenBit (bridgeAttr b.fn.bar_mask reg) v data mask i) ∧
      (∀ r, r ≠ reg → b'.readConfig r = b.readConfig r) := by
  have hr : reg = 4 ∨ reg = 5 ∨ reg = 6 ∨ reg = 7 ∨ reg = 8 ∨
      reg = 9 ∨ reg = 10 ∨ reg = 11 ∨ reg = 12 ∨ reg = 13 ∨ reg = 14 := by omega
  have barcase : ∀ k, k < 2 → reg = k + 4 → (bridgeAttr b.fn.bar_mask reg).rw = b.fn.bar_mask.getD k 0 →
      (bridgeAttr b.fn.bar_mask reg).w1c = 0 →
      ∃ b' v v', b.writeConfig reg data mask = some b' ∧ BridgeWf b' ∧ b'.fn.bar_mask = b.fn.bar_mask ∧
      b'.id = b.id ∧ b'.root = b.root ∧
      b.readConfig reg = some v ∧ b'.readConfig reg = some v' ∧
      (∀ i, i < 32 → (reg = 7 → i < 16) → v'.testBit i = writtenBit (bridgeAttr b.fn.bar_mask reg) v data mask i) ∧
      (∀ r, r ≠ reg → b'.readConfig r = b.readConfig r) := by
    intro k hk he hrw hw1c
    have hw : b.writeConfig reg data mask = some { b with fn := { b.fn with
      bar := b.fn.bar.set k (byteMaskUpdate (b.fn.bar.getD k 0) mask data
        (some (b.fn.bar_mask.getD k 0))) } } := by
      unfold Bridge.writeConfig
      rw [if_pos (by omega)]
      have : reg - 4 = k := by omega
      rw [this]
    have hl := h.bars
    have hv : b.readConfig reg = some (b.fn.bar.getD k 0) := by
      have : k = 0 ∨ k = 1 := by omega
      rcases this with rfl | rfl <;> (subst he; rfl)
    refine ⟨_, _, byteMaskUpdate (b.fn.bar.getD k 0) mask data (some (b.fn.bar_mask.getD k 0)), hw, ?_, rfl, rfl, rfl, hv, ?_, ?_, ?_⟩
    · exact ⟨h.1, h.2, h.3, h.4, h.5, h.6, h.7, h.8, h.9, h.10, h.11, by simp [h.12]⟩
    · have : k = 0 ∨ k = 1 := by omega
      rcases this with rfl | rfl <;>
        (subst he; exact congrArg some (getD_set_self _ _ _ (by omega)))
    · intro i _ _
      unfold writtenBit
      rw [hrw, hw1c, testBit_bmu_some]
      simp
    · intro r hne
      exact bridge_frame_bar b k _ r (by omega) hk hl
  rcases hr with rfl | rfl | rfl | rfl | rfl | rfl | rfl | rfl | rfl | rfl | rfl
  · exact barcase 0 (by decide) rfl rfl rfl
  · exact barcase 1 (by decide) rfl rfl rfl
  · refine ⟨_, _, _, rfl, ?_, rfl, rfl, rfl, rfl, rfl, ?_, ?_⟩
    · exact ⟨bmu_byte_lt _ _ _ h.pri (and1_and1 _), bmu_byte_lt _ _ _ h.sec (and1_and1 _),
        bmu_byte_lt _ _ _ h.sub (and1_and1 _), bmu_byte_lt _ _ _ h.lat (and1_and1 _),
        h.5, h.6, h.7, h.8, h.9, h.10, h.11, h.12⟩
    · intro i hi _
      exact reg6_bit b h _ data mask i hi
    · refine bridge_frame _ _ _ rfl fun r hr hne => ?_
      each_reg hr <;> first | exact absurd rfl hne | (simp [Bridge.readConfig]; done)
  · refine ⟨_, _, _, rfl, ?_, rfl, rfl, rfl, rfl, rfl, ?_, ?_⟩
    · refine ⟨h.1, h.2, h.3, h.4, ⟨?_, ?_⟩, ⟨?_, ?_⟩, h.7, h.8, h.9, h.10, ?_, h.12⟩
      · refine bmu_lt _ _ _ _ h.io_base.1 ?_ _
        intro i hi
        exact and_1_shl_hi _ _ (by omega)
      · intro i hi
        rw [bmu_keep_some _ _ _ _ _ (f000_low i hi)]; exact h.io_base.2 i hi
      · refine or_lt _ _ _ (bmu_lt _ _ _ _ h.io_limit.1 ?_ _) (by decide)
        intro i hi
        exact and_2_hi _ _ (by omega)
      · intro i hi
        exact or_true_right _ _ _ (fff_low i hi)
      · refine bmu_lt _ _ _ _ h.status ?_ _
        intro i hi
        exact and_1_hi _ _ (by omega)
    · intro i hi h7
      exact reg7_bit b _ _ data mask i (h7 rfl)
    · refine bridge_frame _ _ _ rfl fun r hr hne => ?_
      each_reg hr <;> first
        | exact absurd rfl hne
        | (simp [Bridge.readConfig, f7_base, f7_limit, -Nat.and_one_is_mod]; done)
  · refine ⟨_, _, _, rfl, ?_, rfl, rfl, rfl, rfl, rfl, ?_, ?_⟩
    · refine ⟨h.1, h.2, h.3, h.4, h.5, h.6, ⟨?_, ?_⟩, ⟨?_, ?_⟩, h.9, h.10, h.11, h.12⟩
      · refine bmu_lt _ _ _ _ h.mem_base.1 ?_ _
        intro i hi
        exact and_3_shl_hi _ _ (by omega)
      · intro i hi
        rw [bmu_keep_some _ _ _ _ _ (fff00000_low i hi)]; exact h.mem_base.2 i hi
      · refine or_lt _ _ _ (bmu_lt _ _ _ _ h.mem_limit.1 ?_ _) (by decide)
        intro i hi
        exact and_c_hi _ _ (by omega)
      · intro i hi
        exact or_true_right _ _ _ (fffff_low i hi)
    · intro i hi _
      exact reg8_bit _ _ data mask i hi _ rfl
    · refine bridge_frame _ _ _ rfl fun r hr hne => ?_
      each_reg hr <;> first | exact absurd rfl hne | (simp [Bridge.readConfig]; done)
  · refine ⟨_, _, _, rfl, ?_, rfl, rfl, rfl, rfl, rfl, ?_, ?_⟩
    · refine ⟨h.1, h.2, h.3, h.4, h.5, h.6, h.7, h.8, ⟨?_, ?_⟩, ⟨?_, ?_⟩, h.11, h.12⟩
      · refine bmu_lt _ _ _ _ h.pref_base.1 ?_ _
        intro i hi
        exact and_3_shl_hi _ _ (by omega)
      · intro i hi
        rw [bmu_keep_some _ _ _ _ _ (fff00000_low i hi)]; exact h.pref_base.2 i hi
      · refine or_lt _ _ _ (bmu_lt _ _ _ _ h.pref_limit.1 ?_ _) (by decide)
        intro i hi
        exact and_c_hi _ _ (by omega)
      · intro i hi
        exact or_true_right _ _ _ (fffff_low i hi)
    · intro i hi _
      exact reg8_bit _ _ data mask i hi _ rfl
    · refine bridge_frame _ _ _ rfl fun r hr hne => ?_
      each_reg hr <;> first
        | exact absurd rfl hne
        | (simp [Bridge.readConfig, f9_base, f9_limit]; done)
  · refine ⟨_, _, _, rfl, ?_, rfl, rfl, rfl, rfl, rfl, ?_, ?_⟩
    · refine ⟨h.1, h.2, h.3, h.4, h.5, h.6, h.7, h.8, ⟨?_, ?_⟩, h.10, h.11, h.12⟩
      · refine bmu_lt _ _ _ _ h.pref_base.1 ?_ _
        intro i hi
        exact shl4_hi _ _ hm (by omega)
      · intro i hi
        rw [bmu_keep_lane _ _ _ _ _ (shl_low _ _ _ (by omega))]; exact h.pref_base.2 i hi
    · intro i hi _
      exact reg10_bit _ data mask i hi _ rfl
    · refine bridge_frame _ _ _ rfl fun r hr hne => ?_
      each_reg hr <;> first
        | exact absurd rfl hne
        | (simp [Bridge.readConfig, f10]; done)
  · refine ⟨_, _, _, rfl, ?_, rfl, rfl, rfl, rfl, rfl, ?_, ?_⟩
    · refine ⟨h.1, h.2, h.3, h.4, h.5, h.6, h.7, h.8, h.9, ⟨?_, ?_⟩, h.11, h.12⟩
      · refine bmu_lt _ _ _ _ h.pref_limit.1 ?_ _
        intro i hi
        exact shl4_hi _ _ hm (by omega)
      · intro i hi
        rw [bmu_keep_lane _ _ _ _ _ (shl_low _ _ _ (by omega))]; exact h.pref_limit.2 i hi
    · intro i hi _
      exact reg10_bit _ data mask i hi _ rfl
    · refine bridge_frame _ _ _ rfl fun r hr hne => ?_
      each_reg hr <;> first
        | exact absurd rfl hne
        | (simp [Bridge.readConfig, f10]; done)
  · refine ⟨_, _, _, rfl, ?_, rfl, rfl, rfl, rfl, rfl, ?_, ?_⟩
    · refine ⟨h.1, h.2, h.3, h.4, ⟨?_, ?_⟩, ⟨?_, ?_⟩, h.7, h.8, h.9, h.10, h.11, h.12⟩
      · refine bmu_lt _ _ _ _ h.io_base.1 ?_ _
        intro i hi
        exact and_3_shl_hi _ _ (by omega)
      · intro i hi
        rw [bmu_keep_lane _ _ _ _ _ (shl_low _ _ _ (by omega))]; exact h.io_base.2 i hi
      · refine bmu_lt _ _ _ _ h.io_limit.1 ?_ _
        intro i hi
        exact and_c_hi _ _ (by omega)
      · intro i hi
        rw [bmu_keep_lane _ _ _ _ _ (and_c_low _ _ (by omega))]; exact h.io_limit.2 i hi
    · intro i hi _
      exact reg12b_bit _ _ data mask i hi _
    · refine bridge_frame _ _ _ rfl fun r hr hne => ?_
      each_reg hr <;> first
        | exact absurd rfl hne
        | (simp [Bridge.readConfig, f12_base, f12_limit]; done)
  · refine ⟨b, _, _, rfl, h, rfl, rfl, rfl, rfl, rfl, ?_, fun _ _ => rfl⟩
    intro i _ _
    simp [writtenBit, bridgeAttr]
  · refine ⟨_, _, _, rfl, ?_, rfl, rfl, rfl, rfl, rfl, ?_, ?_⟩
    · exact ⟨h.1, h.2, h.3, h.4, h.5, h.6, h.7, h.8, h.9, h.10, h.11, h.12⟩
    · intro i hi _
      exact reg12_bit _ data mask i hi []
    · intro r hne
      by_cases hr : r ∈ [4, 5, 6, 7, 8, 9, 10, 11, 12, 13, 14, 15]
      · each_reg hr <;> first | exact absurd rfl hne | (simp [Bridge.readConfig]; done)
      · simp only [List.mem_cons, List.not_mem_nil, or_false, not_or] at hr
        obtain ⟨a, b, c, d, e, f, g, h, i, j, k, l⟩ := hr
        unfold Bridge.readConfig
        simp only [a, b, c, d, e, f, g, h, i, j, k, l, if_false]
        rfl

end Verif.Proofs
