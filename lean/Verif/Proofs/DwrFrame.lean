import Verif.Proofs.DwrData
/-! The TLPs generated by the DMA write interface are well formed and write the right bytes. -/
namespace Verif.Proofs
open Verif Verif.Model Verif.Spec

theorem filterMap_congr_mem {α β : Type} {l : List α} {f g : α → Option β} (h : ∀ x ∈ l, f x = g x) :
    l.filterMap f = l.filterMap g := by
  induction l with
  | nil => rfl
  | cons x xs ih =>
    rw [List.filterMap_cons, List.filterMap_cons, h x List.mem_cons_self, ih (fun y hy => h y (List.mem_cons_of_mem _ hy))]

theorem flatMap_congr_mem {α β : Type} {l : List α} {f g : α → List β} (h : ∀ x ∈ l, f x = g x) :
    l.flatMap f = l.flatMap g := by
  induction l with
  | nil => rfl
  | cons x xs ih =>
    rw [List.flatMap_cons, List.flatMap_cons, h x List.mem_cons_self, ih (fun y hy => h y (List.mem_cons_of_mem _ hy))]

theorem filterMap_range_lt {α : Type} (f : Nat → α) (N L : Nat) (h : L ≤ N) :
    (List.range N).filterMap (fun k => if k < L then some (f k) else none) = (List.range L).map f := by
  induction N with
  | zero => have : L = 0 := by omega
            subst this; simp
  | succ N ih =>
    rw [List.range_succ, List.filterMap_append]
    by_cases hL : L ≤ N
    · rw [ih hL]; simp; omega
    · have : L = N + 1 := by omega
      subst this
      rw [List.range_succ, List.map_append]
      congr 1
      · rw [← List.filterMap_eq_map]
        apply filterMap_congr_mem
        intro k hk
        have := List.mem_range.mp hk
        simp; omega
      · simp

theorem filterMap_range_ico {α : Type} (f : Nat → α) (N lo L : Nat) (h : lo + L ≤ N) :
    (List.range N).filterMap (fun k => if lo ≤ k ∧ k < lo + L then some (f k) else none) =
    (List.range L).map fun p => f (lo + p) := by
  rw [show N = lo + (N - lo) by omega, List.range_add, List.filterMap_append]
  have e1 : (List.range lo).filterMap (fun k => if lo ≤ k ∧ k < lo + L then some (f k) else none) = [] := by
    rw [List.filterMap_eq_nil_iff]
    intro k hk
    have := List.mem_range.mp hk
    rw [if_neg (by omega)]
  rw [e1, List.nil_append, List.filterMap_map, ← filterMap_range_lt (fun p => f (lo + p)) (N - lo) L (by omega)]
  apply filterMap_congr_mem
  intro k _
  simp only [Function.comp]
  by_cases hk : k < L
  · rw [if_pos (by omega), if_pos hk]
  · rw [if_neg (by omega), if_neg hk]

theorem tlpBytes_dw {c : DwrCfg} (hc : DwrCfgOk c) : c.tlpBytes = 4 * 2 ^ (c.tb - 2) := by
  have := hc.tb.1
  unfold DwrCfg.tlpBytes
  rw [show (4 : Nat) = 2 ^ 2 by decide, ← Nat.pow_add]
  congr 1; omega

theorem beatBytes_eq {c : DwrCfg} (hc : DwrCfgOk c) (b : DwrBeat) (d : Nat) (hs : b.strb = dwrStrb c d) :
    beatBytes c b = (List.range (4 * min d (2 ^ (c.tb - 2)))).map b.data := by
  unfold beatBytes
  have e : b.strb = 2 ^ (min d (2 ^ (c.tb - 2))) - 1 := by
    rw [hs]
    unfold dwrStrb
    simp only
    generalize 2 ^ (c.tb - 2) = D
    split
    · rw [Nat.min_eq_right (by assumption)]
    · rw [Nat.min_eq_left (by omega)]
      have e1 : 2 ^ D = 2 ^ d * 2 ^ (D - d) := by rw [← Nat.pow_add]; congr 1; omega
      have h1 := Nat.two_pow_pos d
      have h2 := Nat.two_pow_pos (D - d)
      rw [e1]
      generalize 2 ^ d = a at *
      generalize 2 ^ (D - d) = b at *
      apply Nat.div_eq_of_lt_le
      · rw [Nat.sub_mul]; omega
      · rw [show a - 1 + 1 = a by omega]
        have : 0 < a * b := Nat.mul_pos h1 h2
        omega
  rw [e, tlpBytes_dw hc]
  rw [← filterMap_range_lt b.data (4 * 2 ^ (c.tb - 2)) (4 * min d (2 ^ (c.tb - 2))) (by omega)]
  apply filterMap_congr_mem
  intro k _
  rw [Nat.testBit_two_pow_sub_one]
  generalize min d (2 ^ (c.tb - 2)) = x
  by_cases hk : k < 4 * x
  · rw [if_pos hk, if_pos (by simp; omega)]
  · rw [if_neg hk, if_neg (by simp; omega)]

theorem flatMap_rows {α : Type} (T : Nat) (hT : 0 < T) (f : Nat → Nat → α) (N L : Nat) (hL : L ≤ T) :
    (List.range N).flatMap (fun n => (List.range T).map (f n)) ++ (List.range L).map (f N) =
    (List.range (N * T + L)).map fun k => f (k / T) (k % T) := by
  have row : ∀ n L, L ≤ T → (List.range L).map (f n) = (List.range L).map fun k => f ((n * T + k) / T) ((n * T + k) % T) := by
    intro n L hL
    apply List.map_congr_left
    intro k hk
    have := List.mem_range.mp hk
    rw [Nat.mul_comm n T, Nat.mul_add_div hT, Nat.mul_add_mod, Nat.div_eq_of_lt (by omega), Nat.mod_eq_of_lt (by omega)]
    simp
  have full : (List.range N).flatMap (fun n => (List.range T).map (f n)) =
      (List.range (N * T)).map fun k => f (k / T) (k % T) := by
    induction N with
    | zero => simp
    | succ N ih =>
      rw [List.range_succ, List.flatMap_append, ih, Nat.add_mul, Nat.one_mul, List.range_add, List.map_append]
      congr 1
      simp only [List.flatMap_cons, List.flatMap_nil, List.append_nil, List.map_map]
      rw [row N T (Nat.le_refl _)]
      rfl
  rw [full, List.range_add, List.map_append, List.map_map]
  congr 1
  rw [row N L hL]
  rfl

/-- The number of DWORDs of a TLP. -/
def segDw (r : DwrReq) : Nat := (r.tlpCount + r.addr % 4 + 3) / 4

theorem segCyc_dw {c : DwrCfg} {m : Nat} {r : DwrReq} (hc : DwrCfgOk c) (hr : SegOk c m r) :
    segCyc c r * 2 ^ (c.tb - 2) < segDw r ∧ segDw r ≤ segCyc c r * 2 ^ (c.tb - 2) + 2 ^ (c.tb - 2) := by
  have hT := tlpBytes_dw hc
  have hp := hr.pos
  have h0 : 0 < 2 ^ (c.tb - 2) := Nat.two_pow_pos _
  have h1 := Nat.div_add_mod (r.tlpCount + r.addr % 4 - 1) c.tlpBytes
  have h2 := Nat.mod_lt (r.tlpCount + r.addr % 4 - 1) (show 0 < c.tlpBytes by omega)
  have h3 : c.tlpBytes * ((r.tlpCount + r.addr % 4 - 1) / c.tlpBytes) =
      4 * (segCyc c r * 2 ^ (c.tb - 2)) := by
    unfold segCyc; rw [hT, Nat.mul_assoc, Nat.mul_comm (2 ^ (c.tb - 2))]
  rw [h3] at h1
  unfold segDw
  rw [hT] at h2 h1
  generalize segCyc c r * 2 ^ (c.tb - 2) = X at *
  generalize 2 ^ (c.tb - 2) = D at *
  omega

section
variable {c : DwrCfg} {mem : Nat → Nat → UInt8} {m rid : Nat} {r : DwrReq}

/-- The payload of a TLP, byte by byte. -/
theorem payload_eq (hc : DwrCfgOk c) (hm : m ≤ 512) (hr : SegOk c m r) (bt : Nat → DwrBeat)
    (hb : ∀ n, n ≤ segCyc c r → BeatOk c mem rid r n (bt n)) :
    framePayload c ((List.range (segCyc c r + 1)).map bt) =
      (List.range (4 * segDw r)).map fun k => (bt (k / c.tlpBytes)).data (k % c.tlpBytes) := by
  have hT := tlpBytes_dw hc
  have hT0 := tlpBytes_ge hc
  obtain ⟨d1, d2⟩ := segCyc_dw hc hr
  have hfull : ∀ n, n < segCyc c r → beatBytes c (bt n) = (List.range c.tlpBytes).map (bt n).data := by
    intro n hn
    rw [beatBytes_eq hc _ _ (hb n (by omega)).strb, (txAt_vals hc hm hr n (by omega)).1]
    have : (n + 1) * 2 ^ (c.tb - 2) ≤ segCyc c r * 2 ^ (c.tb - 2) := Nat.mul_le_mul_right _ (by omega)
    rw [Nat.add_mul, Nat.one_mul] at this
    rw [hT]
    unfold segDw at d1
    rw [Nat.min_eq_right (by omega)]
  unfold framePayload
  rw [List.flatMap_map, List.range_succ, List.flatMap_append]
  have e1 : (List.range (segCyc c r)).flatMap (fun n => beatBytes c (bt n)) =
      (List.range (segCyc c r)).flatMap (fun n => (List.range c.tlpBytes).map (bt n).data) := by
    apply flatMap_congr_mem
    intro n hn
    exact hfull n (List.mem_range.mp hn)
  rw [e1]
  simp only [List.flatMap_cons, List.flatMap_nil, List.append_nil]
  rw [beatBytes_eq hc _ _ (hb (segCyc c r) (Nat.le_refl _)).strb, (txAt_vals hc hm hr _ (Nat.le_refl _)).1]
  have hl : 4 * min ((r.tlpCount + r.addr % 4 + 3) / 4 - segCyc c r * 2 ^ (c.tb - 2)) (2 ^ (c.tb - 2)) =
      4 * segDw r - segCyc c r * c.tlpBytes := by
    rw [hT, Nat.mul_left_comm]
    unfold segDw at *
    omega
  rw [hl]
  have hmul : segCyc c r * c.tlpBytes = 4 * (segCyc c r * 2 ^ (c.tb - 2)) := by rw [hT, Nat.mul_left_comm]
  rw [flatMap_rows c.tlpBytes (by omega) (fun n => (bt n).data) (segCyc c r) _ (by rw [hmul, hT]; omega)]
  congr 2
  rw [hmul]; omega

/-- Byte enables of a TLP that starts at offset `o` of a DWORD. -/
theorem be_facts (o len : Nat) (ho : o < 4) (hl : 1 ≤ len) :
    (∀ k, k < 4 → (15 * 2 ^ o % 16).testBit k = decide (o ≤ k)) ∧
    (∀ k, k < 4 → (15 / 2 ^ (3 - (o + len % 4 + 3) % 4)).testBit k = decide (k ≤ (o + len + 3) % 4)) ∧
    15 / 2 ^ (3 - (o + len % 4 + 3) % 4) < 16 ∧ 15 / 2 ^ (3 - (o + len % 4 + 3) % 4) ≠ 0 := by
  have h1 : (o + len % 4 + 3) % 4 = (o + len + 3) % 4 := by omega
  rw [h1]
  have h2 : (o + len + 3) % 4 < 4 := Nat.mod_lt _ (by omega)
  generalize (o + len + 3) % 4 = e at *
  refine ⟨?_, ?_, ?_, ?_⟩
  · clear h1; revert o; decide
  · clear h1; revert e; decide
  · clear h1; revert e; decide
  · clear h1; revert e; decide

theorem hdr_facts (hc : DwrCfgOk c) (hm : m ≤ 512) (hr : SegOk c m r) (h : TlpHdr) (hh : h = dwrHdr c (txAt c r 0) rid) :
    hdrLen h = segDw r ∧ hdrAddr h = r.addr - r.addr % 4 ∧
    (∀ k, k < 4 * segDw r → hdrEnables h k =
      decide (r.zero = false ∧ r.addr % 4 ≤ k ∧ k < r.addr % 4 + r.tlpCount)) ∧
    (h.dw0 < 2 ^ 32 ∧ bits h.dw0 28 10 = 0 ∧
      bits h.dw0 31 29 = if 2 ^ 32 ≤ hdrAddr h ∨ c.force64 = true then 3 else 2) ∧
    (h.dw1 < 2 ^ 32 ∧ bits h.dw1 31 16 = rid % 2 ^ 16 ∧ bits h.dw1 15 8 = 0) ∧
    (h.dw2 < 2 ^ 32 ∧ h.dw3 < 2 ^ 32 ∧ (bits h.dw0 31 29 = 2 → h.dw3 = 0)) ∧
    (bits h.dw1 7 4 = 0 ↔ hdrLen h = 1) := by
  obtain ⟨t1, t2, t3, t4, t5⟩ := txAt_vals hc hm hr 0 (Nat.zero_le _)
  rw [Nat.zero_mul, Nat.sub_zero] at t1
  have ha := hr.addr
  have hmps := hr.mps
  have hp := hr.pos
  have hdw : segDw r = (r.tlpCount + r.addr % 4 + 3) / 4 := rfl
  have hdw1 : 1 ≤ segDw r ∧ segDw r ≤ 512 := by rw [hdw]; omega
  rw [← hdw] at t1
  obtain ⟨f1, f2, f3, f4⟩ := be_facts (r.addr % 4) r.tlpCount (Nat.mod_lt _ (by omega)) hp
  have hdef : ∃ big : Bool, big = (r.addr / 4 / 2 ^ 30 != 0 || c.force64) := ⟨_, rfl⟩
  obtain ⟨big, hbig⟩ := hdef
  have hf : 15 * 2 ^ (r.addr % 4) % 16 < 16 := Nat.mod_lt _ (by omega)
  -- the byte enables
  have hbe : ∃ fb lb, h.dw1 = rid % 2 ^ 16 * 2 ^ 16 + lb * 16 + fb ∧ fb < 16 ∧ lb < 16 ∧ (lb = 0 ↔ segDw r = 1 ∨ r.zero = true) ∧
      (r.zero = true → fb = 0 ∧ lb = 0) ∧
      (r.zero = false → (∀ k, k < 4 → fb.testBit k =
        (decide (r.addr % 4 ≤ k) && (decide (segDw r ≠ 1) || decide (k ≤ (r.addr % 4 + r.tlpCount + 3) % 4)))) ∧
        (segDw r ≠ 1 → ∀ k, k < 4 → lb.testBit k = decide (k ≤ (r.addr % 4 + r.tlpCount + 3) % 4))) := by
    have e : h.dw1 = rid % 2 ^ 16 * 2 ^ 16 +
        (if r.zero = true then 0 else if segDw r = 1 then 0 else 15 / 2 ^ (3 - (r.addr % 4 + r.tlpCount % 4 + 3) % 4)) * 16 +
        if r.zero = true then 0
        else if segDw r = 1 then 15 * 2 ^ (r.addr % 4) % 16 &&& 15 / 2 ^ (3 - (r.addr % 4 + r.tlpCount % 4 + 3) % 4)
        else 15 * 2 ^ (r.addr % 4) % 16 := by rw [hh]; simp only [dwrHdr, t1, t3, t4, t5]
    refine ⟨_, _, e, ?_, ?_, ?_, ?_, ?_⟩
    · cases r.zero
      · simp only [Bool.false_eq_true, if_false]
        split
        · exact Nat.lt_of_le_of_lt Nat.and_le_left hf
        · exact hf
      · simp
    · cases r.zero
      · simp only [Bool.false_eq_true, if_false]
        split
        · omega
        · exact f3
      · simp
    · cases r.zero
      · simp only [Bool.false_eq_true, if_false]
        split
        · simp_all
        · simp_all
      · simp
    · intro hz; simp [hz]
    · intro hz
      simp only [hz, Bool.false_eq_true, if_false]
      refine ⟨?_, ?_⟩
      · intro k hk
        split
        · rename_i h1
          rw [Nat.testBit_and, f1 k hk, f2 k hk]; simp [h1]
        · rename_i h1
          rw [f1 k hk]; simp [h1]
      · intro h1 k hk
        rw [if_neg h1, f2 k hk]
  obtain ⟨fb, lb, hd1, hfb, hlb, hlb0, hz, hnz⟩ := hbe
  have hrid : rid % 2 ^ 16 < 65536 := Nat.mod_lt _ (by decide)
  have b30 : bits h.dw1 3 0 = fb := by unfold bits; rw [hd1]; simp only [Nat.reducePow, Nat.reduceAdd, Nat.reduceSub]; omega
  have b74 : bits h.dw1 7 4 = lb := by unfold bits; rw [hd1]; simp only [Nat.reducePow, Nat.reduceAdd, Nat.reduceSub]; omega
  have hd0 : h.dw0 = (if big then 3 else 2) * 2 ^ 29 + segDw r := by
    rw [hh]; simp only [dwrHdr, t1, t3]; rw [hbig]
  have hd2 : h.dw2 = if big then r.addr / 2 ^ 32 % 2 ^ 32 else r.addr / 4 % 2 ^ 30 * 4 := by
    rw [hh]; simp only [dwrHdr, t3]; rw [hbig]
  have hd3 : h.dw3 = if big then r.addr / 4 % 2 ^ 30 * 4 else 0 := by
    rw [hh]; simp only [dwrHdr, t3]; rw [hbig]
  have b90 : bits h.dw0 9 0 = segDw r := by
    unfold bits; rw [hd0]
    cases big <;> simp only [Nat.reducePow, Nat.reduceAdd, Nat.reduceSub, if_true, Bool.false_eq_true, if_false] <;> omega
  have b3129 : bits h.dw0 31 29 = if big then 3 else 2 := by
    unfold bits; rw [hd0]
    cases big <;> simp only [Nat.reducePow, Nat.reduceAdd, Nat.reduceSub, if_true, Bool.false_eq_true, if_false] <;> omega
  have hlen : hdrLen h = segDw r := by
    unfold hdrLen; rw [b90, if_neg (by omega)]
  have hbigf : big = false → r.addr < 2 ^ 32 := by
    intro hb
    rw [hb] at hbig
    have h1 : (r.addr / 4 / 2 ^ 30 != 0) = false := by
      cases hx : (r.addr / 4 / 2 ^ 30 != 0) with
      | false => rfl
      | true => rw [hx] at hbig; simp at hbig
    simp only [bne_eq_false_iff_eq, Nat.reducePow] at h1
    simp only [Nat.reducePow]
    omega
  have haddr : hdrAddr h = r.addr - r.addr % 4 := by
    unfold hdrAddr
    rw [b3129, hd2, hd3]
    cases hb : big with
    | true =>
      simp only [Nat.reducePow, if_true] at ha ⊢
      omega
    | false =>
      have := hbigf hb
      simp only [Bool.false_eq_true, if_false, Nat.reducePow] at this ⊢
      simp
      omega
  refine ⟨hlen, haddr, ?_, ⟨?_, ?_, ?_⟩, ⟨?_, ?_, ?_⟩, ⟨?_, ?_, ?_⟩, ?_⟩
  · intro k hk
    unfold hdrEnables
    rw [b30, b74, hlen]
    cases hzz : r.zero with
    | true =>
      obtain ⟨z1, z2⟩ := hz hzz
      have := hr.zero hzz
      have hd : segDw r = 1 := by rw [hdw]; omega
      rw [if_pos (by omega), z1]; simp
    | false =>
      obtain ⟨n1, n2⟩ := hnz hzz
      by_cases h0 : k / 4 = 0
      · rw [if_pos h0, n1 _ (by omega), Bool.eq_iff_iff]
        by_cases hd : segDw r = 1
        · simp only [hd, ne_eq, not_true_eq_false, decide_false, Bool.false_or, Bool.and_eq_true, decide_eq_true_eq,
            true_and]
          have : r.addr % 4 + r.tlpCount ≤ 4 := by omega
          omega
        · simp only [ne_eq, hd, not_false_eq_true, decide_true, Bool.true_or, Bool.and_true, decide_eq_true_eq,
            true_and]
          omega
      · rw [if_neg h0]
        have hd : segDw r ≠ 1 := by omega
        by_cases h1 : k / 4 = segDw r - 1
        · rw [if_pos h1, n2 hd _ (by omega), Bool.eq_iff_iff]
          simp only [decide_eq_true_eq, true_and]
          omega
        · rw [if_neg h1, Bool.eq_iff_iff]
          simp only [true_iff, decide_eq_true_eq, true_and]
          omega
  · rw [hd0]
    cases big <;> simp only [Nat.reducePow, if_true, Bool.false_eq_true, if_false] <;> omega
  · unfold bits; rw [hd0]
    cases big <;> simp only [Nat.reducePow, Nat.reduceAdd, Nat.reduceSub, if_true, Bool.false_eq_true, if_false] <;> omega
  · rw [b3129, haddr]
    cases hb : big with
    | true =>
      have : 2 ^ 32 ≤ r.addr - r.addr % 4 ∨ c.force64 = true := by
        rw [hb] at hbig
        cases hf : c.force64 with
        | true => exact Or.inr rfl
        | false =>
          rw [hf] at hbig
          have hne : r.addr / 4 / 2 ^ 30 ≠ 0 := by simpa using hbig.symm
          left
          simp only [Nat.reducePow] at hne ⊢
          omega
      rw [if_pos this]; rfl
    | false =>
      have h1 := hbigf hb
      have : ¬ (2 ^ 32 ≤ r.addr - r.addr % 4 ∨ c.force64 = true) := by
        rw [hb] at hbig
        rintro (h | h)
        · omega
        · rw [h] at hbig; simp at hbig
      rw [if_neg this]; simp
  · rw [hd1]; simp only [Nat.reducePow] at hrid ⊢; omega
  · unfold bits; rw [hd1]; simp only [Nat.reducePow, Nat.reduceAdd, Nat.reduceSub] at hrid ⊢; omega
  · unfold bits; rw [hd1]; simp only [Nat.reducePow, Nat.reduceAdd, Nat.reduceSub] at hrid ⊢; omega
  · rw [hd2]
    cases big <;> simp only [Nat.reducePow, if_true, Bool.false_eq_true, if_false] <;> omega
  · rw [hd3]
    cases big <;> simp only [Nat.reducePow, if_true, Bool.false_eq_true, if_false] <;> omega
  · rw [b3129, hd3]
    cases big <;> simp
  · rw [b74, hlen, hlb0]
    constructor
    · rintro (h | h)
      · exact h
      · have := hr.zero h; rw [hdw]; omega
    · exact Or.inl

/-- The bytes that a TLP should write. -/
def segWrites (c : DwrCfg) (mem : Nat → Nat → UInt8) (r : DwrReq) : List (Nat × UInt8) :=
  if r.zero then [] else (List.range r.tlpCount).map fun p => (r.addr + p, segSrc c mem r p)

theorem frame_ok (hc : DwrCfgOk c) (hm : m ≤ 512) (hr : SegOk c m r) (bt : Nat → DwrBeat)
    (hb : ∀ n, n ≤ segCyc c r → BeatOk c mem rid r n (bt n)) (hrid : rid < 2 ^ 16) :
    WriteTlpOk c rid (4 * m) ((List.range (segCyc c r + 1)).map bt) ∧
    frameWrites c ((List.range (segCyc c r + 1)).map bt) = segWrites c mem r := by
  have hT0 := tlpBytes_ge hc
  obtain ⟨g1, g2, g3, g4, g5, g6, g7⟩ := hdr_facts hc hm hr (bt 0).hdr (hb 0 (Nat.zero_le _)).hdr
  have hpl := payload_eq hc hm hr bt hb
  have hhead : ((List.range (segCyc c r + 1)).map bt).head? = some (bt 0) := by
    rw [List.range_succ_eq_map]; simp
  have hmps := hr.mps
  have hpage := hr.page
  have hp := hr.pos
  have hdw : segDw r = (r.tlpCount + r.addr % 4 + 3) / 4 := rfl
  refine ⟨?_, ?_⟩
  · constructor
    · rw [hhead]; rintro b hb'; simp at hb'; subst hb'; exact g4
    · rw [hhead]; rintro b hb'; simp at hb'; subst hb'
      exact ⟨g5.1, by rw [g5.2.1, Nat.mod_eq_of_lt hrid], g5.2.2⟩
    · rw [hhead]; rintro b hb'; simp at hb'; subst hb'
      have := hr.addr
      rw [g2]
      exact ⟨by omega, by omega, g6⟩
    · rw [hhead]; rintro b hb'; simp at hb'; subst hb'; exact g7
    · rw [hhead]; rintro b hb'; simp at hb'; subst hb'
      rw [hpl, g1]; simp
    · rw [hhead]; rintro b hb'; simp at hb'; subst hb'
      rw [g1, hdw]; omega
    · rw [hhead]; rintro b hb'; simp at hb'; subst hb'
      rw [g1, g2, hdw]; omega
    · simp
  · have e1 : frameWrites c ((List.range (segCyc c r + 1)).map bt) =
        hdrWrites (bt 0).hdr (framePayload c ((List.range (segCyc c r + 1)).map bt)) := by
      conv => lhs; rw [List.range_succ_eq_map]
      simp only [List.map_cons, frameWrites]
      congr 2
      rw [List.range_succ_eq_map, List.map_cons]
    rw [e1, hpl]
    unfold hdrWrites
    simp only [List.length_map, List.length_range]
    have e2 : (List.range (4 * segDw r)).filterMap (fun k => if hdrEnables (bt 0).hdr k then
        ((List.range (4 * segDw r)).map fun k => (bt (k / c.tlpBytes)).data (k % c.tlpBytes))[k]?.map (hdrAddr (bt 0).hdr + k, ·)
        else none) =
      (List.range (4 * segDw r)).filterMap (fun k => if r.zero = false ∧ r.addr % 4 ≤ k ∧ k < r.addr % 4 + r.tlpCount then
        some (r.addr - r.addr % 4 + k, segSrc c mem r (k - r.addr % 4)) else none) := by
      apply filterMap_congr_mem
      intro k hk
      have hk := List.mem_range.mp hk
      rw [g3 k hk, g2]
      by_cases hcond : r.zero = false ∧ r.addr % 4 ≤ k ∧ k < r.addr % 4 + r.tlpCount
      · rw [if_pos (by simpa using hcond), if_pos hcond]
        rw [List.getElem?_map, List.getElem?_range hk]
        simp only [Option.map_some]
        congr 2
        have hkd := Nat.div_add_mod k c.tlpBytes
        have hle : k / c.tlpBytes ≤ segCyc c r := by
          unfold segCyc; exact Nat.div_le_div_right (by omega)
        exact beat_data hc hm hr hle (hb _ hle) (Nat.mod_lt _ (by omega)) (p := k - r.addr % 4) (by omega)
          (by rw [Nat.mul_comm]; omega)
      · rw [if_neg (by simpa using hcond), if_neg hcond]
    rw [e2]
    unfold segWrites
    cases hz : r.zero with
    | true => simp
    | false =>
      simp only [true_and, Bool.false_eq_true, if_false]
      rw [filterMap_range_ico (fun k => (r.addr - r.addr % 4 + k, segSrc c mem r (k - r.addr % 4))) _ _ _ (by omega)]
      apply List.map_congr_left
      intro p _
      simp only [Prod.mk.injEq]
      exact ⟨by omega, by congr 1; omega⟩

end

end Verif.Proofs
