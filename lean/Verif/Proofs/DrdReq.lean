import Verif.Spec.DmaIfPcieRd
import Verif.Proofs.DwrFrame
/-! Requests of the PCIe DMA read interface: their sizes and headers. -/
namespace Verif.Proofs
open Verif Verif.Model Verif.Spec

theorem mrrs_vals {mrrs : Nat} (h : mrrs ≤ 4) :
    32 ≤ 32 * 2 ^ (if mrrs > 5 then 5 else mrrs) ∧ 32 * 2 ^ (if mrrs > 5 then 5 else mrrs) ≤ 512 ∧
    4 * (32 * 2 ^ (if mrrs > 5 then 5 else mrrs)) = 128 * 2 ^ mrrs := by
  match mrrs, h with
  | 0, _ => decide
  | 1, _ => decide
  | 2, _ => decide
  | 3, _ => decide
  | 4, _ => decide

/-- What is known of the size of a request. -/
structure SizeOk (m addr count : Nat) (z : DrdSize) : Prop where
  pos : 1 ≤ z.count
  le : z.count ≤ count
  page : addr % 4096 + z.count ≤ 4096
  dw : z.dw = (addr % 4 + z.count + 3) / 4
  mrrs : z.dw ≤ m
  last : z.last = decide (z.count = count)
  next : z.count ≠ count → z.next = (addr + z.count) % 2 ^ 64 ∧ z.next % 4 = 0

theorem drdSize_ok (c : DrdCfg) {m addr count : Nat} (rcb : Bool) (hm : 32 ≤ m ∧ m ≤ 512) (ha : addr < 2 ^ 64)
    (hp : 1 ≤ count) (hw : count + addr % 4 < 2 ^ max c.lenW 13) : SizeOk m addr count (drdSize c m rcb addr count) := by
  unfold drdSize
  rw [Nat.mod_eq_of_lt hw]
  clear hw
  simp only [Nat.reducePow] at ha
  split
  · split
    · constructor <;> simp only [Nat.reducePow] <;> try omega
      rw [← Bool.decide_and]
      congr 1
      apply propext
      omega
    · constructor <;> simp only [Nat.reducePow] <;> first | omega | simp
  · split
    · constructor <;> simp only [Nat.reducePow] <;> try omega
      symm; simp; omega
    · constructor <;> simp only [Nat.reducePow] <;> try omega
      symm; simp; omega

/-- The header of a read request. -/
theorem rdHdr_facts {addr len dw tag rid : Nat} {zero force64 : Bool} {h : TlpHdr} (c : DrdCfg) (hf : c.force64 = force64)
    (ha : addr < 2 ^ 64) (hp : 1 ≤ len) (hpage : addr % 4096 + len ≤ 4096)
    (hdw : dw = (addr % 4 + len + 3) / 4) (hmax : dw ≤ 512) (hz1 : zero = true → len = 1) (hrid : rid < 2 ^ 16)
    (h0 : h.dw0 = (if (addr / 4 / 2 ^ 30 != 0 || force64) then 1 else 0) * 2 ^ 29 + dw % 2 ^ 10)
    (h1 : h.dw1 = rid % 2 ^ 16 * 2 ^ 16 + tag % 2 ^ 8 * 2 ^ 8 +
      (if zero then 0 else if dw = 1 then 0 else 15 / 2 ^ (3 - (addr % 4 + len % 4 + 3) % 4)) * 16 +
      (if zero then 0 else if dw = 1 then 15 * 2 ^ (addr % 4) % 16 &&& 15 / 2 ^ (3 - (addr % 4 + len % 4 + 3) % 4)
        else 15 * 2 ^ (addr % 4) % 16))
    (h2 : h.dw2 = if (addr / 4 / 2 ^ 30 != 0 || force64) then addr / 2 ^ 32 % 2 ^ 32 else addr / 4 % 2 ^ 30 * 4)
    (h3 : h.dw3 = if (addr / 4 / 2 ^ 30 != 0 || force64) then addr / 4 % 2 ^ 30 * 4 else 0) :
    ReadTlpOk c rid (4 * dw) h ∧ rdHdrTag h = tag % 2 ^ 8 ∧ hdrLen h = dw ∧
    rdHdrBytes h = if zero then [] else (List.range len).map (addr + ·) := by
  have hdw1 : 1 ≤ dw := by omega
  obtain ⟨f1, f2, f3, f4⟩ := be_facts (addr % 4) len (Nat.mod_lt _ (by omega)) hp
  obtain ⟨big, hbig⟩ : ∃ big : Bool, big = (addr / 4 / 2 ^ 30 != 0 || force64) := ⟨_, rfl⟩
  rw [← hbig] at h0 h2 h3
  have hfl : 15 * 2 ^ (addr % 4) % 16 < 16 := Nat.mod_lt _ (by omega)
  have hbe : ∃ fb lb, h.dw1 = rid % 2 ^ 16 * 2 ^ 16 + tag % 2 ^ 8 * 2 ^ 8 + lb * 16 + fb ∧ fb < 16 ∧ lb < 16 ∧
      (lb = 0 ↔ dw = 1 ∨ zero = true) ∧ (zero = true → fb = 0 ∧ lb = 0) ∧
      (zero = false → (∀ k, k < 4 → fb.testBit k =
        (decide (addr % 4 ≤ k) && (decide (dw ≠ 1) || decide (k ≤ (addr % 4 + len + 3) % 4)))) ∧
        (dw ≠ 1 → ∀ k, k < 4 → lb.testBit k = decide (k ≤ (addr % 4 + len + 3) % 4))) := by
    refine ⟨_, _, h1, ?_, ?_, ?_, ?_, ?_⟩
    · cases zero
      · simp only [Bool.false_eq_true, if_false]
        split
        · exact Nat.lt_of_le_of_lt Nat.and_le_left hfl
        · exact hfl
      · simp
    · cases zero
      · simp only [Bool.false_eq_true, if_false]
        split
        · omega
        · exact f3
      · simp
    · cases zero
      · simp only [Bool.false_eq_true, if_false]
        split
        · simp_all
        · simp_all
      · simp
    · intro hz; simp [hz]
    · intro hz
      simp only [hz, Bool.false_eq_true, if_false]
      refine ⟨?_, ?_⟩
      · intro k hk
        split
        · rename_i h1
          rw [Nat.testBit_and, f1 k hk, f2 k hk]; simp [h1]
        · rename_i h1
          rw [f1 k hk]; simp [h1]
      · intro h1 k hk
        rw [if_neg h1, f2 k hk]
  clear h1
  obtain ⟨fb, lb, hd1, hfb, hlb, hlb0, hz, hnz⟩ := hbe
  have htag : tag % 2 ^ 8 < 256 := Nat.mod_lt _ (by decide)
  rw [Nat.mod_eq_of_lt hrid] at hd1
  have b30 : bits h.dw1 3 0 = fb := by unfold bits; rw [hd1]; simp only [Nat.reducePow, Nat.reduceAdd, Nat.reduceSub] at htag ⊢; omega
  have b74 : bits h.dw1 7 4 = lb := by unfold bits; rw [hd1]; simp only [Nat.reducePow, Nat.reduceAdd, Nat.reduceSub] at htag ⊢; omega
  have b158 : bits h.dw1 15 8 = tag % 2 ^ 8 := by
    unfold bits; rw [hd1]; simp only [Nat.reducePow, Nat.reduceAdd, Nat.reduceSub] at htag ⊢; omega
  have b3116 : bits h.dw1 31 16 = rid := by
    unfold bits; rw [hd1]; simp only [Nat.reducePow, Nat.reduceAdd, Nat.reduceSub] at htag hrid ⊢; omega
  rw [show dw % 2 ^ 10 = dw by omega] at h0
  have b90 : bits h.dw0 9 0 = dw := by
    unfold bits; rw [h0]
    cases big <;> simp only [Nat.reducePow, Nat.reduceAdd, Nat.reduceSub, if_true, Bool.false_eq_true, if_false] <;> omega
  have b3129 : bits h.dw0 31 29 = if big then 1 else 0 := by
    unfold bits; rw [h0]
    cases big <;> simp only [Nat.reducePow, Nat.reduceAdd, Nat.reduceSub, if_true, Bool.false_eq_true, if_false] <;> omega
  have hlen : hdrLen h = dw := by
    unfold hdrLen; rw [b90, if_neg (by omega)]
  have hbigf : big = false → addr < 2 ^ 32 := by
    intro hb
    rw [hb] at hbig
    have h1 : (addr / 4 / 2 ^ 30 != 0) = false := by
      cases hx : (addr / 4 / 2 ^ 30 != 0) with
      | false => rfl
      | true => rw [hx] at hbig; simp at hbig
    simp only [bne_eq_false_iff_eq, Nat.reducePow] at h1
    simp only [Nat.reducePow]
    omega
  have haddr : rdHdrAddr h = addr - addr % 4 := by
    unfold rdHdrAddr
    rw [b3129, h2, h3]
    cases hb : big with
    | true =>
      simp only [Nat.reducePow, if_true] at ha ⊢
      omega
    | false =>
      have := hbigf hb
      simp only [Bool.false_eq_true, if_false, Nat.reducePow] at this ⊢
      simp
      omega
  have hen : ∀ k, k < 4 * dw → hdrEnables h k = decide (zero = false ∧ addr % 4 ≤ k ∧ k < addr % 4 + len) := by
    intro k hk
    unfold hdrEnables
    rw [b30, b74, hlen]
    cases hzz : zero with
    | true =>
      obtain ⟨z1, z2⟩ := hz hzz
      have := hz1 hzz
      have hd : dw = 1 := by omega
      rw [if_pos (by omega), z1]; simp
    | false =>
      obtain ⟨n1, n2⟩ := hnz hzz
      by_cases h0 : k / 4 = 0
      · rw [if_pos h0, n1 _ (by omega), Bool.eq_iff_iff]
        by_cases hd : dw = 1
        · simp only [hd, ne_eq, not_true_eq_false, decide_false, Bool.false_or, Bool.and_eq_true, decide_eq_true_eq,
            true_and]
          have : addr % 4 + len ≤ 4 := by omega
          omega
        · simp only [ne_eq, hd, not_false_eq_true, decide_true, Bool.true_or, Bool.and_true, decide_eq_true_eq,
            true_and]
          omega
      · rw [if_neg h0]
        have hd : dw ≠ 1 := by omega
        by_cases h1 : k / 4 = dw - 1
        · rw [if_pos h1, n2 hd _ (by omega), Bool.eq_iff_iff]
          simp only [decide_eq_true_eq, true_and]
          omega
        · rw [if_neg h1, Bool.eq_iff_iff]
          simp only [true_iff, decide_eq_true_eq, true_and]
          omega
  refine ⟨⟨⟨?_, ?_, ?_⟩, ⟨?_, b3116⟩, ⟨?_, ?_, ?_, ?_, ?_⟩, ?_, ?_, ?_⟩, b158, hlen, ?_⟩
  · rw [h0]
    cases big <;> simp only [Nat.reducePow, if_true, Bool.false_eq_true, if_false] <;> omega
  · unfold bits; rw [h0]
    cases big <;> simp only [Nat.reducePow, Nat.reduceAdd, Nat.reduceSub, if_true, Bool.false_eq_true, if_false] <;> omega
  · rw [b3129, haddr, hf]
    cases hb : big with
    | true =>
      have : 2 ^ 32 ≤ addr - addr % 4 ∨ force64 = true := by
        rw [hb] at hbig
        cases hf : force64 with
        | true => exact Or.inr rfl
        | false =>
          rw [hf] at hbig
          have hne : addr / 4 / 2 ^ 30 ≠ 0 := by simpa using hbig.symm
          left
          simp only [Nat.reducePow] at hne ⊢
          omega
      rw [if_pos this]; rfl
    | false =>
      have h1 := hbigf hb
      have : ¬ (2 ^ 32 ≤ addr - addr % 4 ∨ force64 = true) := by
        rw [hb] at hbig
        rintro (h | h)
        · omega
        · rw [h] at hbig; simp at hbig
      rw [if_neg this]; simp
  · rw [hd1]; simp only [Nat.reducePow] at hrid htag ⊢; omega
  · rw [haddr]; omega
  · rw [haddr]; omega
  · rw [h2]
    cases big <;> simp only [Nat.reducePow, if_true, Bool.false_eq_true, if_false] <;> omega
  · rw [h3]
    cases big <;> simp only [Nat.reducePow, if_true, Bool.false_eq_true, if_false] <;> omega
  · rw [b3129, h3]
    cases big <;> simp
  · rw [b74, hlen, hlb0]
    constructor
    · rintro (h | h)
      · exact h
      · have := hz1 h; omega
    · exact Or.inl
  · rw [hlen]; exact Nat.le_refl _
  · rw [hlen, haddr]; omega
  · unfold rdHdrBytes
    rw [hlen, haddr]
    cases hzz : zero with
    | true =>
      simp only [if_true]
      rw [List.filterMap_eq_nil_iff]
      intro k hk
      rw [hen k (List.mem_range.mp hk), hzz]; simp
    | false =>
      simp only [Bool.false_eq_true, if_false]
      have e : (List.range (4 * dw)).filterMap (fun k => if hdrEnables h k = true then some (addr - addr % 4 + k) else none) =
          (List.range (4 * dw)).filterMap fun k =>
            if addr % 4 ≤ k ∧ k < addr % 4 + len then some (addr - addr % 4 + k) else none := by
        apply filterMap_congr_mem
        intro k hk
        rw [hen k (List.mem_range.mp hk), hzz]
        simp
      rw [e, filterMap_range_ico (fun k => addr - addr % 4 + k) _ _ _ (by omega)]
      apply List.map_congr_left
      intro p _
      omega

/-- What is known of the request state machine while it works on a descriptor. -/
structure ReqOkS (c : DrdCfg) (r : DrdReq) : Prop where
  addr : r.addr < 2 ^ 64
  pos : 1 ≤ r.count
  lt : r.count < 2 ^ c.lenW
  sum : r.count + r.addr % 4 < 2 ^ max c.lenW 13
  zero : r.zero = true → r.count = 1

theorem drdReqSize_ok {c : DrdCfg} {s : Drd} {m : Nat} (hm : 32 ≤ m ∧ m ≤ 512) (hs : s.mrrsDw = m) (h : ReqOkS c s.req) :
    SizeOk m s.req.addr s.req.count (drdReqSize c s) := by
  unfold drdReqSize
  rw [hs]
  exact drdSize_ok c s.rcb hm h.addr h.pos h.sum

/-- The header of the request. -/
theorem drdHdr_ok {c : DrdCfg} {s : Drd} {m rid : Nat} (hm : 32 ≤ m ∧ m ≤ 512) (hs : s.mrrsDw = m) (h : ReqOkS c s.req)
    (hrid : rid < 2 ^ 16) :
    ReadTlpOk c rid (4 * m) (drdHdr c s rid) ∧ rdHdrTag (drdHdr c s rid) = s.tag % 2 ^ 8 ∧
    rdHdrBytes (drdHdr c s rid) = if s.req.zero then [] else (List.range (drdReqSize c s).count).map (s.req.addr + ·) := by
  have hz := drdReqSize_ok hm hs h
  obtain ⟨h1, h2, h3, h4⟩ := rdHdr_facts (addr := s.req.addr) (len := (drdReqSize c s).count) (dw := (drdReqSize c s).dw)
    (tag := s.tag) (rid := rid) (zero := s.req.zero) (force64 := c.force64) (h := drdHdr c s rid) c rfl h.addr hz.pos hz.page
    hz.dw (by have := hz.mrrs; omega) (fun h' => by have := h.zero h'; have := hz.le; have := hz.pos; omega) hrid rfl rfl rfl rfl
  refine ⟨⟨h1.dw0, h1.dw1, h1.addr, h1.be, ?_, h1.page⟩, h2, h4⟩
  have := h1.mrrs; have := hz.mrrs; omega

end Verif.Proofs
