import Verif.Proofs.DwrStep2
/-! The TLPs generated by the DMA write interface carry the right bytes. -/
namespace Verif.Proofs
open Verif Verif.Model Verif.Spec

/-- What holds for every TLP started. -/
structure SegOk (c : DwrCfg) (m : Nat) (r : DwrReq) : Prop where
  pos : 1 ≤ r.tlpCount
  le : r.tlpCount ≤ r.count
  mps : r.addr % 4 + r.tlpCount ≤ 4 * m
  page : r.addr % 4096 + r.tlpCount ≤ 4096
  addr : r.addr < 2 ^ 64
  ram : r.ram < 2 ^ c.ramW
  imm : r.immEn = true → c.immEn = true
  zero : r.zero = true → r.tlpCount = 1

/-- Bytes before transfer `n`. -/
def consumed (c : DwrCfg) (r : DwrReq) (n : Nat) : Nat := if n = 0 then 0 else n * c.tlpBytes - r.addr % 4

/-- The read for transfer `n`. -/
structure RdAt (c : DwrCfg) (r : DwrReq) (n : Nat) (u : DwrRd) : Prop where
  ram : u.ram = (r.ram + consumed c r n) % 2 ^ c.ramW
  len : u.len = r.tlpCount - consumed c r n
  bytes : u.bytes = min (r.tlpCount - consumed c r n) (if n = 0 then c.tlpBytes - r.addr % 4 else c.tlpBytes)
  mask : u.mask = (dwrMasks c u.ram u.bytes).1
  mask1 : u.mask1 = (dwrMasks c u.ram u.bytes).2

theorem ite_gt_min (a b : Nat) : (if a > b then b else a) = min a b := by
  split <;> omega

theorem tlpBytes_ge {c : DwrCfg} (hc : DwrCfgOk c) : 4 ≤ c.tlpBytes := by
  have := Nat.pow_le_pow_right (n := 2) (by omega) hc.tb.1
  exact this

theorem rowBytes_eq (c : DwrCfg) : c.rowBytes = 2 * c.tlpBytes := by
  unfold DwrCfg.rowBytes DwrCfg.tlpBytes; rw [Nat.pow_succ]; omega

theorem rdSeq_get (c : DwrCfg) (r : DwrReq) (Q : Nat → DwrRd → Prop) (N n : Nat) (x u : DwrRd) (k : Nat) (hx : Q k x)
    (hs : ∀ j y, j < k + N → Q j y → Q (j + 1) (dwrRdNext c y)) (hu : (rdSeq c N x)[n]? = some u) : Q (k + n) u := by
  induction N generalizing x k n with
  | zero =>
    cases n with
    | zero => simp [rdSeq] at hu; subst hu; exact hx
    | succ n => simp [rdSeq] at hu
  | succ N ih =>
    cases n with
    | zero => simp [rdSeq] at hu; subst hu; exact hx
    | succ n =>
      simp only [rdSeq, List.getElem?_cons_succ] at hu
      have := ih n (dwrRdNext c x) (k + 1) (hs k x (by omega) hx) (fun j y hj => hs j y (by omega)) hu
      rwa [show k + 1 + n = k + (n + 1) by omega] at this

theorem segCyc_mul {c : DwrCfg} {r : DwrReq} {n : Nat} (h : n ≤ segCyc c r) :
    n * c.tlpBytes ≤ r.tlpCount + r.addr % 4 - 1 :=
  Nat.le_trans (Nat.mul_le_mul_right _ h) (Nat.div_mul_le_self _ _)

theorem segReads_at {c : DwrCfg} {m : Nat} {r : DwrReq} (hc : DwrCfgOk c) (hm : m ≤ 512) (hr : SegOk c m r) {n : Nat}
    {u : DwrRd} (hu : (segReads c r)[n]? = some u) : RdAt c r n u := by
  have hT := tlpBytes_ge hc
  have h1 := hr.mps
  have key := rdSeq_get c r (RdAt c r) (segCyc c r) n (dwrRdLoad c (dwrCmdOf c r) true) u 0 ?_ ?_ hu
  · rwa [Nat.zero_add] at key
  · have hl : r.tlpCount % 2 ^ 12 = r.tlpCount := Nat.mod_eq_of_lt (by simp only [Nat.reducePow]; omega)
    constructor
    · show r.ram = _
      simp only [consumed, if_true, Nat.add_zero]
      rw [Nat.mod_eq_of_lt hr.ram]
    · show r.tlpCount % 2 ^ 12 = _
      rw [hl]; simp [consumed]
    · show (if r.tlpCount % 2 ^ 12 > c.tlpBytes - r.addr % 4 then c.tlpBytes - r.addr % 4 else r.tlpCount % 2 ^ 12) = _
      rw [hl, ite_gt_min]; simp [consumed]
    · rfl
    · rfl
  · intro j y hj hy
    have hmul := segCyc_mul (c := c) (r := r) (n := j + 1) (by omega)
    rw [Nat.add_mul, Nat.one_mul] at hmul
    have hcon : consumed c r (j + 1) = j * c.tlpBytes + c.tlpBytes - r.addr % 4 := by
      simp [consumed, Nat.add_mul]
    have hb : y.bytes + consumed c r j = consumed c r (j + 1) := by
      rw [hy.bytes, hcon]
      unfold consumed
      by_cases h0 : j = 0
      · subst h0; simp; omega
      · simp only [h0, if_false]
        have : 1 * c.tlpBytes ≤ j * c.tlpBytes := Nat.mul_le_mul_right _ (by omega)
        omega
    have hlen : (dwrRdNext c y).len = r.tlpCount - consumed c r (j + 1) := by
      show y.len - y.bytes = _
      rw [hy.len]; omega
    constructor
    · show (y.ram + y.bytes) % 2 ^ c.ramW = _
      rw [hy.ram, Nat.mod_add_mod]
      congr 1; omega
    · exact hlen
    · show (if (dwrRdNext c y).len > c.tlpBytes then c.tlpBytes else (dwrRdNext c y).len) = _
      rw [hlen, ite_gt_min]; simp
    · rfl
    · rfl

theorem txAt_vals {c : DwrCfg} {m : Nat} {r : DwrReq} (hc : DwrCfgOk c) (hm : m ≤ 512) (hr : SegOk c m r) (n : Nat)
    (hn : n ≤ segCyc c r) :
    (txAt c r n).dw = (r.tlpCount + r.addr % 4 + 3) / 4 - n * 2 ^ (c.tb - 2) ∧
    (txAt c r n).offset = (r.addr % 4 + c.rowBytes - r.ram % c.rowBytes + n * c.tlpBytes) % c.rowBytes ∧
    (txAt c r n).addr = r.addr ∧ (txAt c r n).len = r.tlpCount ∧ (txAt c r n).zero = r.zero := by
  have h1 := hr.mps
  have hT : c.tlpBytes = 4 * 2 ^ (c.tb - 2) := by
    have := hc.tb.1
    unfold DwrCfg.tlpBytes
    rw [show (4 : Nat) = 2 ^ 2 by decide, ← Nat.pow_add]
    congr 1; omega
  have hD : 2 ^ (c.tb - 2) ≤ 512 := by
    have := hc.tb.2
    exact Nat.pow_le_pow_right (n := 2) (j := 9) (by omega) (by omega)
  induction n with
  | zero =>
    refine ⟨?_, ?_, rfl, ?_, rfl⟩
    · show (r.tlpCount + r.addr % 4 + 3) / 4 % 2 ^ 10 = _
      rw [Nat.mod_eq_of_lt (by simp only [Nat.reducePow]; omega)]; omega
    · show (r.addr % 4 + c.rowBytes - r.ram % c.rowBytes) % c.rowBytes = _
      rw [Nat.zero_mul, Nat.add_zero]
    · show r.tlpCount % 2 ^ 12 = _
      exact Nat.mod_eq_of_lt (by simp only [Nat.reducePow]; omega)
  | succ n ih =>
    obtain ⟨i1, i2, i3, i4, i5⟩ := ih (by omega)
    have hmul := segCyc_mul (c := c) (r := r) (n := n + 1) hn
    rw [hT] at hmul
    refine ⟨?_, ?_, i3, i4, i5⟩
    · show ((txAt c r n).dw + 2 ^ 10 - 2 ^ (c.tb - 2) % 2 ^ 10) % 2 ^ 10 = _
      rw [i1, Nat.add_mul, Nat.one_mul]
      have e : (n + 1) * (4 * 2 ^ (c.tb - 2)) = 4 * (n * 2 ^ (c.tb - 2)) + 4 * 2 ^ (c.tb - 2) := by
        rw [Nat.add_mul, Nat.one_mul, Nat.mul_left_comm]
      rw [e] at hmul
      simp only [Nat.reducePow]
      generalize 2 ^ (c.tb - 2) = X at *
      generalize n * X = Y at *
      omega
    · show ((txAt c r n).offset + c.tlpBytes) % c.rowBytes = _
      rw [i2, Nat.mod_add_mod, Nat.add_mul, Nat.one_mul, Nat.add_assoc]

theorem mod_solve {z Y l R : Nat} (hl : l < R) (h : (z + Y) % R = l) : (l + R - Y % R) % R = z % R := by
  have hR : 0 < R := by omega
  rw [Nat.add_mod] at h
  have h1 := Nat.mod_lt z hR
  have h2 := Nat.mod_lt Y hR
  generalize z % R = zz at *
  generalize Y % R = y at *
  by_cases hlt : zz + y < R
  · rw [Nat.mod_eq_of_lt hlt] at h
    rw [show l + R - y = zz + R by omega, Nat.add_mod_right, Nat.mod_eq_of_lt h1]
  · rw [Nat.mod_eq_sub_mod (by omega), Nat.mod_eq_of_lt (by omega)] at h
    rw [show l + R - y = zz by omega, Nat.mod_eq_of_lt h1]

theorem mul_add_mod_mul (A x R Q : Nat) (hx : x < R) : (A * R + x) % (R * Q) = A % Q * R + x := by
  rw [Nat.mod_mul, Nat.mul_comm A R, Nat.mul_add_mod, Nat.mod_eq_of_lt hx, Nat.mul_add_div (by omega),
    Nat.div_eq_of_lt hx, Nat.add_zero, Nat.mul_comm, Nat.add_comm]

/-- The byte at position `p` of a TLP. -/
def segSrc (c : DwrCfg) (mem : Nat → Nat → UInt8) (r : DwrReq) (p : Nat) : UInt8 :=
  if r.immEn then r.imm ((r.ram + p) % c.rowBytes) else mem r.sel ((r.ram + p) % 2 ^ c.ramW)

/-- Which segment holds a byte, and at which address. -/
theorem masks_cover {c : DwrCfg} (hc : DwrCfgOk c) (a bytes q : Nat) (ha : a < 2 ^ c.ramW) (hb : bytes ≤ c.tlpBytes)
    (hq : q < bytes) (u : DwrRd) (hu : u.ram = a) (h0 : u.mask = (dwrMasks c a bytes).1)
    (h1 : u.mask1 = (dwrMasks c a bytes).2) :
    (a + q) % c.rowBytes / c.segBytes < c.segs ∧ u.mask ((a + q) % c.rowBytes / c.segBytes) = true ∧
    rdAddr c u ((a + q) % c.rowBytes / c.segBytes) * c.rowBytes + (a + q) % c.rowBytes = (a + q) % 2 ^ c.ramW := by
  have hR := rowBytes_eq c
  have hT := tlpBytes_ge hc
  have hSB : 0 < c.segBytes := Nat.two_pow_pos _
  have hrow : c.rowBytes = c.segs * c.segBytes := by
    unfold DwrCfg.rowBytes DwrCfg.segs DwrCfg.segBytes
    rw [← Nat.pow_add]; congr 1; have := hc.sc; omega
  have hle : c.segBytes ≤ c.tlpBytes := by
    unfold DwrCfg.tlpBytes DwrCfg.segBytes
    exact Nat.pow_le_pow_right (by omega) (by have := hc.sc; omega)
  have h4 : 2 ^ (c.tb + 2) = 2 * c.rowBytes := by unfold DwrCfg.rowBytes; rw [Nat.pow_succ 2 (c.tb + 1)]; omega
  have hP : 2 ^ c.ramW = c.rowBytes * 2 ^ (c.ramW - (c.tb + 1)) := by
    unfold DwrCfg.rowBytes; rw [← Nat.pow_add]; congr 1; have := hc.ram; omega
  have hR0 : 0 < c.rowBytes := by omega
  have hda := Nat.div_add_mod a c.rowBytes
  have hma := Nat.mod_lt a hR0
  -- the state of the read
  unfold dwrMasks at h0 h1
  simp only [h4] at h0 h1
  have he : (a % c.rowBytes + bytes + 2 * c.rowBytes - 1) % (2 * c.rowBytes) = a % c.rowBytes + bytes - 1 := by
    rw [show a % c.rowBytes + bytes + 2 * c.rowBytes - 1 = (a % c.rowBytes + bytes - 1) + 2 * c.rowBytes by omega,
      Nat.add_mod_right, Nat.mod_eq_of_lt (by omega)]
  rw [he] at h0 h1
  have hx : (a + q) % c.rowBytes = if a % c.rowBytes + q < c.rowBytes then a % c.rowBytes + q
      else a % c.rowBytes + q - c.rowBytes := by
    rw [Nat.add_mod, Nat.mod_eq_of_lt (show q < c.rowBytes by omega)]
    split
    · rw [Nat.mod_eq_of_lt (by assumption)]
    · rw [Nat.mod_eq_sub_mod (by omega), Nat.mod_eq_of_lt (by omega)]
  have hxl : (a + q) % c.rowBytes < c.rowBytes := Nat.mod_lt _ hR0
  refine ⟨?_, ?_⟩
  · exact (Nat.div_lt_iff_lt_mul hSB).mpr (by rw [← hrow]; exact hxl)
  -- the address
  have haddr : (a + q) % 2 ^ c.ramW =
      ((if a % c.rowBytes + q < c.rowBytes then a / c.rowBytes else a / c.rowBytes + 1) % 2 ^ (c.ramW - (c.tb + 1))) *
        c.rowBytes + (a + q) % c.rowBytes := by
    rw [hP, ← mul_add_mod_mul _ _ _ _ hxl]
    congr 1
    rw [hx]
    split
    · rw [Nat.mul_comm]; omega
    · rw [Nat.add_mul, Nat.one_mul, Nat.mul_comm]; omega
  rw [haddr]
  simp only [rdAddr, hu]
  by_cases hw : (a % c.rowBytes + bytes - 1) / c.rowBytes = 0
  · -- one row
    have hlt : a % c.rowBytes + bytes - 1 < c.rowBytes := by
      rcases Nat.div_eq_zero_iff.mp hw with h | h <;> omega
    rw [if_pos hw] at h0 h1
    rw [hx, if_pos (by omega), h0, h1]
    refine ⟨?_, by simp only [Bool.false_eq_true, if_false]; rw [if_pos (by omega)]⟩
    simp only [Bool.and_eq_true, decide_eq_true_eq]
    rw [Nat.mod_eq_of_lt hlt]
    exact ⟨Nat.div_le_div_right (by omega), Nat.div_le_div_right (by omega)⟩
  · have hge : c.rowBytes ≤ a % c.rowBytes + bytes - 1 := by
      apply Nat.le_of_not_lt; intro h; exact hw (Nat.div_eq_of_lt h)
    have hem : (a % c.rowBytes + bytes - 1) % c.rowBytes = a % c.rowBytes + bytes - 1 - c.rowBytes := by
      rw [Nat.mod_eq_sub_mod hge, Nat.mod_eq_of_lt (by omega)]
    rw [if_neg hw] at h0 h1
    rw [h0, h1]
    simp only [hem]
    rw [hx]
    by_cases hq' : a % c.rowBytes + q < c.rowBytes
    · simp only [if_pos hq']
      have hnm : ¬ (a % c.rowBytes + q) / c.segBytes ≤ (a % c.rowBytes + bytes - 1 - c.rowBytes) / c.segBytes := by
        have : (a % c.rowBytes + bytes - 1 - c.rowBytes) / c.segBytes + 1 ≤ (a % c.rowBytes + q) / c.segBytes := by
          rw [← Nat.add_div_right _ hSB]
          exact Nat.div_le_div_right (by omega)
        omega
      refine ⟨?_, ?_⟩
      · simp only [Bool.or_eq_true, decide_eq_true_eq]
        exact Or.inl (Nat.div_le_div_right (by omega))
      · rw [if_neg (by simpa using hnm)]
    · simp only [if_neg hq']
      have hm1 : (a % c.rowBytes + q - c.rowBytes) / c.segBytes ≤ (a % c.rowBytes + bytes - 1 - c.rowBytes) / c.segBytes :=
        Nat.div_le_div_right (by omega)
      refine ⟨?_, ?_⟩
      · simp only [Bool.or_eq_true, decide_eq_true_eq]
        exact Or.inr hm1
      · rw [if_pos (by simpa using hm1)]

/-- Every byte of a transfer that belongs to the TLP is right. -/
theorem beat_data {c : DwrCfg} {mem : Nat → Nat → UInt8} {m rid : Nat} {r : DwrReq} (hc : DwrCfgOk c) (hm : m ≤ 512)
    (hr : SegOk c m r) {n : Nat} (hn : n ≤ segCyc c r) {b : DwrBeat} (hb : BeatOk c mem rid r n b) {l p : Nat}
    (hl : l < c.tlpBytes) (hp : p < r.tlpCount) (e : p + r.addr % 4 = n * c.tlpBytes + l) :
    b.data l = segSrc c mem r p := by
  obtain ⟨row, u, hu, hd, hi, hmem⟩ := hb.data
  have hR := rowBytes_eq c
  have hT := tlpBytes_ge hc
  obtain ⟨_, ho, _⟩ := txAt_vals hc hm hr n hn
  have hx : (l + c.rowBytes - (txAt c r n).offset) % c.rowBytes = (r.ram + p) % c.rowBytes := by
    rw [ho]
    apply mod_solve (by omega)
    have hd := Nat.div_add_mod r.ram c.rowBytes
    have hlt := Nat.mod_lt r.ram (show 0 < c.rowBytes by omega)
    have e2 : r.ram + p + (r.addr % 4 + c.rowBytes - r.ram % c.rowBytes + n * c.tlpBytes) =
        l + c.rowBytes * (r.ram / c.rowBytes + 1 + n) := by
      rw [Nat.mul_add, Nat.mul_add, Nat.mul_one]
      have : c.rowBytes * n = n * c.tlpBytes + n * c.tlpBytes := by rw [hR, Nat.mul_comm, ← Nat.mul_add]; congr 1; omega
      omega
    rw [e2, Nat.add_mul_mod_self_left, Nat.mod_eq_of_lt (by omega)]
  rw [hd]
  show row _ = _
  rw [hx]
  unfold segSrc
  cases him : r.immEn with
  | true =>
    rw [if_pos rfl, hi (by rw [him, hr.imm him]; rfl)]
  | false =>
    simp only [Bool.false_eq_true, if_false]
    have hat := segReads_at hc hm hr hu
    have hsel := (segReads_mem (List.mem_of_getElem? hu)).2.2
    have him' := (segReads_mem (List.mem_of_getElem? hu)).2.1
    have hmask : maskOf c u = u.mask := by unfold maskOf; rw [him', him]; simp
    have hbl : u.bytes ≤ c.tlpBytes := by rw [hat.bytes]; split <;> omega
    -- position within this read
    have hcl : consumed c r n ≤ p := by
      unfold consumed
      split
      · omega
      · omega
    have hq : p - consumed c r n < u.bytes := by
      rw [hat.bytes]
      unfold consumed at hcl ⊢
      by_cases h0 : n = 0
      · subst h0; simp; omega
      · simp only [h0, if_false] at hcl ⊢
        have : 1 * c.tlpBytes ≤ n * c.tlpBytes := Nat.mul_le_mul_right _ (by omega)
        omega
    have hlt : u.ram < 2 ^ c.ramW := by rw [hat.ram]; exact Nat.mod_lt _ (Nat.two_pow_pos _)
    obtain ⟨k1, k2, k3⟩ := masks_cover hc u.ram u.bytes (p - consumed c r n) hlt hbl hq u rfl hat.mask hat.mask1
    have hdvd : c.rowBytes ∣ 2 ^ c.ramW := by
      unfold DwrCfg.rowBytes; exact Nat.pow_dvd_pow 2 hc.ram
    have ep : ∀ M, M ∣ 2 ^ c.ramW → (u.ram + (p - consumed c r n)) % M = (r.ram + p) % M := by
      intro M hM
      rw [hat.ram, Nat.add_mod, Nat.mod_mod_of_dvd _ hM, ← Nat.add_mod]
      congr 1; omega
    rw [ep _ hdvd] at k1 k2 k3
    rw [ep _ (Nat.dvd_refl _)] at k3
    have hSB : 0 < c.segBytes := Nat.two_pow_pos _
    have := hmem _ k1 (by rw [hmask]; exact k2) ((r.ram + p) % c.rowBytes % c.segBytes) (Nat.mod_lt _ hSB)
    have e3 : (r.ram + p) % c.rowBytes / c.segBytes * c.segBytes + (r.ram + p) % c.rowBytes % c.segBytes =
        (r.ram + p) % c.rowBytes := by rw [Nat.mul_comm]; exact Nat.div_add_mod _ _
    rw [e3, hsel, k3] at this
    exact this

end Verif.Proofs
