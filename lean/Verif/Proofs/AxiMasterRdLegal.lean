import Verif.Proofs.AxiMasterRdLive
/-! The AXI master for reads: the parts of a read, the bounds of bursts, and errors. -/
namespace Verif.Proofs
open Verif Verif.Model Verif.Spec

/-- The parts of a read follow each other. -/
theorem parts_chain (mx : Nat) (hm : 128 ≤ mx) (h128 : mx % 128 = 0) (f : Nat) : ∀ a n, 1 ≤ n → n ≤ 4 * f → a % 4 = 0 → n % 4 = 0 →
    (readParts mx f a n).head?.map (·.1) = some a ∧
    (∀ k x y, (readParts mx f a n)[k]? = some x → (readParts mx f a n)[k + 1]? = some y → y.1 = x.1 + x.2 ∧ y.1 % 128 = 0) ∧
    (∀ x ∈ readParts mx f a n, a ≤ x.1 ∧ x.1 + x.2 ≤ a + n ∧ 0 < x.2 ∧ x.2 ≤ mx) := by
  induction f with
  | zero => intro a n h1 h2; omega
  | succ f ih =>
    intro a n h1 h2 h3 h4
    unfold readParts
    split
    · refine ⟨rfl, ?_, ?_⟩
      · intro k x y _ hy; simp at hy
      · intro x hx; simp only [List.mem_singleton] at hx; subst hx; simp only; omega
    · rename_i h
      obtain ⟨i1, i2, i3⟩ := ih (a / 128 * 128 + mx) (n - (a / 128 * 128 + mx - a)) (by omega) (by omega) (by omega) (by omega)
      refine ⟨rfl, ?_, ?_⟩
      · intro k x y hx hy
        cases k with
        | zero =>
          simp only [List.getElem?_cons_zero, Option.some.injEq, Nat.zero_add, List.getElem?_cons_succ] at hx hy
          subst hx
          rw [← List.head?_eq_getElem?] at hy
          rw [hy] at i1
          simp only [Option.map_some, Option.some.injEq] at i1
          simp only; omega
        | succ k =>
          simp only [List.getElem?_cons_succ] at hx hy
          exact i2 k x y hx hy
      · intro x hx
        rcases List.mem_cons.1 hx with hx | hx
        · subst hx; simp only; omega
        · have := i3 x hx; omega

/-- With a burst length that is a power of two a completion has not more data than a burst. -/
theorem axrMax_burst (c : AxrCfg) (hc : AxrCfgOk c) (m k : Nat) (hk : c.burst = 2 ^ k) : axrMax c m ≤ c.burst * 2 ^ c.tb := by
  have hs := hc.size
  unfold axrMax AxrCfg.payloadMax
  have he : c.burst * 2 ^ c.tb = 2 ^ (k + c.tb) := by rw [hk, Nat.pow_add]
  rw [he] at hs ⊢
  have h7 : 7 ≤ k + c.tb := by
    rcases Nat.lt_or_ge (k + c.tb) 7 with h | h
    · have := Nat.pow_lt_pow_right (a := 2) (by decide) h; omega
    · exact h
  split
  · have : 2 ^ (k + c.tb) / 128 = 2 ^ (k + c.tb - 7) := by
      rw [show 128 = 2 ^ 7 by rfl, Nat.pow_div h7 (by decide)]
    rw [this, clog2_pow]
    calc 128 * 2 ^ min m (k + c.tb - 7) ≤ 128 * 2 ^ (k + c.tb - 7) := Nat.mul_le_mul_left _ (Nat.pow_le_pow_right (by decide) (Nat.min_le_right _ _))
      _ = 2 ^ (k + c.tb) := by rw [show 128 = 2 ^ 7 by rfl, ← Nat.pow_add]; congr 1; omega
  · rename_i h
    have : 2 ^ min m 5 ≤ 2 ^ 5 := Nat.pow_le_pow_right (by decide) (Nat.min_le_right _ _)
    omega

/-- The completions with data for a request. -/
theorem job_of_read (c : AxrCfg) (m cid : Nat) (h : TlpHdr) (j : AxrJob) (hj : j ∈ axrJobs c m cid h) (hb : j.bytes ≠ 0) :
    tlpIsRead h = true ∧ ∃ x ∈ readParts (axrMax c m) (4 * hdrLen h) (axrTlpAddr c h) (4 * hdrLen h), j = axrPart c cid h x := by
  unfold axrJobs at hj
  split at hj
  · rename_i hr
    obtain ⟨x, hx, rfl⟩ := List.mem_map.1 hj
    exact ⟨hr, x, hx, rfl⟩
  · split at hj
    · simp only [List.mem_singleton] at hj; subst hj; exact absurd rfl hb
    · cases hj

/-- The bursts stay in their pages. -/
theorem burst_legal (c : AxrCfg) (hc : AxrCfgOk c) (m cid : Nat) (h : TlpHdr) (j : AxrJob) (hj : j ∈ axrJobs c m cid h) (hb : j.bytes ≠ 0)
    (hk : JobOk c j) (hf : j.first / 2 ^ c.tb = j.addr / 2 ^ c.tb) (hp : axrTlpAddr c h % 4096 + 4 * hdrLen h ≤ 4096) :
    (j.first / 2 ^ c.tb * 2 ^ c.tb) % 4096 + jobNb c j * 2 ^ c.tb ≤ 4096 ∧ jobNb c j ≤ 256 ∧
    (∀ k, c.burst = 2 ^ k → jobNb c j ≤ c.burst + 1 ∧ (j.addr % 2 ^ c.tb = 0 → jobNb c j ≤ c.burst)) := by
  obtain ⟨_, x, hx, rfl⟩ := job_of_read c m cid h j hj hb
  obtain ⟨m1, m2, m3, _⟩ := axrMax_rng c hc m
  obtain ⟨e1, e2, e3, e4, e5, e6⟩ := readEnd_rng h
  have ha4 := (axrTlpAddr_mod4 c hc h).1
  obtain ⟨p1, p2, p3, p4⟩ := (parts_chain _ m1 m3 (4 * hdrLen h) (axrTlpAddr c h) (4 * hdrLen h) (by omega) (by omega) ha4 (by omega)).2.2 x hx
  obtain ⟨hbb, hdw, _⟩ := axr_bytes c hc
  have hb8 : 0 < 2 ^ c.tb := Nat.two_pow_pos _
  have hnb := hk.nb
  refine ⟨?_, hnb, ?_⟩
  · rw [hf]
    have hpage : x.1 / 4096 = axrTlpAddr c h / 4096 := by omega
    have hx4 : x.1 % 4096 + x.2 ≤ 4096 := by omega
    have htb := hc.tb.2
    obtain ⟨q, hq⟩ : 2 ^ c.tb ∣ 4096 := by rw [show 4096 = 2 ^ 12 by rfl]; exact Nat.pow_dvd_pow 2 htb
    show (x.1 / 2 ^ c.tb * 2 ^ c.tb) % 4096 + jobNb c (axrPart c cid h x) * 2 ^ c.tb ≤ 4096
    have ha : x.1 % 4096 = x.1 % 2 ^ c.tb + 2 ^ c.tb * (x.1 / 2 ^ c.tb % q) := by rw [hq, Nat.mod_mul]
    have hal : x.1 / 2 ^ c.tb * 2 ^ c.tb % 4096 = 2 ^ c.tb * (x.1 / 2 ^ c.tb % q) := by rw [hq, Nat.mul_comm, Nat.mul_mod_mul_left]
    rw [hal]
    generalize x.1 / 2 ^ c.tb % q = w at *
    have hn : jobNb c (axrPart c cid h x) ≤ q - w := by
      show (x.1 % 2 ^ c.tb + x.2 + 2 ^ c.tb - 1) / 2 ^ c.tb ≤ q - w
      apply Nat.le_of_lt_succ
      rw [Nat.div_lt_iff_lt_mul hb8]
      have : (q - w) * 2 ^ c.tb = 4096 - 2 ^ c.tb * w := by rw [Nat.sub_mul, hq, Nat.mul_comm q, Nat.mul_comm w]
      rw [Nat.succ_mul, this]
      omega
    have hw : w < q := by
      rcases Nat.lt_or_ge w q with h | h
      · exact h
      · have := Nat.mul_le_mul_left (2 ^ c.tb) h
        omega
    calc 2 ^ c.tb * w + jobNb c (axrPart c cid h x) * 2 ^ c.tb ≤ 2 ^ c.tb * w + (q - w) * 2 ^ c.tb := Nat.add_le_add_left (Nat.mul_le_mul_right _ hn) _
      _ = 4096 := by rw [Nat.mul_comm (q - w), ← Nat.mul_add, hq]; congr 1; omega
  · intro k hk2
    have hmx := axrMax_burst c hc m k hk2
    have hlt := Nat.mod_lt x.1 hb8
    show (x.1 % 2 ^ c.tb + x.2 + 2 ^ c.tb - 1) / 2 ^ c.tb ≤ c.burst + 1 ∧ (x.1 % 2 ^ c.tb = 0 → (x.1 % 2 ^ c.tb + x.2 + 2 ^ c.tb - 1) / 2 ^ c.tb ≤ c.burst)
    generalize c.burst = B at *
    generalize 2 ^ c.tb = b at *
    constructor
    · apply Nat.le_of_lt_succ
      rw [Nat.div_lt_iff_lt_mul hb8, Nat.succ_mul, Nat.succ_mul]
      omega
    · intro h0
      apply Nat.le_of_lt_succ
      rw [Nat.div_lt_iff_lt_mul hb8, Nat.succ_mul]
      omega

/-! ### Errors -/

/-- The state of the request side and the input. -/
structure AxrSide (s : Axr) (op : Bool) : Prop where
  op : op = (s.st == .waitEnd)
  start : s.st = .start → s.rxReady = false

theorem axrSide_head {s : Axr} {op : Bool} (h : AxrSide s op) (i : AxrIn) : axrHead s i = (s.rxReady && i.valid && (!op && i.sop)) := by
  unfold axrHead
  rw [h.op]
  cases hs : s.st with
  | start => rw [h.start hs]; rfl
  | idle => cases s.rxReady <;> cases i.valid <;> cases i.sop <;> rfl
  | waitEnd => cases s.rxReady <;> cases i.valid <;> cases i.sop <;> rfl

theorem axrSide_step {c : AxrCfg} {s : Axr} {op : Bool} (h : AxrSide s op) (i : AxrIn) (hr : i.rst = false)
    (hk : axrHead s i = true → axrIsRead i.hdr = true → i.eop = true) :
    AxrSide (axrStep c s i) (if s.rxReady && i.valid then if op || i.sop then !i.eop else false else op) := by
  have hstep := axrStep_norst c s i hr
  have est : (axrStep c s i).st = axrStNext s i := by rw [hstep]; rfl
  have erx : (axrStep c s i).rxReady = axrRxNext s i := by rw [hstep]; rfl
  have hop := h.op
  constructor
  · rw [est]
    unfold axrStNext
    cases hs : s.st with
    | start => rw [hop, hs, h.start hs]; simp; split <;> rfl
    | waitEnd =>
      rw [hop, hs]
      cases s.rxReady <;> cases i.valid <;> cases i.eop <;> rfl
    | idle =>
      rw [hop, hs]
      simp only
      by_cases hh : axrHead s i = true
      · have hh' := hh
        unfold axrHead at hh'
        simp only [Bool.and_eq_true, beq_iff_eq] at hh'
        rw [if_pos hh, hh'.1.1.2, hh'.1.2, hh'.2]
        cases hrd : axrIsRead i.hdr with
        | true => rw [hk hh hrd]; rfl
        | false => cases i.eop <;> rfl
      · have hh' : axrHead s i = false := by cases hx : axrHead s i <;> simp_all
        rw [hh']
        unfold axrHead at hh'
        rw [hs] at hh'
        cases hx : (s.rxReady && i.valid) with
        | false => rfl
        | true =>
          have : i.sop = false := by rw [Bool.and_eq_true] at hx; rw [hx.1, hx.2] at hh'; simpa using hh'
          rw [this]; rfl
  · rw [est, erx]
    unfold axrStNext axrRxNext
    cases hs : s.st with
    | start => intro _; rfl
    | waitEnd => simp only; split <;> intro h <;> cases h
    | idle =>
      simp only
      split
      · split
        · intro _; rfl
        · split <;> intro h <;> cases h
      · intro h; cases h

theorem axrSide_run (c : AxrCfg) (s : Axr) (r : AxrIn) (hr : r.rst = true) : ∀ is : List AxrIn, (∀ i ∈ is, i.rst = false) →
    (∀ x ∈ axrReqs c (axrStep c s r) is, AxReqOk x.hdr ∧ (tlpIsRead x.hdr = true → x.eop = true)) →
    AxrSide (axrRun c (axrStep c s r) is) (axrOpen false (axrTaken c (axrStep c s r) is)) := by
  refine axr_snoc_ind ?_ ?_
  · intro _ _
    have e : axrStep c s r = { axrNext c s r true with st := .idle, ts := .idle, cmdV := false, rxReady := false, arV := false, rReady := false, errCor := false, errUncor := false } := by
      unfold axrStep; rw [hr]; rfl
    show AxrSide (axrStep c s r) false
    rw [e]
    exact ⟨rfl, fun h => by cases h⟩
  · intro is i ih hn hq
    have h := ih (fun x hx => hn x (by simp [hx])) (fun x hx => hq x ((axrReqs_prefix c _ is [i]).subset hx))
    have hh := axrSide_head h i
    generalize axrStep c s r = s0 at *
    rw [axrRun_snoc, axrTaken_snoc]
    have e : axrOpen false (axrTaken c s0 is ++ (if (axrRun c s0 is).rxReady && i.valid then [i] else [])) =
        if (axrRun c s0 is).rxReady && i.valid then if axrOpen false (axrTaken c s0 is) || i.sop then !i.eop else false else axrOpen false (axrTaken c s0 is) := by
      cases (axrRun c s0 is).rxReady && i.valid
      · simp
      · simp only [if_true]; exact (axrHeads_snoc _ _ _).2
    rw [e]
    refine axrSide_step h i (hn i (by simp)) ?_
    intro hhd hrd
    have hm : i ∈ axrReqs c s0 (is ++ [i]) := by
      unfold axrReqs
      rw [axrTaken_snoc]
      rw [hhd] at hh
      have hh := hh.symm
      rw [Bool.and_eq_true] at hh
      rw [hh.1]
      simp only [if_true]
      rw [(axrHeads_snoc _ _ _).1, hh.2]
      simp
    obtain ⟨k1, k2⟩ := hq i hm
    exact k2 (by rw [← (axrIs_eq i.hdr k1).1]; exact hrd)

/-- The error outputs. -/
theorem axr_err (c : AxrCfg) (s : Axr) (r : AxrIn) (hr : r.rst = true) (is : List AxrIn) (i : AxrIn) (hn : ∀ j ∈ is ++ [i], j.rst = false)
    (hq : ∀ x ∈ axrReqs c (axrStep c s r) (is ++ [i]), AxReqOk x.hdr ∧ (tlpIsRead x.hdr = true → x.eop = true)) :
    ((axrRun c (axrStep c s r) (is ++ [i])).errCor, (axrRun c (axrStep c s r) (is ++ [i])).errUncor) =
      if (axrReqs c (axrStep c s r) (is ++ [i])).length = (axrReqs c (axrStep c s r) is).length then (false, false) else axrPulse i.hdr := by
  have h := axrSide_run c s r hr is (fun x hx => hn x (by simp [hx])) (fun x hx => hq x ((axrReqs_prefix c _ is [i]).subset hx))
  have hh := axrSide_head h i
  generalize axrStep c s r = s0 at *
  rw [axrRun_snoc, axrStep_norst c _ i (hn i (by simp))]
  show ((axrHead (axrRun c s0 is) i && (axrIsCpl i.hdr || axrIsUr i.hdr)), (axrHead (axrRun c s0 is) i && axrIsPosted i.hdr)) = _
  have e : axrReqs c s0 (is ++ [i]) = axrReqs c s0 is ++ (if axrHead (axrRun c s0 is) i then [i] else []) := by
    unfold axrReqs
    rw [axrTaken_snoc, hh]
    cases (axrRun c s0 is).rxReady && i.valid
    · simp
    · simp only [if_true, Bool.true_and]; exact (axrHeads_snoc _ _ _).1
  rw [e]
  cases hx : axrHead (axrRun c s0 is) i with
  | false => simp
  | true =>
    have hm : i ∈ axrReqs c s0 (is ++ [i]) := by rw [e, hx]; simp
    obtain ⟨hk, _⟩ := hq i hm
    obtain ⟨k1, k2, k3, k4⟩ := axrIs_eq i.hdr hk
    rw [k2, k3, k4, if_neg (by simp)]
    unfold axrPulse
    have hmsg := hk.1
    simp only [Bool.true_and, hmsg, Bool.or_false]
    have hd : tlpIsRead i.hdr = true → tlpIsWrite i.hdr = false ∧ tlpIsCpl i.hdr = false := by
      simp only [tlpIsRead, tlpIsWrite, tlpIsCpl]
      generalize bits i.hdr.dw0 31 29 = f
      generalize bits i.hdr.dw0 28 24 = t
      intro h1
      simp at h1 ⊢
      omega
    have hd2 : tlpIsWrite i.hdr = true → tlpIsCpl i.hdr = false := by
      simp only [tlpIsWrite, tlpIsCpl]
      generalize bits i.hdr.dw0 31 29 = f
      generalize bits i.hdr.dw0 28 24 = t
      intro h1
      simp at h1 ⊢
      omega
    unfold tlpIsUr
    rw [hmsg]
    cases h1 : tlpIsRead i.hdr <;> cases h2 : tlpIsWrite i.hdr <;> cases h3 : tlpIsCpl i.hdr <;> simp_all

end Verif.Proofs
