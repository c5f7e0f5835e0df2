import Verif.Proofs.AxiMasterRdInv
/-! The AXI master for reads: progress. -/
namespace Verif.Proofs
open Verif Verif.Model Verif.Spec

/-! ### The work for completions -/

/-- The steps for a completion. -/
def jobW (c : AxrCfg) (j : AxrJob) : Nat := (if j.bytes = 0 then 1 else jobNb c j + jobNw c j) + 2

/-- The steps for completions. -/
def jobsW (c : AxrCfg) (js : List AxrJob) : Nat := (js.map (jobW c)).sum

/-- The steps done for the completion being made. -/
def cuW : Option (AxrJob × Nat × Nat) → Nat
  | none => 0
  | some (_, ni, no) => 2 + ni + no

/-- The steps done. -/
def axrQ (c : AxrCfg) (done : List AxrJob) (cu : Option (AxrJob × Nat × Nat)) (cm : Option AxrJob) : Nat :=
  jobsW c done + cuW cu + if cm.isSome then 1 else 0

theorem jobsW_append (c : AxrCfg) (xs ys : List AxrJob) : jobsW c (xs ++ ys) = jobsW c xs + jobsW c ys := by simp [jobsW]

theorem jobsW_prefix (c : AxrCfg) (xs ys : List AxrJob) (h : xs <+: ys) : jobsW c xs ≤ jobsW c ys := by
  obtain ⟨t, rfl⟩ := h
  rw [jobsW_append]; omega

/-- The other sides have not been waited for. -/
structure AxrFast (s : Axr) : Prop where
  ready : s.out.ready = true
  r : s.ts = .header ∨ s.ts = .transfer → s.rReady = s.inA
  ar : s.arV = true → s.cmdV = true ∧ s.cmd.status = 0

theorem axr_fast (c : AxrCfg) (m cid : Nat) (mem : Nat → Nat → UInt8) (s : Axr) (op : Bool) (H : List AxrIn) (A : List (Nat × Nat))
    (R : List (Nat → UInt8)) (S : List AxrWord) (done : List AxrJob) (cu : Option (AxrJob × Nat × Nat)) (cm : Option AxrJob) (re : List AxrJob)
    (h : AxrInv c m cid mem s op H A R S done cu cm re) (i : AxrIn) (hr : i.rst = false) (ht : i.txReady = true) (ha : i.arReady = true) :
    AxrFast (axrStep c s i) := by
  have hE : axrEarly s i = true := by unfold axrEarly; rw [ht]; rfl
  rw [axrStep_norst c s i hr]
  refine ⟨?_, ?_, ?_⟩
  · show (skidStep false s.out _ _ i.txReady).ready = true
    rw [ht]; exact skid_ready _ _ _
  · intro hts
    have hts : axrTsNext s i = .header ∨ axrTsNext s i = .transfer := hts
    show axrRNext s i = axrActNext s i
    unfold axrRNext
    unfold axrTsNext at hts
    cases h1 : s.ts with
    | idle =>
      rw [h1] at hts
      have : axrActNext s i = true := by unfold axrActNext axrLoad; rw [h1]; rfl
      rw [this, hE]
      cases hv : s.cmdV with
      | false => rw [hv] at hts; simp at hts
      | true =>
        rw [hv] at hts
        by_cases h0 : s.cmd.status = 0
        · simp [h0]
        · simp [h0] at hts
    | cpl =>
      rw [h1] at hts
      cases hv : s.out.ready with
      | false => rw [hv] at hts; simp at hts
      | true =>
        rw [hv] at hts
        cases hw : s.cmdV with
        | false => rw [hw] at hts; simp at hts
        | true =>
          have : axrActNext s i = true := by unfold axrActNext axrLoad axrEnd; rw [h1, hv]; simp
          rw [this, hE]; rfl
    | header =>
      rw [h1] at hts
      by_cases he : axrEnd s i = true
      · have hfl : axrFire s i = true ∧ s.lastC = true := by unfold axrEnd at he; rw [h1] at he; simpa using he
        rw [hfl.1, hfl.2] at hts
        have : axrActNext s i = true := by unfold axrActNext axrLoad; rw [he]; simp
        rw [this, hE]
        cases hw : s.cmdV with
        | false => rw [hw] at hts; simp at hts
        | true => simp [he]
      · simp [he, hE]
    | transfer =>
      rw [h1] at hts
      by_cases he : axrEnd s i = true
      · rw [he] at hts
        have : axrActNext s i = true := by unfold axrActNext axrLoad; rw [he]; simp
        rw [this, hE]
        cases hw : s.cmdV with
        | false => rw [hw] at hts; simp at hts
        | true => simp [he]
      · simp [he, hE]
  · intro harv
    have harv : (axrIssue s || (s.arV && !i.arReady)) = true := harv
    rw [ha] at harv
    have hiss : axrIssue s = true := by simpa using harv
    have hst : s.st = .start := by unfold axrIssue at hiss; simp at hiss; exact hiss.1.1
    refine ⟨?_, ?_⟩
    · show ((axrHead s i && axrIsUr i.hdr) || axrIssue s || (s.cmdV && !axrLoad s i)) = true
      rw [hiss]; simp
    · show (axrCmdNext c s i).status = 0
      have hnh : ¬ axrHead s i = true := by unfold axrHead; rw [hst]; simp
      unfold axrCmdNext; rw [if_neg hnh, if_pos hiss]
      rcases h.st with ⟨_, _, q, _, hS⟩ | ⟨h1, _⟩
      · exact hS.st0
      · exact absurd hst h1

theorem jobsBeats_len (c : AxrCfg) (hc : AxrCfgOk c) (mem : Nat → Nat → UInt8) (xs ys : List AxrJob)
    (hj : ∀ j ∈ xs, j.bytes = 0 ∨ (JobOk c j ∧ j.first / 2 ^ c.tb = j.addr / 2 ^ c.tb)) (A : List (Nat × Nat))
    (h : A = xs.filterMap (jobBurst (2 ^ c.tb)) ++ ys.filterMap (jobBurst (2 ^ c.tb))) :
    (jobsBeats c mem 0 xs).length ≤ (burstData (2 ^ c.tb) mem 0 A).length := by
  rw [h, burstData_append, burstData_jobs c hc mem xs hj, List.length_append]; omega

/-- A step is done at each clock edge. -/
theorem axr_progress (c : AxrCfg) (hc : AxrCfgOk c) (m cid : Nat) (mem : Nat → Nat → UInt8) (s : Axr) (op : Bool) (H : List AxrIn) (A : List (Nat × Nat))
    (R : List (Nat → UInt8)) (S : List AxrWord) (done : List AxrJob) (cu : Option (AxrJob × Nat × Nat)) (cm : Option AxrJob) (re : List AxrJob)
    (h : AxrInv c m cid mem s op H A R S done cu cm re) (hf : AxrFast s) (i : AxrIn) (hr : i.rst = false)
    (hrv : R.length < (burstData (2 ^ c.tb) mem 0 A).length → i.rValid = true)
    (done' : List AxrJob) (cu' : Option (AxrJob × Nat × Nat)) (cm' : Option AxrJob) (hV' : (axrStep c s i).cmdV = cm'.isSome)
    (hmv : CurMove s i done cu cm done' cu') (hp : done.length < (H.flatMap fun i => axrJobs c m cid i.hdr).length) :
    axrQ c done cu cm < axrQ c done' cu' cm' := by
  have hcv : (axrStep c s i).cmdV = ((axrHead s i && axrIsUr i.hdr) || axrIssue s || (s.cmdV && !axrLoad s i)) := by
    rw [axrStep_norst c s i hr]; rfl
  have hkeep : axrLoad s i = false → (if cm.isSome then 1 else 0) ≤ (if cm'.isSome then 1 else 0) := by
    intro hl
    rw [← hV', hcv, hl, h.V]
    cases cm.isSome <;> simp
  have hcur := h.T.cur
  unfold axrQ
  match cu, hcur with
  | none, hcur =>
    have hts : s.ts = .idle := hcur
    obtain ⟨h1, h2⟩ := hmv.load (by unfold axrLoad; rw [hts]; rfl)
    rw [h1, h2]
    simp only [cuJ, Option.map_none, Option.toList_none, List.append_nil, cuW]
    cases hcm : cm with
    | some j =>
      simp [cuW]; omega
    | none =>
      have hre : re ≠ [] := by
        intro hre
        rw [h.jobs, hcm, hre] at hp
        simp [cuJ] at hp
      have hst : s.st = .start := by
        rcases h.st with ⟨h1, _⟩ | ⟨_, h1, _⟩
        · exact h1
        · exact absurd h1 hre
      have hcv0 : s.cmdV = false := by rw [h.V, hcm]; rfl
      have har : s.arV = false := by
        cases hx : s.arV with
        | false => rfl
        | true => have := (hf.ar hx).1; rw [hcv0] at this; cases this
      have hiss : axrIssue s = true := by unfold axrIssue; rw [hst, hcv0, har]; rfl
      have : cm'.isSome = true := by rw [← hV', hcv, hiss]; simp
      rw [this]; simp [cuW]
  | some (j, ni, no), Or.inr ⟨hj, h1, h2, hu⟩ =>
    obtain ⟨g1, g2⟩ := hmv.load (by unfold axrLoad axrEnd; rw [hu.ts, hf.ready]; simp)
    rw [g1, g2, jobsW_append]
    subst h1; subst h2
    cases cm <;> simp [cuJ, cuW, jobsW, jobW, hj] <;> omega
  | some (j, ni, no), Or.inl ⟨hj, hd⟩ =>
    obtain ⟨n1, n2, n3⟩ := jobN_rel c hc j hd.ok
    have hts : s.ts = .header ∨ s.ts = .transfer := by rw [hd.ts]; split <;> simp
    have hni : ni ≤ jobNb c j := by rw [hd.hni]; split <;> omega
    have hgo : axrGo s i = true := by
      have hx : (s.rReady && i.rValid) = true ∨ s.inA = false := by
        by_cases hlt : ni < jobNb c j
        · left
          have hia : s.inA = true := by rw [hd.inA]; exact decide_eq_true hlt
          rw [hf.r hts, hia, Bool.true_and]
          apply hrv
          have hlenR : R.length = (jobsBeats c mem 0 done).length + ni := by
            have := congrArg List.length h.T.rs
            rw [List.length_map, List.length_append] at this
            rw [this]
            simp only [cuBeats, jobBeats, if_neg hj, List.length_take, List.length_map, List.length_range]
            omega
          have hlen2 : (jobsBeats c mem 0 (done ++ [j])).length = (jobsBeats c mem 0 done).length + jobNb c j := by
            rw [jobsBeats_one, List.length_append]
            simp [jobBeats, hj]
          have hA : ∃ ys : List AxrJob, A = (done ++ [j]).filterMap (jobBurst (2 ^ c.tb)) ++ ys.filterMap (jobBurst (2 ^ c.tb)) := by
            have hars := h.ars
            cases harv : s.arV with
            | false =>
              refine ⟨cm.toList, ?_⟩
              rw [harv] at hars
              simp only [Bool.false_eq_true, if_false, List.append_nil] at hars
              rw [hars, List.filterMap_append]; rfl
            | true =>
              refine ⟨[], ?_⟩
              obtain ⟨f1, f2⟩ := hf.ar harv
              rw [harv] at hars
              have hsome : cm.isSome = true := by rw [← h.V, f1]
              obtain ⟨j2, hj2⟩ := Option.isSome_iff_exists.1 hsome
              have hb2 : j2.bytes ≠ 0 := by
                intro h0
                have := ((h.C j2 hj2).1.ur h0).1
                omega
              have hjb : ∃ x, jobBurst (2 ^ c.tb) j2 = some x := by unfold jobBurst; rw [if_neg hb2]; exact ⟨_, rfl⟩
              obtain ⟨x, hx⟩ := hjb
              rw [hj2] at hars
              simp only [if_true, Option.toList_some, List.filterMap_append, List.filterMap_cons, hx, List.filterMap_nil] at hars
              have := (List.append_inj' hars rfl).1
              rw [this]
              simp [cuJ, List.filterMap_append]
          obtain ⟨ys, hA⟩ := hA
          have := jobsBeats_len c hc mem (done ++ [j]) ys (fun x hx => h.ok x (by
            simp only [cuJ, Option.map_some, Option.toList_some]; exact List.mem_append_left _ hx)) A hA
          omega
        · right; rw [hd.inA]; exact decide_eq_false hlt
      unfold axrGo
      rw [hf.ready]
      have ht2 : (s.ts == .header || s.ts == .transfer) = true := by rcases hts with e | e <;> rw [e] <;> rfl
      rw [ht2]
      rcases hx with hx | hx <;> rw [hx] <;> simp
    cases hl : axrLoad s i with
    | true =>
      obtain ⟨g1, g2⟩ := hmv.load hl
      rw [g1, g2, jobsW_append]
      have := hd.lt
      cases cm <;> simp [cuJ, cuW, jobsW, jobW, hj] <;> omega
    | false =>
      obtain ⟨g1, g2⟩ := hmv.stay hl
      obtain ⟨ni', no', g3, g4, g5⟩ := g2 j ni no rfl
      have := g5 hgo
      have := hkeep hl
      rw [g1, g3]
      simp only [cuW]
      omega

/-- The steps done are at most those for the completions wanted. -/
theorem axrQ_le {c : AxrCfg} (hc : AxrCfgOk c) {m cid : Nat} {mem : Nat → Nat → UInt8} {s : Axr} {op : Bool} {H : List AxrIn} {A : List (Nat × Nat)}
    {R : List (Nat → UInt8)} {S : List AxrWord} {done : List AxrJob} {cu : Option (AxrJob × Nat × Nat)} {cm : Option AxrJob} {re : List AxrJob}
    (h : AxrInv c m cid mem s op H A R S done cu cm re) (N : Nat) (hN : N ≤ (H.flatMap fun i => axrJobs c m cid i.hdr).length) (hp : done.length < N) :
    axrQ c done cu cm ≤ jobsW c ((H.flatMap fun i => axrJobs c m cid i.hdr).take N) + 1 := by
  have hcm : (if cm.isSome then 1 else 0) ≤ 1 := by split <;> omega
  unfold axrQ
  have hjobs := h.jobs
  generalize (H.flatMap fun i => axrJobs c m cid i.hdr) = J at *
  have hcur := h.T.cur
  match cu, hcur with
  | none, _ =>
    have : done <+: J.take N := by
      rw [hjobs, List.append_assoc, List.append_assoc, List.take_append, List.take_of_length_le (by omega)]; exact List.prefix_append _ _
    have := jobsW_prefix c _ _ this
    simp only [cuW]
    omega
  | some (j, ni, no), hx =>
    have : done ++ [j] <+: J.take N := by
      rw [hjobs]
      simp only [cuJ, Option.map_some, Option.toList_some]
      rw [List.append_assoc, List.take_append, List.take_of_length_le (by simp; omega)]; exact List.prefix_append _ _
    have := jobsW_prefix c _ _ this
    rw [jobsW_append] at this
    have h1 : cuW (some (j, ni, no)) ≤ jobsW c [j] := by
      simp only [jobsW, jobW, cuW, List.map_cons, List.map_nil, List.sum_cons, List.sum_nil]
      rcases hx with ⟨hj, hd⟩ | ⟨hj, h1, h2, _⟩
      · rw [if_neg hj]
        have hni : ni ≤ jobNb c j := by rw [hd.hni]; split <;> omega
        have := hd.lt
        omega
      · rw [if_pos hj]; omega
    omega

/-! ### The work for a read -/

theorem parts_sum (mx : Nat) (hm : 128 ≤ mx) (h128 : mx % 128 = 0) (f : Nat) : ∀ a n, n ≤ 4 * f → a % 4 = 0 → n % 4 = 0 →
    ((readParts mx f a n).map (·.2)).sum = n ∧ (∀ x ∈ readParts mx f a n, x.1 % 4 = 0 ∧ x.2 % 4 = 0) ∧
    (a % 128 = 0 → (readParts mx f a n).length ≤ n / 128 + 1) ∧ (readParts mx f a n).length ≤ n / 128 + 2 := by
  induction f with
  | zero => intro a n hn _ _; simp [readParts]; omega
  | succ f ih =>
    intro a n hn ha h4
    unfold readParts
    split
    · simp; omega
    · rename_i h
      obtain ⟨i1, i2, i3, i4⟩ := ih (a / 128 * 128 + mx) (n - (a / 128 * 128 + mx - a)) (by omega) (by omega) (by omega)
      have i3 := i3 (by omega)
      refine ⟨?_, ?_, ?_, ?_⟩
      · simp only [List.map_cons, List.sum_cons]; omega
      · intro x hx
        rcases List.mem_cons.1 hx with rfl | hx
        · simp only; omega
        · exact i2 x hx
      · intro _; simp only [List.length_cons]; omega
      · simp only [List.length_cons]; omega

theorem jobW_part (c : AxrCfg) (hc : AxrCfgOk c) (cid : Nat) (h : TlpHdr) (x : Nat × Nat) (h1 : x.1 % 4 = 0) (h2 : x.2 % 4 = 0) :
    4 * jobW c (axrPart c cid h x) ≤ 28 + x.2 := by
  obtain ⟨e1, e2, e3⟩ := axr_bytes c hc
  unfold jobW
  split
  · omega
  · show 4 * ((x.1 % 2 ^ c.tb + x.2 + 2 ^ c.tb - 1) / 2 ^ c.tb + (x.2 + 2 ^ c.tb - 1) / 2 ^ c.tb + 2) ≤ 28 + x.2
    have hb : 8 ≤ 2 ^ c.tb := by omega
    have hlt := Nat.mod_lt x.1 (show 0 < 2 ^ c.tb by omega)
    generalize x.1 % 2 ^ c.tb = o at *
    generalize 2 ^ c.tb = b at *
    generalize x.2 = n at *
    have q1 : (o + n + b - 1) / b < n / 4 / 2 + 3 := by
      rw [Nat.div_lt_iff_lt_mul (by omega)]
      have : n / 4 / 2 * 8 ≤ n / 4 / 2 * b := Nat.mul_le_mul_left _ hb
      rw [Nat.add_mul]
      omega
    have q2 : (n + b - 1) / b < n / 4 / 2 + 3 := by
      rw [Nat.div_lt_iff_lt_mul (by omega)]
      have : n / 4 / 2 * 8 ≤ n / 4 / 2 * b := Nat.mul_le_mul_left _ hb
      rw [Nat.add_mul]
      omega
    generalize (o + n + b - 1) / b = y1 at *
    generalize (n + b - 1) / b = y2 at *
    omega

theorem jobsW_parts (c : AxrCfg) (hc : AxrCfgOk c) (cid : Nat) (h : TlpHdr) (l : List (Nat × Nat)) (hl : ∀ x ∈ l, x.1 % 4 = 0 ∧ x.2 % 4 = 0) :
    4 * jobsW c (l.map (axrPart c cid h)) ≤ 28 * l.length + (l.map (·.2)).sum := by
  induction l with
  | nil => simp [jobsW]
  | cons x l ih =>
    have h1 := jobW_part c hc cid h x (hl x (List.mem_cons_self ..)).1 (hl x (List.mem_cons_self ..)).2
    have h2 := ih (fun y hy => hl y (List.mem_cons_of_mem _ hy))
    simp only [jobsW, List.map_cons, List.sum_cons, List.length_cons] at h2 ⊢
    omega

theorem jobW_le (c : AxrCfg) (hc : AxrCfgOk c) (j : AxrJob) (h : j.bytes = 0 ∨ (JobOk c j ∧ j.first / 2 ^ c.tb = j.addr / 2 ^ c.tb)) : jobW c j ≤ 514 := by
  unfold jobW
  split
  · omega
  · rename_i hj
    obtain ⟨hk, _⟩ := h.resolve_left hj
    obtain ⟨n1, n2, n3⟩ := jobN_rel c hc j hk
    have := hk.nb
    omega

/-- The address of the first DWORD left. -/
def axrAddrW (s : Axr) : Nat := s.addr / 4 * 4

/-- The steps that are left. -/
theorem axr_left {c : AxrCfg} (hc : AxrCfgOk c) {m cid : Nat} {mem : Nat → Nat → UInt8} {s : Axr} {op : Bool} {H : List AxrIn} {A : List (Nat × Nat)}
    {R : List (Nat → UInt8)} {S : List AxrWord} {done : List AxrJob} {cu : Option (AxrJob × Nat × Nat)} {cm : Option AxrJob} {re : List AxrJob}
    (h : AxrInv c m cid mem s op H A R S done cu cm re) :
    jobsW c (H.flatMap fun i => axrJobs c m cid i.hdr) ≤ axrQ c done cu cm + 2290 := by
  rw [h.jobs, jobsW_append, jobsW_append, jobsW_append]
  have h1 : jobsW c (cuJ cu) ≤ 514 := by
    have hok := h.ok
    match cu, hok with
    | none, _ => simp [cuJ, jobsW]
    | some x, hok => simpa [cuJ, jobsW] using jobW_le c hc x.1 (hok x.1 (by simp [cuJ]))
  have h2 : jobsW c cm.toList ≤ 514 := by
    have hok := h.ok
    match cm, hok with
    | none, _ => simp [jobsW]
    | some x, hok => simpa [jobsW] using jobW_le c hc x (hok x (by simp))
  have h3 : jobsW c re ≤ 1262 := by
    rcases h.st with ⟨_, _, q, _, hS⟩ | ⟨_, h1, _⟩
    · obtain ⟨f, hf, hre⟩ := hS.parts
      obtain ⟨m1, m2, m3, _⟩ := axrMax_rng c hc m
      obtain ⟨p1, p2, p3, p4⟩ := parts_sum (axrMax c m) m1 m3 f (axrAddrW s) (4 * s.dw) (by omega) (by unfold axrAddrW; omega) (by omega)
      have := jobsW_parts c hc cid q.hdr _ p2
      rw [hre]
      have hd := hS.dw
      unfold axrAddrW at *
      omega
    · rw [h1]; simp [jobsW]
  unfold axrQ
  omega

/-- With good inputs a number of completions is made. -/
theorem axr_live (c : AxrCfg) (hc : AxrCfgOk c) (m cid : Nat) (hm8 : m < 8) (hcid : cid < 2 ^ 16) (mem : Nat → Nat → UInt8) (s : Axr) (N : Nat)
    (js : List AxrIn) : ∀ is, AxrHist c m cid mem s (is ++ js) → AxrGood c mem s is js → ∀ done cu cm re, AxrAt c m cid mem s is done cu cm re →
    AxrFast (axrRun c s is) → N ≤ ((axrReqs c s is).flatMap fun i => axrJobs c m cid i.hdr).length →
    ∃ done' cu' cm' re', AxrAt c m cid mem s (is ++ js) done' cu' cm' re' ∧ AxrFast (axrRun c s (is ++ js)) ∧
      done.length ≤ done'.length ∧ (N ≤ done'.length ∨ axrQ c done cu cm + js.length ≤ axrQ c done' cu' cm') := by
  induction js with
  | nil =>
    intro is _ _ done cu cm re h hf _
    rw [List.append_nil]
    exact ⟨done, cu, cm, re, h, hf, Nat.le_refl _, Or.inr (by simp)⟩
  | cons i js ih =>
    intro is hh hg done cu cm re h hf hN
    have e : is ++ i :: js = (is ++ [i]) ++ js := by simp
    have hh1 : AxrHist c m cid mem s ((is ++ [i]) ++ js) := by rw [← e]; exact hh
    obtain ⟨g1, g2, g3⟩ := hg is i (List.prefix_refl _) (by rw [e]; exact List.prefix_append _ _)
    obtain ⟨d, a, b, x, hat, hmv⟩ := axr_at_step c hc m cid hm8 hcid mem s is i (axrHist_of_append hh1) done cu cm re h
    have hr := (hh.set i (by simp)).1
    have hf' : AxrFast (axrRun c s (is ++ [i])) := by
      rw [axrRun_snoc]; exact axr_fast c m cid mem _ _ _ _ _ _ _ _ _ _ h i hr g1 g2
    obtain ⟨t, ht⟩ := axrReqs_prefix c s is [i]
    have hN' : N ≤ ((axrReqs c s (is ++ [i])).flatMap fun i => axrJobs c m cid i.hdr).length := by
      rw [← ht, List.flatMap_append, List.length_append]; omega
    obtain ⟨d', a', b', x', hat', hf'', hmono, hq⟩ := ih (is ++ [i]) hh1 (by
      intro pre k hp hq
      exact hg pre k ((List.prefix_append _ _).trans hp) (by rw [e]; exact hq)) d a b x hat hf' hN'
    rw [e]
    have hge0 : done.length ≤ d.length := by
      cases hl : axrLoad (axrRun c s is) i with
      | true => rw [(hmv.load hl).1, List.length_append]; omega
      | false => rw [(hmv.stay hl).1]; omega
    refine ⟨d', a', b', x', hat', hf'', by omega, ?_⟩
    rcases hq with hq | hq
    · exact Or.inl hq
    · by_cases hdone : N ≤ d'.length
      · exact Or.inl hdone
      · right
        have hV := hat.V
        rw [axrRun_snoc] at hV
        by_cases hdn : done.length < ((axrReqs c s is).flatMap fun i => axrJobs c m cid i.hdr).length
        · have := axr_progress c hc m cid mem _ _ _ _ _ _ _ _ _ _ h hf i hr g3 d a b hV hmv hdn
          simp only [List.length_cons]
          omega
        · exfalso
          omega

/-- After some good inputs the completions for requests received before have been made. -/
theorem axr_made (c : AxrCfg) (hc : AxrCfgOk c) (m cid : Nat) (hm8 : m < 8) (hcid : cid < 2 ^ 16) (mem : Nat → Nat → UInt8) (s : Axr) (r : AxrIn)
    (hr : r.rst = true) (is : List AxrIn) (i : AxrIn) (js : List AxrIn) (hh : AxrHist c m cid mem (axrStep c s r) ((is ++ [i]) ++ js))
    (hg : AxrGood c mem (axrStep c s r) is (i :: js)) (hl : 2292 ≤ js.length) :
    ∃ done cu cm re, AxrAt c m cid mem (axrStep c s r) ((is ++ [i]) ++ js) done cu cm re ∧ AxrFast (axrRun c (axrStep c s r) ((is ++ [i]) ++ js)) ∧
      ((axrReqs c (axrStep c s r) is).flatMap fun i => axrJobs c m cid i.hdr).length ≤ done.length := by
  have hh1 := axrHist_of_append hh
  have hh0 := axrHist_of_append hh1
  obtain ⟨d0, a0, b0, x0, h0⟩ := axr_run c hc m cid hm8 hcid mem s r hr is hh0
  obtain ⟨d1, a1, b1, x1, h1⟩ := axr_run c hc m cid hm8 hcid mem s r hr (is ++ [i]) hh1
  have e : is ++ i :: js = (is ++ [i]) ++ js := by simp
  obtain ⟨g1, g2, g3⟩ := hg is i (List.prefix_refl _) (by rw [e]; exact List.prefix_append _ _)
  have hri := (hh1.set i (by simp)).1
  have hf' : AxrFast (axrRun c (axrStep c s r) (is ++ [i])) := by
    rw [axrRun_snoc]; exact axr_fast c m cid mem _ _ _ _ _ _ _ _ _ _ h0 i hri g1 g2
  generalize axrStep c s r = s0 at *
  obtain ⟨t, ht⟩ := axrReqs_prefix c s0 is [i]
  have hN' : ((axrReqs c s0 is).flatMap fun i => axrJobs c m cid i.hdr).length ≤
      ((axrReqs c s0 (is ++ [i])).flatMap fun i => axrJobs c m cid i.hdr).length := by
    rw [← ht, List.flatMap_append, List.length_append]; omega
  obtain ⟨d2, a2, b2, x2, h2, hf2, _, hq⟩ := axr_live c hc m cid hm8 hcid mem s0 _ js (is ++ [i]) hh (by
    intro pre k hp hq
    exact hg pre k ((List.prefix_append _ _).trans hp) (by rw [e]; exact hq)) d1 a1 b1 x1 h1 hf' hN'
  refine ⟨d2, a2, b2, x2, h2, hf2, ?_⟩
  rcases hq with hq | hq
  · exact hq
  · rcases Nat.lt_or_ge d2.length ((axrReqs c s0 is).flatMap fun i => axrJobs c m cid i.hdr).length with hlt | hge
    · exfalso
      obtain ⟨t2, ht2⟩ := axrReqs_prefix c s0 (is ++ [i]) js
      have hle := axrQ_le hc h2 _ (by rw [← ht2, List.flatMap_append, List.length_append]; omega) hlt
      have hleft := axr_left hc h1
      rw [← ht2, List.flatMap_append, List.take_append_of_le_length hN'] at hle
      have := jobsW_prefix c _ _ (List.take_prefix ((axrReqs c s0 is).flatMap fun i => axrJobs c m cid i.hdr).length
        ((axrReqs c s0 (is ++ [i])).flatMap fun i => axrJobs c m cid i.hdr))
      omega
    · exact hge

theorem axr_ends (js : List AxrIn) (hl : 2294 ≤ js.length) : ∃ i js2 k, js = i :: (js2 ++ [k]) ∧ 2292 ≤ js2.length := by
  obtain ⟨i, js1, rfl⟩ : ∃ i js1, js = i :: js1 := by
    cases js with
    | nil => simp at hl
    | cons i js1 => exact ⟨i, js1, rfl⟩
  have hne : js1 ≠ [] := by intro h; rw [h] at hl; simp at hl
  refine ⟨i, js1.dropLast, js1.getLast hne, by rw [List.dropLast_concat_getLast hne], ?_⟩
  simp only [List.length_cons, List.length_dropLast] at hl ⊢
  omega

/-- The completions for the requests received are sent. -/
theorem axr_done (c : AxrCfg) (hc : AxrCfgOk c) (m cid : Nat) (hm8 : m < 8) (hcid : cid < 2 ^ 16) (mem : Nat → Nat → UInt8) (s : Axr) (r : AxrIn)
    (hr : r.rst = true) (is js : List AxrIn) (hh : AxrHist c m cid mem (axrStep c s r) (is ++ js)) (hg : AxrGood c mem (axrStep c s r) is js)
    (hl : 2294 ≤ js.length) : ((axrReqs c (axrStep c s r) is).flatMap fun i => axrJobs c m cid i.hdr).length ≤
      ((axrSent c (axrStep c s r) (is ++ js)).filter (·.eop)).length := by
  obtain ⟨i, js2, k, rfl, hl2⟩ := axr_ends js hl
  have e1 : is ++ i :: (js2 ++ [k]) = (is ++ [i]) ++ js2 ++ [k] := by simp
  rw [e1] at hh ⊢
  obtain ⟨d, a, b, x, h, hf, hN⟩ := axr_made c hc m cid hm8 hcid mem s r hr is i js2 (axrHist_of_append hh) (by
    intro pre k' hp hq
    exact hg pre k' hp (by rw [e1]; exact hq.trans (by rw [show is ++ i :: js2 = (is ++ [i]) ++ js2 by simp]; exact List.prefix_append _ _))) hl2
  have htx := (hg ((is ++ [i]) ++ js2) k (by rw [List.append_assoc]; exact List.prefix_append _ _) (by rw [e1]; exact List.prefix_refl _)).1
  have heop := eop_inv hc h
  rw [axrSent_snoc, htx, List.filter_append, List.length_append]
  have htemp := h.T.skid.1 hf.ready
  have : skidQ (axrRun c (axrStep c s r) (is ++ [i] ++ js2)).out =
      if (axrRun c (axrStep c s r) (is ++ [i] ++ js2)).out.outV && true then [(axrRun c (axrStep c s r) (is ++ [i] ++ js2)).out.out] else [] := by
    unfold skidQ; rw [htemp]; simp
  rw [← this]
  omega

/-- The module becomes ready. -/
theorem axr_ready (c : AxrCfg) (hc : AxrCfgOk c) (m cid : Nat) (hm8 : m < 8) (hcid : cid < 2 ^ 16) (mem : Nat → Nat → UInt8) (s : Axr) (r : AxrIn)
    (hr : r.rst = true) (is js : List AxrIn) (hh : AxrHist c m cid mem (axrStep c s r) (is ++ js)) (hg : AxrGood c mem (axrStep c s r) is js)
    (hl : 2294 ≤ js.length) : ∃ n, n ≤ js.length ∧ (axrRun c (axrStep c s r) (is ++ js.take n)).rxReady = true := by
  rcases Classical.em (∃ n, n ≤ js.length ∧ (axrRun c (axrStep c s r) (is ++ js.take n)).rxReady = true) with hx | hx
  · exact hx
  · exfalso
    have hno : ∀ n, n ≤ js.length → (axrRun c (axrStep c s r) (is ++ js.take n)).rxReady = false := by
      intro n hn
      cases hb : (axrRun c (axrStep c s r) (is ++ js.take n)).rxReady with
      | false => rfl
      | true => exact absurd ⟨n, hn, hb⟩ hx
    have htk : ∀ n, n ≤ js.length → axrTaken c (axrStep c s r) (is ++ js.take n) = axrTaken c (axrStep c s r) is := by
      intro n
      induction n with
      | zero => intro _; simp
      | succ n ih =>
        intro hn
        have hlt : n < js.length := by omega
        rw [List.take_succ_eq_append_getElem hlt, ← List.append_assoc, axrTaken_snoc, hno n (by omega), ih (by omega)]
        simp
    obtain ⟨i, js2, k, hjs, hl2⟩ := axr_ends js hl
    have hlen : js.length = js2.length + 2 := by rw [hjs]; simp
    have e1 : is ++ js = (is ++ [i]) ++ js2 ++ [k] := by rw [hjs]; simp
    have e2 : is ++ js.take (js2.length + 1) = (is ++ [i]) ++ js2 := by rw [hjs]; simp
    rw [e1] at hh
    obtain ⟨d, a, b, x, h, hf, hN⟩ := axr_made c hc m cid hm8 hcid mem s r hr is i js2 (axrHist_of_append hh) (by
      intro pre k' hp hq
      exact hg pre k' hp (by rw [e1]; exact hq.trans (by rw [show is ++ i :: js2 = (is ++ [i]) ++ js2 by simp]; exact List.prefix_append _ _))) hl2
    have hgk := hg ((is ++ [i]) ++ js2) k (by rw [List.append_assoc]; exact List.prefix_append _ _) (by rw [e1]; exact List.prefix_refl _)
    have hreq : axrReqs c (axrStep c s r) ((is ++ [i]) ++ js2) = axrReqs c (axrStep c s r) is := by
      unfold axrReqs; rw [← e2, htk _ (by omega)]
    have hrx := hno (js2.length + 1) (by omega)
    have hlast := hno js.length (Nat.le_refl _)
    rw [List.take_length, e1, axrRun_snoc] at hlast
    rw [e2] at hrx
    rw [← hreq] at hN
    unfold AxrAt at h
    have hkr := (hh.set k (by simp)).1
    generalize axrRun c (axrStep c s r) ((is ++ [i]) ++ js2) = e at *
    rw [h.jobs] at hN
    simp only [List.length_append] at hN
    have hx0 : x = [] := List.eq_nil_of_length_eq_zero (by omega)
    have hb0 : b = none := by
      cases b with
      | none => rfl
      | some y => simp at hN; omega
    have hcv : e.cmdV = false := by rw [h.V, hb0]; rfl
    rw [axrStep_norst c e k hkr] at hlast
    have hlast : axrRxNext e k = false := hlast
    have hsp : axrRxSpace e k = true := by unfold axrRxSpace; rw [hcv, hgk.2.1]; simp
    unfold axrRxNext at hlast
    rcases h.st with ⟨_, _, q, _, hS⟩ | ⟨hst, _⟩
    · obtain ⟨f, hf1, hre⟩ := hS.parts
      rw [hx0, readParts_step _ _ _ _ (by have := hS.dw; omega)] at hre
      split at hre <;> simp at hre
    · cases hs : e.st with
      | start => exact hst hs
      | idle =>
        rw [hs] at hlast
        have : axrHead e k = false := by unfold axrHead; rw [hrx]; simp
        simp [this, hsp] at hlast
      | waitEnd =>
        rw [hs] at hlast
        simp [hrx] at hlast

end Verif.Proofs
