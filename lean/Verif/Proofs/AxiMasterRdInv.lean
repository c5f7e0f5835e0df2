import Verif.Proofs.AxiMasterRdReq
/-! The AXI master for reads: the invariant over histories. -/
namespace Verif.Proofs
open Verif Verif.Model Verif.Spec

theorem axrTrace_append (c : AxrCfg) (is js : List AxrIn) : ∀ s, axrTrace c s (is ++ js) = axrTrace c s is ++ axrTrace c (axrRun c s is) js := by
  induction is with
  | nil => intro s; rfl
  | cons i is ih => intro s; simp only [List.cons_append, axrTrace, axrRun, ih]

theorem axrRun_append (c : AxrCfg) (is js : List AxrIn) : ∀ s, axrRun c s (is ++ js) = axrRun c (axrRun c s is) js := by
  induction is with
  | nil => intro s; rfl
  | cons i is ih => intro s; simp only [List.cons_append, axrRun, ih]

/-- Whether a TLP is in progress after some words. -/
def axrOpen : Bool → List AxrIn → Bool
  | b, [] => b
  | true, i :: is => axrOpen (!i.eop) is
  | false, i :: is => if i.sop then axrOpen (!i.eop) is else axrOpen false is

theorem axrHeads_snoc (l : List AxrIn) (i : AxrIn) : ∀ b, axrHeads b (l ++ [i]) = axrHeads b l ++ (if !axrOpen b l && i.sop then [i] else []) ∧
    axrOpen b (l ++ [i]) = if axrOpen b l || i.sop then !i.eop else false := by
  induction l with
  | nil => intro b; cases b <;> cases h : i.sop <;> cases h2 : i.eop <;> simp [axrHeads, axrOpen, h, h2]
  | cons x l ih =>
    intro b
    cases b with
    | true => exact ih (!x.eop)
    | false =>
      cases hs : x.sop with
      | true =>
        obtain ⟨h1, h2⟩ := ih (!x.eop)
        simp only [List.cons_append, axrHeads, axrOpen, hs, if_true, h1, h2, and_self]
      | false =>
        obtain ⟨h1, h2⟩ := ih false
        simp only [List.cons_append, axrHeads, axrOpen, hs, Bool.false_eq_true, if_false, h1, h2, and_self]

/-- The invariant. -/
structure AxrInv (c : AxrCfg) (m cid : Nat) (mem : Nat → Nat → UInt8) (s : Axr) (op : Bool) (H : List AxrIn) (A : List (Nat × Nat))
    (R : List (Nat → UInt8)) (S : List AxrWord) (done : List AxrJob) (cu : Option (AxrJob × Nat × Nat)) (cm : Option AxrJob) (re : List AxrJob) : Prop where
  T : TSide c cid mem s R S done cu
  V : s.cmdV = cm.isSome
  C : ∀ j, cm = some j → CmdIs c cid j s.cmd ∧ (j.bytes = 0 → cu = none)
  jobs : H.flatMap (fun i => axrJobs c m cid i.hdr) = done ++ cuJ cu ++ cm.toList ++ re
  ok : ∀ j ∈ done ++ cuJ cu ++ cm.toList, j.bytes = 0 ∨ (JobOk c j ∧ j.first / 2 ^ c.tb = j.addr / 2 ^ c.tb)
  ars : A ++ (if s.arV then [(s.araddr, s.arlen)] else []) = (done ++ cuJ cu ++ cm.toList).filterMap (jobBurst (2 ^ c.tb))
  st : (s.st = .start ∧ s.rxReady = false ∧ ∃ h, H.getLast? = some h ∧ StartIs c cid m s h.hdr re) ∨
    (s.st ≠ .start ∧ re = [] ∧ (s.cmdV = true → (s.st = .waitEnd ∨ s.rxReady = true) → ∃ h, H.getLast? = some h ∧ tlpIsUr h.hdr = true))
  op : op = (s.st == .waitEnd)

theorem eop_words (b : Nat) (mem : Nat → UInt8) (j : AxrJob) : (jobWords b mem j).countP (·.2.2) = 1 ∨ (j.bytes ≠ 0 ∧ (j.bytes + b - 1) / b = 0) := by
  unfold jobWords
  split
  · left; rfl
  · rename_i h
    rcases Nat.eq_zero_or_pos ((j.bytes + b - 1) / b) with h0 | h0
    · exact Or.inr ⟨h, h0⟩
    · left
      obtain ⟨n, hn⟩ : ∃ n, (j.bytes + b - 1) / b = n + 1 := ⟨(j.bytes + b - 1) / b - 1, by omega⟩
      rw [hn, List.range_succ, List.map_append, List.countP_append]
      have : ((List.range n).map fun o => ((if o = 0 then some j.cpl else none,
          (List.range b).map fun k => if o * b + k < j.bytes then some (mem (j.addr + (o * b + k))) else none,
          o + 1 == n + 1) : Option CplRec × List (Option UInt8) × Bool)).countP (·.2.2) = 0 := by
        rw [List.countP_eq_zero]
        intro x hx
        obtain ⟨o, ho, rfl⟩ := List.mem_map.1 hx
        have := List.mem_range.1 ho
        simp; omega
      rw [this]; simp

theorem eop_take (c : AxrCfg) (mem : Nat → UInt8) (j : AxrJob) (no : Nat) (hj : j.bytes ≠ 0) (h : no < jobNw c j) :
    ((jobWords (2 ^ c.tb) mem j).take no).countP (·.2.2) = 0 := by
  rw [jobWords_eq c mem j hj, List.countP_eq_zero, ← List.map_take, List.take_range]
  intro x hx
  obtain ⟨o, ho, rfl⟩ := List.mem_map.1 hx
  have := List.mem_range.1 ho
  simp only [jobWord, beq_iff_eq]
  omega

theorem eop_jobs (c : AxrCfg) (hc : AxrCfgOk c) (mem : Nat → Nat → UInt8) (js : List AxrJob)
    (hj : ∀ j ∈ js, j.bytes = 0 ∨ (JobOk c j ∧ j.first / 2 ^ c.tb = j.addr / 2 ^ c.tb)) : ∀ n,
    (jobsWords (2 ^ c.tb) mem n js).countP (·.2.2) = js.length := by
  induction js with
  | nil => intro n; rfl
  | cons j js ih =>
    intro n
    simp only [jobsWords, List.countP_append, List.length_cons]
    rw [ih (fun x hx => hj x (List.mem_cons_of_mem _ hx))]
    rcases eop_words (2 ^ c.tb) (mem n) j with h | ⟨h1, h2⟩
    · omega
    · obtain ⟨hk, _⟩ := (hj j (List.mem_cons_self ..)).resolve_left h1
      have := (jobN_rel c hc j hk).1
      unfold jobNw at this
      omega

/-- The ends of the words sent are those of the completions made. -/
theorem eop_inv {c : AxrCfg} (hc : AxrCfgOk c) {m cid : Nat} {mem : Nat → Nat → UInt8} {s : Axr} {op : Bool} {H : List AxrIn} {A : List (Nat × Nat)}
    {R : List (Nat → UInt8)} {S : List AxrWord} {done : List AxrJob} {cu : Option (AxrJob × Nat × Nat)} {cm : Option AxrJob} {re : List AxrJob}
    (h : AxrInv c m cid mem s op H A R S done cu cm re) : (S.filter (·.eop)).length + ((skidQ s.out).filter (·.eop)).length = done.length := by
  have hw := congrArg (fun l => l.countP (·.2.2)) h.T.ws
  simp only [List.countP_append, List.countP_map] at hw
  rw [eop_jobs c hc mem done (fun j hj => h.ok j (by simp [hj]))] at hw
  have e : ((fun x : Option CplRec × List (Option UInt8) × Bool => x.2.2) ∘ axrView (2 ^ c.tb)) = fun w : AxrWord => w.eop := rfl
  rw [e] at hw
  rw [← List.countP_eq_length_filter, ← List.countP_eq_length_filter]
  have h0 : (cuWords (2 ^ c.tb) (mem (jobCount done)) cu).countP (·.2.2) = 0 := by
    have hcur := h.T.cur
    match cu, hcur with
    | none, _ => rfl
    | some (j, ni, no), Or.inl ⟨hj, hd⟩ => exact eop_take c _ j no hj hd.lt
    | some (j, ni, no), Or.inr ⟨hj, h1, h2, hd⟩ => subst h2; rfl
  omega

/-- When all completions have been sent nothing is left. -/
theorem quiet_inv {c : AxrCfg} (hc : AxrCfgOk c) {m cid : Nat} {mem : Nat → Nat → UInt8} {s : Axr} {op : Bool} {H : List AxrIn} {A : List (Nat × Nat)}
    {R : List (Nat → UInt8)} {S : List AxrWord} {done : List AxrJob} {cu : Option (AxrJob × Nat × Nat)} {cm : Option AxrJob} {re : List AxrJob}
    (h : AxrInv c m cid mem s op H A R S done cu cm re) (hq : (S.filter (·.eop)).length = (H.flatMap fun i => axrJobs c m cid i.hdr).length) :
    cu = none ∧ cm = none ∧ re = [] := by
  have he := eop_inv hc h
  rw [h.jobs] at hq
  simp only [List.length_append] at hq
  have h1 : (cuJ cu).length = 0 := by omega
  have h2 : cm.toList.length = 0 := by omega
  have h3 : re.length = 0 := by omega
  refine ⟨?_, ?_, List.eq_nil_of_length_eq_zero h3⟩
  · cases cu with
    | none => rfl
    | some x => simp [cuJ] at h1
  · cases cm with
    | none => rfl
    | some x => simp at h2

theorem prefix_get {α : Type} (xs ys zs : List α) (d : α) (h : xs ++ ys ++ [d] <+: xs ++ zs) : zs[ys.length]? = some d := by
  obtain ⟨t, ht⟩ := h
  have : ys ++ [d] ++ t = zs := by
    simp only [List.append_assoc] at ht ⊢
    exact List.append_cancel_left ht
  rw [← this]; simp

/-- One clock edge. -/
theorem axr_inv_step (c : AxrCfg) (hc : AxrCfgOk c) (m cid : Nat) (hm8 : m < 8) (hcid : cid < 2 ^ 16) (mem : Nat → Nat → UInt8) (s : Axr) (op : Bool)
    (H : List AxrIn) (A : List (Nat × Nat)) (R : List (Nat → UInt8)) (S : List AxrWord) (done : List AxrJob) (cu : Option (AxrJob × Nat × Nat))
    (cm : Option AxrJob) (re : List AxrJob) (h : AxrInv c m cid mem s op H A R S done cu cm re) (i : AxrIn) (hr : i.rst = false) (him : i.mps = m)
    (hi : i.cid = cid)
    (hsl : (R ++ (if s.rReady && i.rValid then [i.rData] else [])).map (fun d => (List.range (2 ^ c.tb)).map d) <+:
      burstData (2 ^ c.tb) mem 0 (A ++ (if s.arV && i.arReady then [(s.araddr, s.arlen)] else [])))
    (hk : axrHead s i = true → AxrReqOk c m i)
    (hal : axrHead s i = true → (tlpIsUr i.hdr = true ∨ ∃ y, H.getLast? = some y ∧ tlpIsUr y.hdr = true) →
      (S.filter (·.eop)).length = (H.flatMap fun i => axrJobs c m cid i.hdr).length) :
    ∃ done' cu' cm' re', AxrInv c m cid mem (axrStep c s i) (if s.rxReady && i.valid then if op || i.sop then !i.eop else false else op)
      (H ++ (if axrHead s i then [i] else [])) (A ++ (if s.arV && i.arReady then [(s.araddr, s.arlen)] else []))
      (R ++ (if s.rReady && i.rValid then [i.rData] else [])) (S ++ (if s.out.outV && i.txReady then [s.out.out] else [])) done' cu' cm' re' ∧
      CurMove s i done cu cm done' cu' := by
  -- the data taken is that of the burst
  have hb : s.rReady = true → i.rValid = true → ∀ j ni no, cu = some (j, ni, no) →
      (List.range (2 ^ c.tb)).map i.rData = jobBeat c (mem (jobCount done)) j ni := by
    intro hr1 hr2 j ni no hcu
    obtain ⟨g1, g2, g3⟩ := h.T.rdy hr1
    have hcur := h.T.cur
    rw [hcu] at hcur
    obtain ⟨hj, hd⟩ : j.bytes ≠ 0 ∧ CurData c cid (mem (jobCount done)) s j ni no := by
      rcases hcur with hx | ⟨hj, _, _, hu⟩
      · exact hx
      · rw [hu.ts] at g3; simp at g3
    have hlt : ni < jobNb c j := by have := hd.inA; rw [g2] at this; exact of_decide_eq_true this.symm
    rw [hr1, hr2] at hsl
    simp only [Bool.and_self, if_true, List.map_append, List.map_cons, List.map_nil] at hsl
    have hpre : A ++ (if s.arV && i.arReady then [(s.araddr, s.arlen)] else []) <+: (done ++ cuJ cu ++ cm.toList).filterMap (jobBurst (2 ^ c.tb)) := by
      rw [← h.ars]
      cases s.arV <;> cases i.arReady <;> simp
    obtain ⟨t, ht⟩ := hpre
    have hb2 : R.map (fun d => (List.range (2 ^ c.tb)).map d) ++ [(List.range (2 ^ c.tb)).map i.rData] <+:
        jobsBeats c mem 0 (done ++ cuJ cu ++ cm.toList) := by
      rw [← burstData_jobs c hc mem _ h.ok 0, ← ht, burstData_append]
      exact hsl.trans (List.prefix_append _ _)
    rw [h.T.rs, List.append_assoc done, jobsBeats_append, Nat.zero_add, hcu] at hb2
    have hb3 := prefix_get _ _ _ _ hb2
    have hjb : jobBeats c (mem (jobCount done)) j = (List.range (jobNb c j)).map (jobBeat c (mem (jobCount done)) j) := by
      unfold jobBeats; rw [if_neg hj]
    have hlen : (cuBeats c (mem (jobCount done)) (some (j, ni, no))).length = ni := by
      simp only [cuBeats, hjb, List.length_take, List.length_map, List.length_range]; omega
    rw [hlen] at hb3
    simp only [cuJ, Option.map_some, Option.toList_some, List.cons_append, List.nil_append, jobsBeats] at hb3
    rw [List.getElem?_append_left (by rw [hjb]; simpa using hlt), hjb] at hb3
    simp only [List.getElem?_map, List.getElem?_range hlt, Option.map_some, Option.some.injEq] at hb3
    exact hb3.symm
  obtain ⟨done', cu', hT', hj', hmv⟩ := tside_step c hc cid hcid mem s i R S done cu cm h.T hr hi h.V h.C hb
  have hstep := axrStep_norst c s i hr
  have ecmdV : (axrStep c s i).cmdV = ((axrHead s i && axrIsUr i.hdr) || axrIssue s || (s.cmdV && !axrLoad s i)) := by rw [hstep]; rfl
  have ecmd : (axrStep c s i).cmd = axrCmdNext c s i := by rw [hstep]; rfl
  have earV : (axrStep c s i).arV = (axrIssue s || (s.arV && !i.arReady)) := by rw [hstep]; rfl
  have earA : (axrStep c s i).araddr = if axrIssue s then s.addr else s.araddr := by rw [hstep]; rfl
  have earL : (axrStep c s i).arlen = if axrIssue s then axrBeats c s % 2 ^ 8 else s.arlen := by rw [hstep]; rfl
  have est : (axrStep c s i).st = axrStNext s i := by rw [hstep]; rfl
  have erx : (axrStep c s i).rxReady = axrRxNext s i := by rw [hstep]; rfl
  -- a command that stays is not for an unsupported request
  have hkeep : ∀ j, (if axrLoad s i then none else cm) = some j → cm = some j ∧ j.bytes ≠ 0 := by
    intro j hj
    split at hj
    · cases hj
    · rename_i hl
      refine ⟨hj, fun h0 => ?_⟩
      have hcu := (h.C j hj).2 h0
      have hcur := h.T.cur
      rw [hcu] at hcur
      have hcur : s.ts = .idle := hcur
      apply hl; unfold axrLoad; rw [hcur]; rfl
  by_cases hhd : axrHead s i = true
  · -- a request starts
    have hh : s.st = .idle ∧ s.rxReady = true ∧ i.valid = true ∧ i.sop = true := by
      unfold axrHead at hhd; simp only [Bool.and_eq_true, beq_iff_eq] at hhd; exact ⟨hhd.1.1.1, hhd.1.1.2, hhd.1.2, hhd.2⟩
    obtain ⟨hst, hrx, hv, hsop⟩ := hh
    have hiss : axrIssue s = false := by unfold axrIssue; rw [hst]; rfl
    obtain ⟨hre, hlast⟩ : re = [] ∧ (s.cmdV = true → ∃ y, H.getLast? = some y ∧ tlpIsUr y.hdr = true) := by
      rcases h.st with ⟨h1, _⟩ | ⟨_, h2, h3⟩
      · rw [hst] at h1; cases h1
      · exact ⟨h2, fun hcv => h3 hcv (Or.inr hrx)⟩
    have hcm : cm = none := by
      cases hcm : cm with
      | none => rfl
      | some j =>
        have hcv : s.cmdV = true := by rw [h.V, hcm]; rfl
        have := (quiet_inv hc h (hal hhd (Or.inr (hlast hcv)))).2.1
        rw [hcm] at this; cases this
    have hcv : s.cmdV = false := by rw [h.V, hcm]; rfl
    have hreq := hk hhd
    obtain ⟨i1, i2, i3, i4⟩ := axrIs_eq i.hdr hreq.1
    have hop : op = false := by rw [h.op, hst]; rfl
    rw [hcm] at hj'
    have hj'' : done' ++ cuJ cu' = done ++ cuJ cu := by
      revert hj'; split <;> simp
    have hars : (A ++ (if s.arV && i.arReady then [(s.araddr, s.arlen)] else [])) ++
        (if (axrStep c s i).arV then [((axrStep c s i).araddr, (axrStep c s i).arlen)] else []) = (done' ++ cuJ cu').filterMap (jobBurst (2 ^ c.tb)) := by
      rw [hj'', earV, earA, earL, hiss]
      have := h.ars
      rw [hcm] at this
      simp only [Option.toList_none, List.append_nil] at this
      rw [← this]
      cases s.arV <;> cases i.arReady <;> simp
    have hok : ∀ j ∈ done' ++ cuJ cu', j.bytes = 0 ∨ (JobOk c j ∧ j.first / 2 ^ c.tb = j.addr / 2 ^ c.tb) := by
      intro j hj; rw [hj''] at hj; exact h.ok j (by rw [hcm]; simpa using hj)
    have hjobs := h.jobs
    rw [hcm, hre] at hjobs
    simp only [Option.toList_none, List.append_nil] at hjobs
    have hgl : (H ++ [i]).getLast? = some i := by simp
    rw [if_pos hhd, hrx, hv, hop, hsop]
    simp only [Bool.and_self, if_true, Bool.or_true]
    by_cases hrd : tlpIsRead i.hdr = true
    · -- a read
      have hur : tlpIsUr i.hdr = false := by unfold tlpIsUr; rw [hrd]; rfl
      refine ⟨done', cu', none, axrJobs c m cid i.hdr, ⟨hT', ?_, ?_, ?_, ?_, ?_, ?_, ?_⟩, hmv⟩
      · rw [ecmdV, i4, hur, hiss, hcv]; simp
      · intro j hj; cases hj
      · rw [List.flatMap_append, hjobs, ← hj'']; simp
      · intro j hj; exact hok j (by simpa using hj)
      · rw [hars]; simp
      · left
        refine ⟨?_, ?_, i, hgl, start_head c hc cid m hm8 s i hhd hreq hrd hr him⟩
        · rw [est]; unfold axrStNext; rw [hst]; simp [hhd, i1, hrd]
        · rw [erx]; unfold axrRxNext; rw [hst]; simp [hhd, i1, hrd]
      · rw [(hreq.2 hrd).1, est]; unfold axrStNext; rw [hst]; simp [hhd, i1, hrd]
    · have hrd' : tlpIsRead i.hdr = false := by simpa using hrd
      have hst' : (axrStep c s i).st = if i.eop then .idle else .waitEnd := by
        rw [est]; unfold axrStNext; rw [hst]; simp [hhd, i1, hrd']
      have hopn : (!i.eop) = ((axrStep c s i).st == .waitEnd) := by rw [hst']; cases i.eop <;> rfl
      have hns : (axrStep c s i).st ≠ .start := by rw [hst']; cases i.eop <;> simp
      by_cases hur : tlpIsUr i.hdr = true
      · -- an unsupported request
        obtain ⟨q1, q2, q3⟩ := quiet_inv hc h (hal hhd (Or.inl hur))
        have hcu' : cu' = none := by
          have hts := h.T.cur
          rw [q1] at hts
          have hts : s.ts = .idle := hts
          have := (hmv.load (by unfold axrLoad; rw [hts]; rfl)).2
          rw [hcm] at this; exact this
        obtain ⟨j, hj1, hj2, hj3⟩ := ur_head c cid m s i hhd hreq hur
        refine ⟨done', cu', some j, [], ⟨hT', ?_, ?_, ?_, ?_, ?_, ?_, hopn⟩, hmv⟩
        · rw [ecmdV, i4, hur, hhd]; simp
        · intro j' hj'
          cases hj'
          rw [ecmd]; exact ⟨hj3, fun _ => hcu'⟩
        · rw [List.flatMap_append, hjobs, ← hj'']; simp [hj1]
        · intro j' hj'
          rcases List.mem_append.1 hj' with h1 | h1
          · exact hok j' h1
          · left; have : j' = j := by simpa using h1
            rw [this]; exact hj2
        · rw [hars, List.filterMap_append]
          have : jobBurst (2 ^ c.tb) j = none := by unfold jobBurst; rw [if_pos hj2]
          simp [this]
        · exact Or.inr ⟨hns, rfl, fun _ _ => ⟨i, hgl, hur⟩⟩
      · have hur' : tlpIsUr i.hdr = false := by simpa using hur
        have hjn : axrJobs c m cid i.hdr = [] := by unfold axrJobs; rw [if_neg hrd, if_neg hur]
        have hcv' : (axrStep c s i).cmdV = false := by rw [ecmdV, i4, hur', hiss, hcv]; simp
        refine ⟨done', cu', none, [], ⟨hT', ?_, ?_, ?_, ?_, ?_, ?_, hopn⟩, hmv⟩
        · rw [hcv']; rfl
        · intro j hj; cases hj
        · rw [List.flatMap_append, hjobs, ← hj'']; simp [hjn]
        · intro j hj; exact hok j (by simpa using hj)
        · rw [hars]; simp
        · refine Or.inr ⟨hns, rfl, fun h => ?_⟩
          rw [hcv'] at h; cases h
  · have hhd' : axrHead s i = false := by simpa using hhd
    rw [if_neg hhd, List.append_nil]
    rcases h.st with ⟨hst, hrx, q, hq, hS⟩ | ⟨hst, hre, hlast⟩
    · -- a read is in progress
      have hop : op = false := by rw [h.op, hst]; rfl
      rw [hrx, hop]
      simp only [Bool.false_and, Bool.false_eq_true, if_false]
      have hrx' : (axrStep c s i).rxReady = false := by rw [erx]; unfold axrRxNext; rw [hst]
      by_cases hiss : axrIssue s = true
      · have hi3 : s.cmdV = false ∧ s.arV = false := by
          unfold axrIssue at hiss; simp only [Bool.and_eq_true, Bool.not_eq_true'] at hiss; exact ⟨hiss.1.2, hiss.2⟩
        have hcm : cm = none := by
          cases hcm : cm with
          | none => rfl
          | some j => have := h.V; rw [hi3.1, hcm] at this; cases this
        rw [hcm] at hj'
        have hj'' : done' ++ cuJ cu' = done ++ cuJ cu := by
          revert hj'; split <;> simp
        obtain ⟨p1, p2, p3⟩ := part_ok c hc cid m s q.hdr re hS
        obtain ⟨k1, k2⟩ := part_cmd c hc cid m s i q.hdr re hS hiss
        have hbne : (axrPart c cid q.hdr (nextPart s)).bytes ≠ 0 := by have := p1.pos; omega
        have hars := h.ars
        rw [hi3.2, hcm] at hars
        simp only [Bool.false_eq_true, if_false, Option.toList_none, List.append_nil] at hars
        have hjobs := h.jobs
        rw [hcm] at hjobs
        simp only [Option.toList_none, List.append_nil] at hjobs
        have mk : ∀ re', re = axrPart c cid q.hdr (nextPart s) :: re' →
            ((axrStep c s i).st = .start ∧ StartIs c cid m (axrStep c s i) q.hdr re' ∨ (axrStep c s i).st = .idle ∧ re' = []) →
            AxrInv c m cid mem (axrStep c s i) false H (A ++ (if s.arV && i.arReady then [(s.araddr, s.arlen)] else []))
              (R ++ (if s.rReady && i.rValid then [i.rData] else [])) (S ++ (if s.out.outV && i.txReady then [s.out.out] else []))
              done' cu' (some (axrPart c cid q.hdr (nextPart s))) re' := by
          intro re' hre' hst'
          refine ⟨hT', ?_, ?_, ?_, ?_, ?_, ?_, ?_⟩
          · rw [ecmdV, hiss]; simp
          · intro j hj
            cases hj
            rw [ecmd]; exact ⟨k1, fun h0 => absurd h0 hbne⟩
          · rw [hjobs, hj'', hre']; simp
          · intro j hj
            rcases List.mem_append.1 hj with h1 | h1
            · rw [hj''] at h1; exact h.ok j (by rw [hcm]; simpa using h1)
            · have : j = axrPart c cid q.hdr (nextPart s) := by simpa using h1
              rw [this]; exact Or.inr ⟨p1, p3⟩
          · rw [earV, earA, earL, hiss, hi3.2, List.filterMap_append, hj'', ← hars]
            simp [k2]
          · rcases hst' with ⟨h1, h2⟩ | ⟨h1, h2⟩
            · exact Or.inl ⟨h1, hrx', q, hq, h2⟩
            · refine Or.inr ⟨by rw [h1]; decide, h2, fun _ hx => ?_⟩
              rw [h1, hrx'] at hx
              simp at hx
          · rcases hst' with ⟨h1, _⟩ | ⟨h1, _⟩ <;> rw [h1] <;> rfl
        rcases start_issue c hc cid m hm8 s i q.hdr re hS hr him hiss with ⟨_, h2, h3⟩ | ⟨_, re', h2, h3, h4⟩
        · exact ⟨_, _, _, _, mk [] h2 (Or.inr ⟨h3, rfl⟩), hmv⟩
        · exact ⟨_, _, _, _, mk re' h2 (Or.inl ⟨h3, h4⟩), hmv⟩
      · have hiss' : axrIssue s = false := by simpa using hiss
        obtain ⟨h3, h4⟩ := start_stay c cid m hm8 s i q.hdr re hS hst hr him hiss'
        refine ⟨done', cu', if axrLoad s i then none else cm, re, ⟨hT', ?_, ?_, ?_, ?_, ?_, Or.inl ⟨h3, hrx', q, hq, h4⟩, by rw [h3]; rfl⟩, hmv⟩
        · rw [ecmdV, hhd', hiss', h.V]; cases axrLoad s i <;> cases cm <;> rfl
        · intro j hj
          obtain ⟨g1, g2⟩ := hkeep j hj
          rw [ecmd]
          refine ⟨?_, fun h0 => absurd h0 g2⟩
          unfold axrCmdNext; rw [if_neg hhd, if_neg hiss]; exact (h.C j g1).1
        · rw [hj', h.jobs]
        · rw [hj']; exact h.ok
        · rw [hj', ← h.ars, earV, earA, earL, hiss']
          cases s.arV <;> cases i.arReady <;> simp
    · -- no read is in progress
      have hiss : axrIssue s = false := by
        unfold axrIssue
        cases hs : s.st with
        | start => exact absurd hs hst
        | idle => rfl
        | waitEnd => rfl
      have hst3 : s.st = .idle ∨ s.st = .waitEnd := by
        cases hs : s.st with
        | start => exact absurd hs hst
        | idle => exact Or.inl rfl
        | waitEnd => exact Or.inr rfl
      have hcv' : (axrStep c s i).cmdV = (s.cmdV && !axrLoad s i) := by rw [ecmdV, hhd', hiss]; rfl
      have hns : (axrStep c s i).st ≠ .start ∧
          ((axrStep c s i).cmdV = true → ((axrStep c s i).st = .waitEnd ∨ (axrStep c s i).rxReady = true) →
            ∃ h, H.getLast? = some h ∧ tlpIsUr h.hdr = true) ∧
          (if s.rxReady && i.valid then if op || i.sop then !i.eop else false else op) = ((axrStep c s i).st == .waitEnd) := by
        rw [hcv', est, erx, h.op]
        rcases hst3 with hs | hs
        · have e1 : axrStNext s i = .idle := by unfold axrStNext; rw [hs]; simp [hhd']
          have e2 : axrRxNext s i = axrRxSpace s i := by unfold axrRxNext; rw [hs]; simp [hhd']
          refine ⟨by rw [e1]; decide, ?_, ?_⟩
          · intro h1 h2
            rw [e1, e2] at h2
            simp only [reduceCtorEq, false_or] at h2
            have hcv : s.cmdV = true := by simp only [Bool.and_eq_true] at h1; exact h1.1
            unfold axrRxSpace at h2; rw [hcv] at h2; simp at h2
          · rw [e1, hs]
            have : (s.rxReady && i.valid) = true → i.sop = false := by
              intro h1
              unfold axrHead at hhd'; rw [hs] at hhd'
              have h2 : s.rxReady = true ∧ i.valid = true := by simpa using h1
              rw [h2.1, h2.2] at hhd'
              simpa using hhd'
            cases hx : (s.rxReady && i.valid) with
            | false => rfl
            | true => rw [this hx]; rfl
        · have e1 : axrStNext s i = if s.rxReady && i.valid && i.eop then .idle else .waitEnd := by unfold axrStNext; rw [hs]
          refine ⟨by rw [e1]; split <;> decide, ?_, ?_⟩
          · intro h1 _
            have hcv : s.cmdV = true := by simp only [Bool.and_eq_true] at h1; exact h1.1
            exact hlast hcv (Or.inl hs)
          · rw [e1, hs]
            cases s.rxReady <;> cases i.valid <;> cases i.eop <;> rfl
      refine ⟨done', cu', if axrLoad s i then none else cm, [], ⟨hT', ?_, ?_, ?_, ?_, ?_, Or.inr ⟨hns.1, rfl, hns.2.1⟩, hns.2.2⟩, hmv⟩
      · rw [hcv', h.V]; cases axrLoad s i <;> cases cm <;> rfl
      · intro j hj
        obtain ⟨g1, g2⟩ := hkeep j hj
        rw [ecmd]
        refine ⟨?_, fun h0 => absurd h0 g2⟩
        unfold axrCmdNext; rw [if_neg hhd, if_neg (by rw [hiss]; decide)]; exact (h.C j g1).1
      · rw [hj', h.jobs, hre]
      · rw [hj']; exact h.ok
      · rw [hj', ← h.ars, earV, earA, earL, hiss]
        cases s.arV <;> cases i.arReady <;> simp

/-! ### Histories -/

theorem axr_snoc_ind {α : Type} {P : List α → Prop} (h0 : P []) (h1 : ∀ l x, P l → P (l ++ [x])) : ∀ l, P l := by
  intro l
  have : ∀ r : List α, P r.reverse := by
    intro r
    induction r with
    | nil => exact h0
    | cons x r ih => rw [List.reverse_cons]; exact h1 _ _ ih
  have h := this l.reverse
  rwa [List.reverse_reverse] at h

theorem axrTaken_snoc (c : AxrCfg) (s : Axr) (is : List AxrIn) (i : AxrIn) :
    axrTaken c s (is ++ [i]) = axrTaken c s is ++ (if (axrRun c s is).rxReady && i.valid then [i] else []) := by
  unfold axrTaken
  rw [axrTrace_append, List.filterMap_append]
  simp only [axrTrace, List.filterMap_cons, List.filterMap_nil]
  cases (axrRun c s is).rxReady && i.valid <;> rfl

theorem axrArs_snoc (c : AxrCfg) (s : Axr) (is : List AxrIn) (i : AxrIn) :
    axrArs c s (is ++ [i]) = axrArs c s is ++ (if (axrRun c s is).arV && i.arReady then [((axrRun c s is).araddr, (axrRun c s is).arlen)] else []) := by
  unfold axrArs
  rw [axrTrace_append, List.filterMap_append]
  simp only [axrTrace, List.filterMap_cons, List.filterMap_nil]
  cases (axrRun c s is).arV && i.arReady <;> rfl

theorem axrRs_snoc (c : AxrCfg) (s : Axr) (is : List AxrIn) (i : AxrIn) :
    axrRs c s (is ++ [i]) = axrRs c s is ++ (if (axrRun c s is).rReady && i.rValid then [i.rData] else []) := by
  unfold axrRs
  rw [axrTrace_append, List.filterMap_append]
  simp only [axrTrace, List.filterMap_cons, List.filterMap_nil]
  cases (axrRun c s is).rReady && i.rValid <;> rfl

theorem axrSent_snoc (c : AxrCfg) (s : Axr) (is : List AxrIn) (i : AxrIn) :
    axrSent c s (is ++ [i]) = axrSent c s is ++ (if (axrRun c s is).out.outV && i.txReady then [(axrRun c s is).out.out] else []) := by
  unfold axrSent
  rw [axrTrace_append, List.filterMap_append]
  simp only [axrTrace, List.filterMap_cons, List.filterMap_nil]
  cases (axrRun c s is).out.outV && i.txReady <;> rfl

theorem axrRun_snoc (c : AxrCfg) (s : Axr) (is : List AxrIn) (i : AxrIn) : axrRun c s (is ++ [i]) = axrStep c (axrRun c s is) i := by
  rw [axrRun_append]; rfl

/-- After the reset. -/
theorem axr_inv_rst (c : AxrCfg) (m cid : Nat) (mem : Nat → Nat → UInt8) (s : Axr) (r : AxrIn) (hr : r.rst = true) :
    AxrInv c m cid mem (axrStep c s r) false [] [] [] [] [] none none [] := by
  have e : axrStep c s r = { axrNext c s r true with st := .idle, ts := .idle, cmdV := false, rxReady := false, arV := false, rReady := false, errCor := false, errUncor := false } := by
    unfold axrStep; rw [hr]; rfl
  have hsk := skid_rst s.out (axrFire s r || (s.ts == .cpl && s.out.ready)) (axrWord c s r) r.txReady
  have eo : (axrStep c s r).out = skidStep true s.out (axrFire s r || (s.ts == .cpl && s.out.ready)) (axrWord c s r) r.txReady := by rw [e]; rfl
  rw [← eo] at hsk
  refine ⟨⟨hsk.1, ?_, ?_, ?_, ?_⟩, ?_, ?_, ?_, ?_, ?_, ?_, ?_⟩
  · intro h; rw [e] at h; cases h
  · show (axrStep c s r).ts = .idle; rw [e]
  · rfl
  · rw [hsk.2]; rfl
  · rw [e]; rfl
  · intro j hj; cases hj
  · rfl
  · intro j hj; cases hj
  · rw [e]; rfl
  · right
    refine ⟨by rw [e]; simp, rfl, fun h => ?_⟩
    rw [e] at h; cases h
  · rw [e]; rfl

theorem axr_head_iff {c : AxrCfg} {m cid : Nat} {mem : Nat → Nat → UInt8} {s : Axr} {op : Bool} {H : List AxrIn} {A : List (Nat × Nat)}
    {R : List (Nat → UInt8)} {S : List AxrWord} {done : List AxrJob} {cu : Option (AxrJob × Nat × Nat)} {cm : Option AxrJob} {re : List AxrJob}
    (h : AxrInv c m cid mem s op H A R S done cu cm re) (i : AxrIn) : axrHead s i = (s.rxReady && i.valid && (!op && i.sop)) := by
  unfold axrHead
  rw [h.op]
  rcases h.st with ⟨h1, h2, _⟩ | ⟨h1, _⟩
  · rw [h1, h2]; rfl
  · cases hs : s.st with
    | start => exact absurd hs h1
    | idle => cases s.rxReady <;> cases i.valid <;> cases i.sop <;> rfl
    | waitEnd => cases s.rxReady <;> cases i.valid <;> cases i.sop <;> rfl

theorem axrReqs_snoc {c : AxrCfg} {m cid : Nat} {mem : Nat → Nat → UInt8} {s : Axr} {is : List AxrIn} {H : List AxrIn} {A : List (Nat × Nat)}
    {R : List (Nat → UInt8)} {S : List AxrWord} {done : List AxrJob} {cu : Option (AxrJob × Nat × Nat)} {cm : Option AxrJob} {re : List AxrJob}
    (h : AxrInv c m cid mem (axrRun c s is) (axrOpen false (axrTaken c s is)) H A R S done cu cm re) (i : AxrIn) :
    axrReqs c s (is ++ [i]) = axrReqs c s is ++ (if axrHead (axrRun c s is) i then [i] else []) ∧
    axrOpen false (axrTaken c s (is ++ [i])) = (if (axrRun c s is).rxReady && i.valid then
      if axrOpen false (axrTaken c s is) || i.sop then !i.eop else false else axrOpen false (axrTaken c s is)) := by
  have hh := axr_head_iff h i
  unfold axrReqs
  rw [axrTaken_snoc]
  cases hx : ((axrRun c s is).rxReady && i.valid) with
  | false =>
    rw [hh, hx]; simp
  | true =>
    rw [hh, hx]
    simp only [if_true, Bool.true_and]
    exact axrHeads_snoc _ _ _

theorem axrReqs_prefix (c : AxrCfg) (s : Axr) (is js : List AxrIn) : axrReqs c s is <+: axrReqs c s (is ++ js) := by
  unfold axrReqs axrTaken
  rw [axrTrace_append, List.filterMap_append]
  generalize List.filterMap _ (axrTrace c s is) = xs
  generalize List.filterMap _ (axrTrace c (axrRun c s is) js) = ys
  revert ys
  refine axr_snoc_ind ?_ ?_
  · simp
  · intro ys y ih
    rw [← List.append_assoc, (axrHeads_snoc _ _ _).1]
    exact ih.trans (List.prefix_append _ _)

theorem axrHist_of_append {c : AxrCfg} {m cid : Nat} {mem : Nat → Nat → UInt8} {s : Axr} {is js : List AxrIn} (h : AxrHist c m cid mem s (is ++ js)) :
    AxrHist c m cid mem s is where
  set := fun x hx => h.set x (by simp [hx])
  slave := fun pre hp => h.slave pre (hp.trans (List.prefix_append _ _))
  alone := fun pre j x hp => h.alone pre j x (hp.trans (List.prefix_append _ _))
  reqs := fun x hx => h.reqs x ((axrReqs_prefix c s is js).subset hx)

/-- The invariant after a history. -/
def AxrAt (c : AxrCfg) (m cid : Nat) (mem : Nat → Nat → UInt8) (s : Axr) (is : List AxrIn) (done : List AxrJob) (cu : Option (AxrJob × Nat × Nat))
    (cm : Option AxrJob) (re : List AxrJob) : Prop :=
  AxrInv c m cid mem (axrRun c s is) (axrOpen false (axrTaken c s is)) (axrReqs c s is) (axrArs c s is) (axrRs c s is) (axrSent c s is) done cu cm re

theorem axr_at_step (c : AxrCfg) (hc : AxrCfgOk c) (m cid : Nat) (hm8 : m < 8) (hcid : cid < 2 ^ 16) (mem : Nat → Nat → UInt8) (s : Axr) (is : List AxrIn)
    (i : AxrIn) (hh : AxrHist c m cid mem s (is ++ [i])) (done : List AxrJob) (cu : Option (AxrJob × Nat × Nat)) (cm : Option AxrJob) (re : List AxrJob)
    (h : AxrAt c m cid mem s is done cu cm re) :
    ∃ done' cu' cm' re', AxrAt c m cid mem s (is ++ [i]) done' cu' cm' re' ∧ CurMove (axrRun c s is) i done cu cm done' cu' := by
  unfold AxrAt at h
  obtain ⟨g1, g2⟩ := axrReqs_snoc h i
  obtain ⟨i1, i2, i3⟩ := hh.set i (by simp)
  unfold AxrAt
  rw [axrRun_snoc, g1, g2, axrArs_snoc, axrRs_snoc, axrSent_snoc]
  refine axr_inv_step c hc m cid hm8 hcid mem _ _ _ _ _ _ _ _ _ _ h i i1 i2 i3 ?_ ?_ ?_
  · have := hh.slave (is ++ [i]) (List.prefix_refl _)
    rwa [axrArs_snoc, axrRs_snoc] at this
  · intro hx
    exact hh.reqs i (by rw [g1, if_pos hx]; simp)
  · intro hx hu
    exact hh.alone is i i (List.prefix_refl _) (by rw [g1, if_pos hx]) hu

theorem axr_run (c : AxrCfg) (hc : AxrCfgOk c) (m cid : Nat) (hm8 : m < 8) (hcid : cid < 2 ^ 16) (mem : Nat → Nat → UInt8) (s : Axr) (r : AxrIn)
    (hr : r.rst = true) : ∀ is : List AxrIn, AxrHist c m cid mem (axrStep c s r) is →
    ∃ done cu cm re, AxrAt c m cid mem (axrStep c s r) is done cu cm re := by
  refine axr_snoc_ind ?_ ?_
  · intro _
    exact ⟨[], none, none, [], axr_inv_rst c m cid mem s r hr⟩
  · intro is i ih hh
    obtain ⟨done, cu, cm, re, h⟩ := ih (axrHist_of_append hh)
    obtain ⟨d, a, b, e, h, _⟩ := axr_at_step c hc m cid hm8 hcid mem _ is i hh done cu cm re h
    exact ⟨d, a, b, e, h⟩

end Verif.Proofs
