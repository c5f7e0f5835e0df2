import Verif.Proofs.AxiMasterRdJob
/-! The AXI master for reads: the side of the completions. -/
namespace Verif.Proofs
open Verif Verif.Model Verif.Spec

/-- The command register has the parameters of a completion. -/
structure CmdIs (c : AxrCfg) (cid : Nat) (j : AxrJob) (k : AxrCmd) : Prop where
  rng : AxrRng k.status k.rid k.tag k.tc k.attr
  data : j.bytes ≠ 0 → JobOk c j ∧ k.status = 0 ∧ recOf cid 0 k.rid k.tag k.tc k.attr k.dws k.len (k.lower % 128) = j.cpl ∧ k.dws = jobN j ∧
    k.inLen = jobNb c j - 1 ∧ k.outLen = jobNw c j - 1 ∧ k.off = (c.dws - jobO c j) % c.dws ∧ k.bubble = decide (jobO c j ≠ 0)
  ur : j.bytes = 0 → k.status = 1 ∧ k.dws = 0 ∧ recOf cid 1 k.rid k.tag k.tc k.attr k.dws k.len 0 = j.cpl

/-- A completion with data is being made; `ni` transfers have been taken and `no` words given. -/
structure CurData (c : AxrCfg) (cid : Nat) (mem : Nat → UInt8) (s : Axr) (j : AxrJob) (ni no : Nat) : Prop where
  ok : JobOk c j
  rng : AxrRng s.status s.rid s.tag s.tc s.attr
  st0 : s.status = 0
  ts : s.ts = if no = 0 then .header else .transfer
  bub : s.bubble = true → no = 0 ∧ jobO c j ≠ 0
  hni : ni = if s.bubble then 0 else min (jobNb c j) (no + if jobO c j = 0 then 0 else 1)
  lt : no < jobNw c j
  inA : s.inA = decide (ni < jobNb c j)
  inC : ni < jobNb c j → s.inC = jobNb c j - 1 - ni
  outC : s.outC = jobNw c j - 1 - no
  lastC : s.lastC = decide (no + 1 = jobNw c j)
  dws : s.dws = jobN j - no * c.dws
  off : s.off = (c.dws - jobO c j) % c.dws
  save : jobO c j ≠ 0 → 0 < ni → ∀ k < 2 ^ c.tb, s.save k = mem (j.addr / 2 ^ c.tb * 2 ^ c.tb + (ni - 1) * 2 ^ c.tb + k)
  hdr : no = 0 → recOf cid s.status s.rid s.tag s.tc s.attr s.dws s.len (s.lower % 128) = j.cpl

/-- A completion without data is being made. -/
structure CurUr (cid : Nat) (s : Axr) (j : AxrJob) : Prop where
  rng : AxrRng s.status s.rid s.tag s.tc s.attr
  st1 : s.status = 1
  ts : s.ts = .cpl
  hdr : recOf cid s.status s.rid s.tag s.tc s.attr s.dws s.len 0 = j.cpl

/-- The completion being made: number of transfers and words. -/
def CurIs (c : AxrCfg) (cid : Nat) (mem : Nat → UInt8) (s : Axr) : Option (AxrJob × Nat × Nat) → Prop
  | none => s.ts = .idle
  | some (j, ni, no) => (j.bytes ≠ 0 ∧ CurData c cid mem s j ni no) ∨ (j.bytes = 0 ∧ ni = 0 ∧ no = 0 ∧ CurUr cid s j)

/-- The completion being made. -/
def cuJ (cu : Option (AxrJob × Nat × Nat)) : List AxrJob := (cu.map (·.1)).toList

/-- Its transfers taken. -/
def cuBeats (c : AxrCfg) (mem : Nat → UInt8) : Option (AxrJob × Nat × Nat) → List (List UInt8)
  | none => []
  | some (j, ni, _) => (jobBeats c mem j).take ni

/-- Its words given. -/
def cuWords (b : Nat) (mem : Nat → UInt8) : Option (AxrJob × Nat × Nat) → List (Option CplRec × List (Option UInt8) × Bool)
  | none => []
  | some (j, _, no) => (jobWords b mem j).take no

/-- The completions made are those that are needed. -/
structure TSide (c : AxrCfg) (cid : Nat) (mem : Nat → Nat → UInt8) (s : Axr) (R : List (Nat → UInt8)) (S : List AxrWord) (done : List AxrJob)
    (cu : Option (AxrJob × Nat × Nat)) : Prop where
  skid : SkidOk s.out
  rdy : s.rReady = true → s.out.ready = true ∧ s.inA = true ∧ (s.ts = .header ∨ s.ts = .transfer)
  cur : CurIs c cid (mem (jobCount done)) s cu
  rs : R.map (fun d => (List.range (2 ^ c.tb)).map d) = jobsBeats c mem 0 done ++ cuBeats c (mem (jobCount done)) cu
  ws : S.map (axrView (2 ^ c.tb)) ++ (skidQ s.out).map (axrView (2 ^ c.tb)) =
    jobsWords (2 ^ c.tb) mem 0 done ++ cuWords (2 ^ c.tb) (mem (jobCount done)) cu

/-! ### Words -/

/-- Word `o` of a completion with data. -/
def jobWord (c : AxrCfg) (mem : Nat → UInt8) (j : AxrJob) (o : Nat) : Option CplRec × List (Option UInt8) × Bool :=
  (if o = 0 then some j.cpl else none,
   (List.range (2 ^ c.tb)).map fun k => if o * 2 ^ c.tb + k < j.bytes then some (mem (j.addr + (o * 2 ^ c.tb + k))) else none,
   o + 1 == jobNw c j)

theorem jobWords_eq (c : AxrCfg) (mem : Nat → UInt8) (j : AxrJob) (h : j.bytes ≠ 0) :
    jobWords (2 ^ c.tb) mem j = (List.range (jobNw c j)).map (jobWord c mem j) := by
  unfold jobWords; rw [if_neg h]; rfl

theorem take_succ_range {α : Type} (f : Nat → α) (n k : Nat) (h : k < n) : ((List.range n).map f).take (k + 1) = ((List.range n).map f).take k ++ [f k] := by
  rw [List.take_add_one]
  simp [h]

theorem beat_get (c : AxrCfg) (mem : Nat → UInt8) (j : AxrJob) (t : Nat) (d : Nat → UInt8)
    (h : (List.range (2 ^ c.tb)).map d = jobBeat c mem j t) : ∀ k < 2 ^ c.tb, d k = mem (j.addr / 2 ^ c.tb * 2 ^ c.tb + t * 2 ^ c.tb + k) := by
  intro k hk
  have := congrArg (fun l => l[k]?) h
  simp only [jobBeat, List.getElem?_map, List.getElem?_range hk, Option.map_some, Option.some.injEq] at this
  exact this

theorem axrGo_beat (c : AxrCfg) (cid : Nat) (mem : Nat → UInt8) (s : Axr) (i : AxrIn) (j : AxrJob) (ni no : Nat)
    (h : CurData c cid mem s j ni no) (hg : axrGo s i = true) : ni < jobNb c j → s.rReady = true ∧ i.rValid = true := by
  intro hlt
  unfold axrGo at hg
  have ha := h.inA
  rw [decide_eq_true hlt] at ha
  rw [ha] at hg
  simp only [Bool.and_eq_true, Bool.or_eq_true, Bool.not_true, Bool.false_eq_true, or_false] at hg
  exact hg.2

/-- The word given is the next one. -/
theorem cur_view (c : AxrCfg) (hc : AxrCfgOk c) (cid : Nat) (hcid : cid < 2 ^ 16) (mem : Nat → UInt8) (s : Axr) (i : AxrIn) (j : AxrJob) (ni no : Nat)
    (h : CurData c cid mem s j ni no) (hi : i.cid = cid) (hf : axrFire s i = true)
    (hb : s.rReady = true → i.rValid = true → (List.range (2 ^ c.tb)).map i.rData = jobBeat c mem j ni) :
    axrView (2 ^ c.tb) (axrWord c s i) = jobWord c mem j no := by
  obtain ⟨e1, e2, e3⟩ := axr_bytes c hc
  obtain ⟨j1, j2, j3, j4, j5, j6⟩ := job_rel c hc j h.ok
  obtain ⟨n1, n2, n3⟩ := jobN_rel c hc j h.ok
  have hgo : axrGo s i = true := by unfold axrFire at hf; simp only [Bool.and_eq_true] at hf; exact hf.1
  have hgb := axrGo_beat c cid mem s i j ni no h hgo
  have hbub : s.bubble = false := by
    cases hb : s.bubble with
    | false => rfl
    | true =>
      obtain ⟨h0, _⟩ := h.bub hb
      have ht := h.ts
      rw [if_pos h0] at ht
      simp [axrFire, hb, ht] at hf
  have hni := h.hni
  rw [hbub] at hni
  simp only [Bool.false_eq_true, if_false] at hni
  unfold axrView jobWord axrWord
  refine Prod.ext ?_ (Prod.ext ?_ ?_)
  · show (if (s.ts != .transfer) = true then _ else _) = _
    have ht := h.ts
    by_cases h0 : no = 0
    · rw [if_pos h0] at ht
      rw [ht, if_pos h0, if_pos (by rfl)]
      show some (if (cplRec (axrHdr s i.cid)).status = 0 then _ else _) = _
      rw [hi, axrHdr_dec s cid hcid h.rng, h.hdr h0]
      have : j.cpl.status = 0 := by rw [← h.hdr h0]; exact h.st0
      rw [if_pos this]
    · rw [if_neg h0] at ht
      rw [ht, if_neg h0, if_neg (by decide)]
  · show (List.range (2 ^ c.tb)).map (fun k => if (s.ts != .cpl && decide (k / 4 < s.dws)) = true then some (axrData c s i k) else none) = _
    refine List.map_congr_left fun k hk => ?_
    have hk : k < 2 ^ c.tb := List.mem_range.1 hk
    have htc : (s.ts != .cpl) = true := by
      rw [h.ts]; split <;> rfl
    rw [htc, Bool.true_and, h.dws]
    have hlt := (jobNw_lt c hc j h.ok no).1 h.lt
    have hb4 : no * 2 ^ c.tb = 4 * (no * c.dws) := by rw [e1, Nat.mul_left_comm]
    have hiff : (k / 4 < jobN j - no * c.dws) ↔ no * 2 ^ c.tb + k < j.bytes := by
      rw [hb4, j1]; generalize no * c.dws = x at *; omega
    by_cases hin : no * 2 ^ c.tb + k < j.bytes
    · rw [if_pos (decide_eq_true (hiff.2 hin)), if_pos hin]
      congr 1
      unfold axrData
      rw [h.off]
      rw [show c.bytes = 2 ^ c.tb from rfl]
      by_cases ho : jobO c j = 0
      · rw [ho, Nat.sub_zero, Nat.mod_self, Nat.sub_zero]
        rw [if_pos ho, Nat.add_zero] at hni
        rw [ho] at n3 j4
        simp only [if_true] at n3
        have hlt2 : ni < jobNb c j := by have := h.lt; omega
        have hd := beat_get c mem j ni i.rData (hb (hgb hlt2).1 (hgb hlt2).2) k hk
        rw [if_neg (by omega)]
        rw [show k + 4 * c.dws - 2 ^ c.tb = k by omega, hd]
        have : ni = no := by have := h.lt; omega
        rw [this]
        congr 1
        omega
      · rw [if_neg ho] at hni n3
        have hno : ni = no + 1 := by have := h.lt; omega
        rw [Nat.mod_eq_of_lt (a := c.dws - jobO c j) (by omega)]
        rw [show 4 * (c.dws - (c.dws - jobO c j)) = 4 * jobO c j by omega]
        by_cases hs : k + 4 * jobO c j < 2 ^ c.tb
        · rw [if_pos hs, h.save ho (by omega) _ hs, hno, Nat.add_sub_cancel]
          congr 1
          omega
        · rw [if_neg hs]
          by_cases hlt2 : ni < jobNb c j
          · have hd := beat_get c mem j ni i.rData (hb (hgb hlt2).1 (hgb hlt2).2) (k + 4 * jobO c j - 2 ^ c.tb) (by omega)
            rw [hd, hno, Nat.succ_mul]
            congr 1
            omega
          · exfalso
            rw [jobNb_lt c hc j h.ok, hno, Nat.succ_mul] at hlt2
            rw [hb4, j1] at hin
            generalize no * c.dws = x at *
            omega
    · rw [if_neg (by simp only [decide_eq_true_eq]; exact fun h => hin (hiff.1 h)), if_neg hin]
  · show (s.ts == .cpl || s.lastC) = _
    have htc : (s.ts == .cpl) = false := by
      rw [h.ts]; split <;> rfl
    rw [htc, Bool.false_or, h.lastC, Bool.eq_iff_iff]
    simp

theorem ur_view (c : AxrCfg) (cid : Nat) (hcid : cid < 2 ^ 16) (mem : Nat → UInt8) (s : Axr) (i : AxrIn) (j : AxrJob)
    (h : CurUr cid s j) (hj : j.bytes = 0) (hi : i.cid = cid) :
    [axrView (2 ^ c.tb) (axrWord c s i)] = jobWords (2 ^ c.tb) mem j := by
  unfold axrView jobWords axrWord
  rw [if_pos hj]
  simp only [h.ts]
  congr 1
  refine Prod.ext ?_ (Prod.ext ?_ ?_)
  · show some (if (cplRec (axrHdr s i.cid)).status = 0 then _ else _) = _
    rw [hi, axrHdr_dec s cid hcid h.rng]
    rw [if_neg (by show ¬ s.status = 0; rw [h.st1]; decide), ← h.hdr]
    rfl
  · show (List.range (2 ^ c.tb)).map (fun k => if (((AxrTs.cpl) != AxrTs.cpl) && _) = true then _ else none) = List.replicate (2 ^ c.tb) none
    rw [List.eq_replicate_iff]
    refine ⟨by simp, ?_⟩
    intro b hb
    obtain ⟨k, _, rfl⟩ := List.mem_map.1 hb
    rfl
  · rfl

/-! ### One clock edge -/

theorem axrStep_norst (c : AxrCfg) (s : Axr) (i : AxrIn) (h : i.rst = false) : axrStep c s i = axrNext c s i false := by
  unfold axrStep; rw [h]; rfl

theorem load_data (c : AxrCfg) (hc : AxrCfgOk c) (cid : Nat) (mem : Nat → UInt8) (s : Axr) (i : AxrIn) (j : AxrJob) (hr : i.rst = false)
    (hl : axrLoad s i = true) (hk : CmdIs c cid j s.cmd) (hj : j.bytes ≠ 0) (ht : axrTsNext s i = .header) :
    CurData c cid mem (axrStep c s i) j 0 0 := by
  obtain ⟨d1, d2, d3, d4, d5, d6, d7, d8⟩ := hk.data hj
  obtain ⟨n1, n2, n3⟩ := jobN_rel c hc j d1
  rw [axrStep_norst c s i hr]
  have e1 : (axrNext c s i false).status = s.cmd.status := by show (if _ then _ else _) = _; rw [if_pos hl]
  have e2 : (axrNext c s i false).rid = s.cmd.rid := by show (if _ then _ else _) = _; rw [if_pos hl]
  have e3 : (axrNext c s i false).tag = s.cmd.tag := by show (if _ then _ else _) = _; rw [if_pos hl]
  have e4 : (axrNext c s i false).tc = s.cmd.tc := by show (if _ then _ else _) = _; rw [if_pos hl]
  have e5 : (axrNext c s i false).attr = s.cmd.attr := by show (if _ then _ else _) = _; rw [if_pos hl]
  have e6 : (axrNext c s i false).dws = s.cmd.dws := by show (if _ then _ else _) = _; rw [if_pos hl]
  have e7 : (axrNext c s i false).len = s.cmd.len := by show (if _ then _ else _) = _; rw [if_pos hl]
  have e8 : (axrNext c s i false).lower = s.cmd.lower := by show (if _ then _ else _) = _; rw [if_pos hl]
  have e9 : (axrNext c s i false).bubble = s.cmd.bubble := by show (if _ then _ else _) = _; rw [if_pos hl]
  have e10 : (axrNext c s i false).inC = s.cmd.inLen := by show (if _ then _ else _) = _; rw [if_pos hl]
  have e11 : (axrNext c s i false).outC = s.cmd.outLen := by show (if _ then _ else _) = _; rw [if_pos hl]
  have e12 : (axrNext c s i false).off = s.cmd.off := by show (if _ then _ else _) = _; rw [if_pos hl]
  have e13 : (axrNext c s i false).lastC = (s.cmd.outLen == 0) := by show (if _ then _ else _) = _; rw [if_pos hl]
  have e14 : (axrNext c s i false).inA = true := by show (if _ then _ else _) = _; rw [if_pos hl]
  exact
    { ok := d1
      rng := by rw [e1, e2, e3, e4, e5]; exact hk.rng
      st0 := by rw [e1, d2]
      ts := ht
      bub := by
        rw [e9, d8]; intro h; exact ⟨rfl, of_decide_eq_true h⟩
      hni := by
        rw [e9, d8]
        by_cases h : jobO c j = 0 <;> simp [h]
      lt := n1
      inA := by rw [e14]; exact (decide_eq_true (by omega)).symm
      inC := fun _ => by rw [e10, d5, Nat.sub_zero]
      outC := by rw [e11, d6, Nat.sub_zero]
      lastC := by
        rw [e13, d6, Bool.eq_iff_iff]; simp only [beq_iff_eq, decide_eq_true_eq]; omega
      dws := by rw [e6, d4, Nat.zero_mul, Nat.sub_zero]
      off := by rw [e12, d7]
      save := fun _ h => absurd h (by omega)
      hdr := fun _ => by rw [e1, e2, e3, e4, e5, e6, e7, e8, d2]; exact d3 }

theorem load_ur (c : AxrCfg) (cid : Nat) (s : Axr) (i : AxrIn) (j : AxrJob) (hr : i.rst = false)
    (hl : axrLoad s i = true) (hk : CmdIs c cid j s.cmd) (hj : j.bytes = 0) (ht : axrTsNext s i = .cpl) :
    CurUr cid (axrStep c s i) j := by
  obtain ⟨d1, d2, d3⟩ := hk.ur hj
  rw [axrStep_norst c s i hr]
  have e1 : (axrNext c s i false).status = s.cmd.status := by show (if _ then _ else _) = _; rw [if_pos hl]
  have e2 : (axrNext c s i false).rid = s.cmd.rid := by show (if _ then _ else _) = _; rw [if_pos hl]
  have e3 : (axrNext c s i false).tag = s.cmd.tag := by show (if _ then _ else _) = _; rw [if_pos hl]
  have e4 : (axrNext c s i false).tc = s.cmd.tc := by show (if _ then _ else _) = _; rw [if_pos hl]
  have e5 : (axrNext c s i false).attr = s.cmd.attr := by show (if _ then _ else _) = _; rw [if_pos hl]
  have e6 : (axrNext c s i false).dws = s.cmd.dws := by show (if _ then _ else _) = _; rw [if_pos hl]
  have e7 : (axrNext c s i false).len = s.cmd.len := by show (if _ then _ else _) = _; rw [if_pos hl]
  exact
    { rng := by rw [e1, e2, e3, e4, e5]; exact hk.rng
      st1 := by rw [e1, d1]
      ts := ht
      hdr := by rw [e1, e2, e3, e4, e5, e6, e7, d1]; exact d3 }

/-- No word: nothing changes. -/
theorem stay_data (c : AxrCfg) (cid : Nat) (mem : Nat → UInt8) (s : Axr) (i : AxrIn) (j : AxrJob) (ni no : Nat) (hr : i.rst = false)
    (h : CurData c cid mem s j ni no) (hg : axrGo s i = false) : CurData c cid mem (axrStep c s i) j ni no := by
  have hf : axrFire s i = false := by unfold axrFire; rw [hg]; rfl
  have hts : s.ts = .header ∨ s.ts = .transfer := by rw [h.ts]; split <;> simp
  have hend : axrEnd s i = false := by
    unfold axrEnd; rw [hf]; rcases hts with e | e <;> rw [e] <;> rfl
  have hl : axrLoad s i = false := by
    unfold axrLoad; rw [hend]; rcases hts with e | e <;> rw [e] <;> rfl
  rw [axrStep_norst c s i hr]
  have hl' : ¬ axrLoad s i = true := by rw [hl]; decide
  have hf' : ¬ axrFire s i = true := by rw [hf]; decide
  have e1 : (axrNext c s i false).status = s.status := by show (if _ then _ else _) = _; rw [if_neg hl']
  have e2 : (axrNext c s i false).rid = s.rid := by show (if _ then _ else _) = _; rw [if_neg hl']
  have e3 : (axrNext c s i false).tag = s.tag := by show (if _ then _ else _) = _; rw [if_neg hl']
  have e4 : (axrNext c s i false).tc = s.tc := by show (if _ then _ else _) = _; rw [if_neg hl']
  have e5 : (axrNext c s i false).attr = s.attr := by show (if _ then _ else _) = _; rw [if_neg hl']
  have e6 : (axrNext c s i false).dws = s.dws := by show (if _ then _ else if _ then _ else _) = _; rw [if_neg hl', if_neg hf']
  have e7 : (axrNext c s i false).len = s.len := by show (if _ then _ else _) = _; rw [if_neg hl']
  have e8 : (axrNext c s i false).lower = s.lower := by show (if _ then _ else _) = _; rw [if_neg hl']
  have e9 : (axrNext c s i false).bubble = s.bubble := by show (if _ then _ else if _ then _ else _) = _; rw [if_neg hl', hg]; rfl
  have e10 : (axrNext c s i false).inC = s.inC := by show (if _ then _ else if _ then _ else _) = _; rw [if_neg hl', hg]; rfl
  have e11 : (axrNext c s i false).outC = s.outC := by show (if _ then _ else if _ then _ else _) = _; rw [if_neg hl', if_neg hf']
  have e12 : (axrNext c s i false).off = s.off := by show (if _ then _ else _) = _; rw [if_neg hl']
  have e13 : (axrNext c s i false).lastC = s.lastC := by show (if _ then _ else if _ then _ else _) = _; rw [if_neg hl', if_neg hf']
  have e14 : (axrNext c s i false).inA = s.inA := by show (if _ then _ else if _ then _ else _) = _; rw [if_neg hl', hg]; rfl
  have e15 : (axrNext c s i false).save = s.save := by show (if _ then _ else _) = _; rw [hg]; rfl
  have e16 : (axrNext c s i false).ts = s.ts := by
    show axrTsNext s i = _
    unfold axrTsNext
    rcases hts with e | e <;> rw [e] <;> simp [hf, hend]
  exact
    { ok := h.ok
      rng := by rw [e1, e2, e3, e4, e5]; exact h.rng
      st0 := by rw [e1]; exact h.st0
      ts := by rw [e16]; exact h.ts
      bub := by rw [e9]; exact h.bub
      hni := by rw [e9]; exact h.hni
      lt := h.lt
      inA := by rw [e14]; exact h.inA
      inC := by rw [e10]; exact h.inC
      outC := by rw [e11]; exact h.outC
      lastC := by rw [e13]; exact h.lastC
      dws := by rw [e6]; exact h.dws
      off := by rw [e12]; exact h.off
      save := by rw [e15]; exact h.save
      hdr := by rw [e1, e2, e3, e4, e5, e6, e7, e8]; exact h.hdr }

/-- A transfer is taken to fill the register for the shift. -/
theorem fill_data (c : AxrCfg) (hc : AxrCfgOk c) (cid : Nat) (mem : Nat → UInt8) (s : Axr) (i : AxrIn) (j : AxrJob) (ni no : Nat) (hr : i.rst = false)
    (h : CurData c cid mem s j ni no) (hg : axrGo s i = true) (hf : axrFire s i = false)
    (hb : s.rReady = true → i.rValid = true → (List.range (2 ^ c.tb)).map i.rData = jobBeat c mem j ni) :
    ni = 0 ∧ no = 0 ∧ s.rReady = true ∧ i.rValid = true ∧ CurData c cid mem (axrStep c s i) j 1 0 := by
  obtain ⟨n1, n2, n3⟩ := jobN_rel c hc j h.ok
  have hh : s.ts = .header ∧ s.bubble = true := by
    unfold axrFire at hf
    rw [hg, Bool.true_and] at hf
    simpa using hf
  obtain ⟨hts, hbub⟩ := hh
  obtain ⟨h0, hO⟩ := h.bub hbub
  have hni := h.hni
  rw [hbub] at hni
  simp only [if_true] at hni
  subst h0
  subst hni
  obtain ⟨hrr, hrv⟩ := axrGo_beat c cid mem s i j 0 0 h hg (by omega)
  refine ⟨rfl, rfl, hrr, hrv, ?_⟩
  have hend : axrEnd s i = false := by
    unfold axrEnd; rw [hf, hts]; rfl
  have hl : axrLoad s i = false := by
    unfold axrLoad; rw [hend, hts]; rfl
  have hia : s.inA = true := by rw [h.inA]; exact decide_eq_true (by omega)
  have hic := h.inC (by omega)
  rw [axrStep_norst c s i hr]
  have hl' : ¬ axrLoad s i = true := by rw [hl]; decide
  have hf' : ¬ axrFire s i = true := by rw [hf]; decide
  have hgi : (axrGo s i && s.inA) = true := by rw [hg, hia]; rfl
  have e1 : (axrNext c s i false).status = s.status := by show (if _ then _ else _) = _; rw [if_neg hl']
  have e2 : (axrNext c s i false).rid = s.rid := by show (if _ then _ else _) = _; rw [if_neg hl']
  have e3 : (axrNext c s i false).tag = s.tag := by show (if _ then _ else _) = _; rw [if_neg hl']
  have e4 : (axrNext c s i false).tc = s.tc := by show (if _ then _ else _) = _; rw [if_neg hl']
  have e5 : (axrNext c s i false).attr = s.attr := by show (if _ then _ else _) = _; rw [if_neg hl']
  have e6 : (axrNext c s i false).dws = s.dws := by show (if _ then _ else if _ then _ else _) = _; rw [if_neg hl', if_neg hf']
  have e7 : (axrNext c s i false).len = s.len := by show (if _ then _ else _) = _; rw [if_neg hl']
  have e8 : (axrNext c s i false).lower = s.lower := by show (if _ then _ else _) = _; rw [if_neg hl']
  have e9 : (axrNext c s i false).bubble = false := by show (if _ then _ else if _ then _ else _) = _; rw [if_neg hl', hg, hts]; rfl
  have e10 : (axrNext c s i false).inC = (s.inC + 2 ^ 10 - 1) % 2 ^ 10 := by
    show (if _ then _ else if _ then _ else _) = _; rw [if_neg hl', if_pos hgi]
  have e11 : (axrNext c s i false).outC = s.outC := by show (if _ then _ else if _ then _ else _) = _; rw [if_neg hl', if_neg hf']
  have e12 : (axrNext c s i false).off = s.off := by show (if _ then _ else _) = _; rw [if_neg hl']
  have e13 : (axrNext c s i false).lastC = s.lastC := by show (if _ then _ else if _ then _ else _) = _; rw [if_neg hl', if_neg hf']
  have e14 : (axrNext c s i false).inA = decide (s.inC > 0) := by show (if _ then _ else if _ then _ else _) = _; rw [if_neg hl', if_pos hgi]
  have e15 : (axrNext c s i false).save = i.rData := by show (if _ then _ else _) = _; rw [hg, hrr, hrv]; simp
  have e16 : (axrNext c s i false).ts = .header := by
    show axrTsNext s i = _
    unfold axrTsNext
    rw [hts]; simp [hf]
  have hnb := h.ok.nb
  exact
    { ok := h.ok
      rng := by rw [e1, e2, e3, e4, e5]; exact h.rng
      st0 := by rw [e1]; exact h.st0
      ts := by rw [e16]; rfl
      bub := by rw [e9]; intro h; cases h
      hni := by rw [e9]; simp only [Bool.false_eq_true, if_false, if_neg hO]; omega
      lt := h.lt
      inA := by rw [e14, hic]; exact decide_eq_decide.2 (by omega)
      inC := by rw [e10, hic]; intro h; omega
      outC := by rw [e11]; exact h.outC
      lastC := by rw [e13]; exact h.lastC
      dws := by rw [e6]; exact h.dws
      off := by rw [e12]; exact h.off
      save := by
        rw [e15]; intro _ _ k hk
        exact beat_get c mem j 0 i.rData (hb hrr hrv) k hk
      hdr := by rw [e1, e2, e3, e4, e5, e6, e7, e8]; exact h.hdr }

/-- A word, not the last one. -/
theorem fire_data (c : AxrCfg) (hc : AxrCfgOk c) (cid : Nat) (mem : Nat → UInt8) (s : Axr) (i : AxrIn) (j : AxrJob) (ni no : Nat) (hr : i.rst = false)
    (h : CurData c cid mem s j ni no) (hf : axrFire s i = true) (hlast : s.lastC = false)
    (hb : s.rReady = true → i.rValid = true → (List.range (2 ^ c.tb)).map i.rData = jobBeat c mem j ni) :
    CurData c cid mem (axrStep c s i) j (if ni < jobNb c j then ni + 1 else ni) (no + 1) := by
  obtain ⟨b1, b2, b3⟩ := axr_bytes c hc
  obtain ⟨n1, n2, n3⟩ := jobN_rel c hc j h.ok
  obtain ⟨j1, j2, j3, j4, j5, j6⟩ := job_rel c hc j h.ok
  have hgo : axrGo s i = true := by unfold axrFire at hf; simp only [Bool.and_eq_true] at hf; exact hf.1
  have hgb := axrGo_beat c cid mem s i j ni no h hgo
  have hts : s.ts = .header ∨ s.ts = .transfer := by rw [h.ts]; split <;> simp
  have hbub : s.bubble = false := by
    cases hb : s.bubble with
    | false => rfl
    | true =>
      obtain ⟨h0, _⟩ := h.bub hb
      have ht := h.ts
      rw [if_pos h0] at ht
      simp [axrFire, hb, ht] at hf
  have hni := h.hni
  rw [hbub] at hni
  simp only [Bool.false_eq_true, if_false] at hni
  have hend : axrEnd s i = false := by
    unfold axrEnd; rw [hf, hlast]; rcases hts with e | e <;> rw [e] <;> rfl
  have hl : axrLoad s i = false := by
    unfold axrLoad; rw [hend]; rcases hts with e | e <;> rw [e] <;> rfl
  have hl' : ¬ axrLoad s i = true := by rw [hl]; decide
  rw [axrStep_norst c s i hr]
  have e1 : (axrNext c s i false).status = s.status := by show (if _ then _ else _) = _; rw [if_neg hl']
  have e2 : (axrNext c s i false).rid = s.rid := by show (if _ then _ else _) = _; rw [if_neg hl']
  have e3 : (axrNext c s i false).tag = s.tag := by show (if _ then _ else _) = _; rw [if_neg hl']
  have e4 : (axrNext c s i false).tc = s.tc := by show (if _ then _ else _) = _; rw [if_neg hl']
  have e5 : (axrNext c s i false).attr = s.attr := by show (if _ then _ else _) = _; rw [if_neg hl']
  have e6 : (axrNext c s i false).dws = (s.dws + 2 ^ 11 - c.dws % 2 ^ 11) % 2 ^ 11 := by
    show (if _ then _ else if _ then _ else _) = _; rw [if_neg hl', if_pos hf]
  have e9 : (axrNext c s i false).bubble = false := by
    show (if _ then _ else if _ then _ else _) = _; rw [if_neg hl', hbub]; split <;> rfl
  have e10 : (axrNext c s i false).inC = if s.inA then (s.inC + 2 ^ 10 - 1) % 2 ^ 10 else s.inC := by
    show (if _ then _ else if _ then _ else _) = _; rw [if_neg hl', hgo, Bool.true_and]
  have e11 : (axrNext c s i false).outC = (s.outC + 2 ^ 10 - 1) % 2 ^ 10 := by
    show (if _ then _ else if _ then _ else _) = _; rw [if_neg hl', if_pos hf]
  have e12 : (axrNext c s i false).off = s.off := by show (if _ then _ else _) = _; rw [if_neg hl']
  have e13 : (axrNext c s i false).lastC = ((s.outC + 2 ^ 10 - 1) % 2 ^ 10 == 0) := by
    show (if _ then _ else if _ then _ else _) = _; rw [if_neg hl', if_pos hf]
  have e14 : (axrNext c s i false).inA = if s.inA then decide (s.inC > 0) else s.inA := by
    show (if _ then _ else if _ then _ else _) = _; rw [if_neg hl', hgo, Bool.true_and]
  have e15 : (axrNext c s i false).save = if (s.ts == .transfer || (s.rReady && i.rValid)) then i.rData else s.save := by
    show (if _ then _ else _) = _; rw [hgo, Bool.true_and]
  have e16 : (axrNext c s i false).ts = .transfer := by
    show axrTsNext s i = _
    unfold axrTsNext
    rcases hts with e | e <;> rw [e] <;> simp [hf, hend, hlast]
  have hnb := h.ok.nb
  have hlt := h.lt
  have hl2 : ¬ no + 1 = jobNw c j := by
    have := h.lastC; rw [hlast] at this; exact of_decide_eq_false this.symm
  have hlt2 : (no + 1) * c.dws < jobN j := (jobNw_lt c hc j h.ok _).1 (by omega)
  rw [Nat.succ_mul] at hlt2
  have hia := h.inA
  have hic := h.inC
  exact
    { ok := h.ok
      rng := by rw [e1, e2, e3, e4, e5]; exact h.rng
      st0 := by rw [e1]; exact h.st0
      ts := by rw [e16, if_neg (by omega)]
      bub := by rw [e9]; intro h; cases h
      hni := by
        rw [e9]; simp only [Bool.false_eq_true, if_false]
        generalize (if jobO c j = 0 then 0 else 1) = e at *
        split <;> omega
      lt := by omega
      inA := by
        rw [e14, hia]
        by_cases hlt3 : ni < jobNb c j
        · rw [if_pos (decide_eq_true hlt3), if_pos hlt3, hic hlt3]; exact decide_eq_decide.2 (by omega)
        · rw [if_neg (by simpa using hlt3), if_neg hlt3]
      inC := by
        rw [e10, hia]
        by_cases hlt3 : ni < jobNb c j
        · rw [if_pos (decide_eq_true hlt3), if_pos hlt3, hic hlt3]; intro h; omega
        · rw [if_neg hlt3]; intro h; exact absurd h hlt3
      outC := by rw [e11, h.outC]; omega
      lastC := by
        rw [e13, h.outC, Bool.eq_iff_iff]; simp only [beq_iff_eq, decide_eq_true_eq]; omega
      dws := by
        rw [e6, h.dws, Nat.succ_mul, Nat.mod_eq_of_lt (a := c.dws) (by omega)]
        generalize no * c.dws = x at *
        omega
      off := by rw [e12]; exact h.off
      save := by
        rw [e15]; intro hO _ k hk
        rw [if_neg hO] at hni
        by_cases hlt3 : ni < jobNb c j
        · rw [if_pos hlt3, Nat.add_sub_cancel, (hgb hlt3).1, (hgb hlt3).2]
          simp only [Bool.and_self, Bool.or_true, if_true]
          exact beat_get c mem j ni i.rData (hb (hgb hlt3).1 (hgb hlt3).2) k hk
        · omega
      hdr := fun h => absurd h (by omega) }

theorem skid_ready_next {β : Type} (s : Skid β) (vin : Bool) (x : β) (tr : Bool) (h : (tr || (!s.tempV && !s.outV)) = true) :
    (skidStep false s vin x tr).ready = true := by
  unfold skidStep; cases tr <;> simp_all

theorem axrR_next (c : AxrCfg) (s : Axr) (i : AxrIn) (hr : i.rst = false) (h : (axrStep c s i).rReady = true) :
    (axrStep c s i).out.ready = true ∧ (axrStep c s i).inA = true ∧ ((axrStep c s i).ts = .header ∨ (axrStep c s i).ts = .transfer) := by
  rw [axrStep_norst c s i hr] at h ⊢
  have h : axrRNext s i = true := h
  have hE : axrEarly s i = true → (axrNext c s i false).out.ready = true := fun h => skid_ready_next _ _ _ _ h
  show _ ∧ axrActNext s i = true ∧ (axrTsNext s i = _ ∨ axrTsNext s i = _)
  unfold axrRNext at h
  cases ht : s.ts with
  | idle =>
    rw [ht] at h
    simp only [Bool.and_eq_true, decide_eq_true_eq] at h
    refine ⟨hE h.2, ?_, Or.inl ?_⟩
    · unfold axrActNext axrLoad; rw [ht]; rfl
    · unfold axrTsNext; rw [ht]; simp [h.1.1, h.1.2]
  | cpl =>
    rw [ht] at h
    simp only [Bool.and_eq_true] at h
    refine ⟨hE h.2, ?_, Or.inl ?_⟩
    · unfold axrActNext axrLoad axrEnd; rw [ht]; simp [h.1.1]
    · unfold axrTsNext; rw [ht]; simp [h.1.1, h.1.2]
  | header =>
    rw [ht] at h
    by_cases he : axrEnd s i = true
    · simp only [he, if_true, Bool.and_eq_true] at h
      refine ⟨hE h.2, ?_, Or.inl ?_⟩
      · unfold axrActNext axrLoad; rw [he]; simp
      · unfold axrTsNext; rw [ht]
        unfold axrEnd at he; rw [ht] at he
        have : axrFire s i = true ∧ s.lastC = true := by simpa using he
        simp [this.1, this.2, h.1]
    · simp only [he, Bool.false_eq_true, if_false, Bool.and_eq_true] at h
      refine ⟨hE h.1, h.2, ?_⟩
      unfold axrTsNext; rw [ht]
      unfold axrEnd at he; rw [ht] at he
      cases hf : axrFire s i <;> simp_all
  | transfer =>
    rw [ht] at h
    by_cases he : axrEnd s i = true
    · simp only [he, if_true, Bool.and_eq_true] at h
      refine ⟨hE h.2, ?_, Or.inl ?_⟩
      · unfold axrActNext axrLoad; rw [he]; simp
      · unfold axrTsNext; rw [ht]
        simp [he, h.1]
    · simp only [he, Bool.false_eq_true, if_false, Bool.and_eq_true] at h
      refine ⟨hE h.1, h.2, Or.inr ?_⟩
      unfold axrTsNext; rw [ht]; simp [he]

/-- A new completion starts. -/
theorem cur_load (c : AxrCfg) (hc : AxrCfgOk c) (cid : Nat) (mem : Nat → UInt8) (s : Axr) (i : AxrIn) (hr : i.rst = false) (cm : Option AxrJob)
    (hl : axrLoad s i = true) (hV : s.cmdV = cm.isSome) (hC : ∀ j, cm = some j → CmdIs c cid j s.cmd ∧ (j.bytes = 0 → s.ts = .idle)) :
    CurIs c cid mem (axrStep c s i) (cm.map fun j => (j, 0, 0)) := by
  have hcont : s.ts ≠ .idle → axrEnd s i = true := by
    intro h; unfold axrLoad at hl; simpa [h] using hl
  have htn : s.ts ≠ .idle → axrTsNext s i = if s.cmdV then .header else .idle := by
    intro h
    have he := hcont h
    unfold axrTsNext
    cases ht : s.ts with
    | idle => exact absurd ht h
    | header =>
      unfold axrEnd at he; rw [ht] at he
      have : axrFire s i = true ∧ s.lastC = true := by simpa using he
      simp [this.1, this.2]
    | transfer => simp [he]
    | cpl =>
      unfold axrEnd at he; rw [ht] at he
      have : s.out.ready = true := by
        rcases Bool.or_eq_true _ _ ▸ he with h | h
        · have : axrFire s i = false := by unfold axrFire axrGo; rw [ht]; rfl
          rw [this] at h; simp at h
        · simpa using h
      simp [this]
  cases cm with
  | none =>
    show (axrStep c s i).ts = .idle
    rw [axrStep_norst c s i hr]
    show axrTsNext s i = .idle
    have hV : s.cmdV = false := hV
    by_cases hi : s.ts = .idle
    · unfold axrTsNext; rw [hi]; simp [hV]
    · rw [htn hi, hV]; rfl
  | some j =>
    have hV : s.cmdV = true := hV
    obtain ⟨hk, hu⟩ := hC j rfl
    by_cases hj : j.bytes = 0
    · refine Or.inr ⟨hj, rfl, rfl, load_ur c cid s i j hr hl hk hj ?_⟩
      unfold axrTsNext; rw [hu hj]; simp [hV, (hk.ur hj).1]
    · refine Or.inl ⟨hj, load_data c hc cid mem s i j hr hl hk hj ?_⟩
      by_cases hi : s.ts = .idle
      · unfold axrTsNext; rw [hi]; simp [hV, (hk.data hj).2.1]
      · rw [htn hi, hV]; rfl

theorem jobsBeats_one (c : AxrCfg) (mem : Nat → Nat → UInt8) (done : List AxrJob) (j : AxrJob) :
    jobsBeats c mem 0 (done ++ [j]) = jobsBeats c mem 0 done ++ jobBeats c (mem (jobCount done)) j := by
  rw [jobsBeats_append]; simp [jobsBeats]

theorem jobsWords_one (b : Nat) (mem : Nat → Nat → UInt8) (done : List AxrJob) (j : AxrJob) :
    jobsWords b mem 0 (done ++ [j]) = jobsWords b mem 0 done ++ jobWords b (mem (jobCount done)) j := by
  rw [jobsWords_append]; simp [jobsWords]

/-- What is done for completions at one clock edge. -/
structure CurMove (s : Axr) (i : AxrIn) (done : List AxrJob) (cu : Option (AxrJob × Nat × Nat)) (cm : Option AxrJob) (done' : List AxrJob)
    (cu' : Option (AxrJob × Nat × Nat)) : Prop where
  load : axrLoad s i = true → done' = done ++ cuJ cu ∧ cu' = cm.map fun j => (j, 0, 0)
  stay : axrLoad s i = false → done' = done ∧ ∀ j ni no, cu = some (j, ni, no) → ∃ ni' no', cu' = some (j, ni', no') ∧ ni + no ≤ ni' + no' ∧
    (axrGo s i = true → ni + no < ni' + no')

/-- One clock edge of the completion side. -/
theorem tside_step (c : AxrCfg) (hc : AxrCfgOk c) (cid : Nat) (hcid : cid < 2 ^ 16) (mem : Nat → Nat → UInt8) (s : Axr) (i : AxrIn)
    (R : List (Nat → UInt8)) (S : List AxrWord) (done : List AxrJob) (cu : Option (AxrJob × Nat × Nat)) (cm : Option AxrJob)
    (hT : TSide c cid mem s R S done cu) (hr : i.rst = false) (hi : i.cid = cid)
    (hV : s.cmdV = cm.isSome) (hC : ∀ j, cm = some j → CmdIs c cid j s.cmd ∧ (j.bytes = 0 → cu = none))
    (hb : s.rReady = true → i.rValid = true → ∀ j ni no, cu = some (j, ni, no) →
      (List.range (2 ^ c.tb)).map i.rData = jobBeat c (mem (jobCount done)) j ni) :
    ∃ done' cu', TSide c cid mem (axrStep c s i) (R ++ (if s.rReady && i.rValid then [i.rData] else []))
        (S ++ (if s.out.outV && i.txReady then [s.out.out] else [])) done' cu' ∧
      done' ++ cuJ cu' ++ (if axrLoad s i then none else cm).toList = done ++ cuJ cu ++ cm.toList ∧ CurMove s i done cu cm done' cu' := by
  have hvin : (axrFire s i || (s.ts == .cpl && s.out.ready)) = true → s.out.ready = true := by
    intro h
    rcases Bool.or_eq_true _ _ ▸ h with h | h
    · unfold axrFire axrGo at h; simp only [Bool.and_eq_true] at h; exact h.1.1.2
    · simp only [Bool.and_eq_true] at h; exact h.2
  have hsk := skid_step s.out (axrFire s i || (s.ts == .cpl && s.out.ready)) (axrWord c s i) i.txReady hT.skid hvin
  have hout : (axrStep c s i).out = skidStep false s.out (axrFire s i || (s.ts == .cpl && s.out.ready)) (axrWord c s i) i.txReady := by
    rw [axrStep_norst c s i hr]; rfl
  rw [← hout] at hsk
  have hws : (S ++ (if s.out.outV && i.txReady then [s.out.out] else [])).map (axrView (2 ^ c.tb)) ++
      (skidQ (axrStep c s i).out).map (axrView (2 ^ c.tb)) = (jobsWords (2 ^ c.tb) mem 0 done ++ cuWords (2 ^ c.tb) (mem (jobCount done)) cu) ++
      (if (axrFire s i || (s.ts == .cpl && s.out.ready)) then [axrView (2 ^ c.tb) (axrWord c s i)] else []) := by
    rw [← hT.ws, ← List.map_append, List.append_assoc, hsk.2]
    simp only [List.map_append, List.append_assoc]
    congr 2
    split <;> rfl
  have hrs : (R ++ (if s.rReady && i.rValid then [i.rData] else [])).map (fun d => (List.range (2 ^ c.tb)).map d) =
      (jobsBeats c mem 0 done ++ cuBeats c (mem (jobCount done)) cu) ++
      (if s.rReady && i.rValid then [(List.range (2 ^ c.tb)).map i.rData] else []) := by
    rw [List.map_append, hT.rs]
    congr 1
    split <;> rfl
  have hrdy := axrR_next c s i hr
  have hC' : ∀ j, cm = some j → CmdIs c cid j s.cmd ∧ (j.bytes = 0 → s.ts = .idle) := by
    intro j hj
    obtain ⟨h1, h2⟩ := hC j hj
    refine ⟨h1, fun h0 => ?_⟩
    have := hT.cur; rw [h2 h0] at this; exact this
  have hload : ∀ mem', axrLoad s i = true → CurIs c cid mem' (axrStep c s i) (cm.map fun j => (j, 0, 0)) :=
    fun mem' hl => cur_load c hc cid mem' s i hr cm hl hV hC'
  have hcub : ∀ mem', cuBeats c mem' (cm.map fun j => (j, 0, 0)) = [] := by intro m; cases cm <;> rfl
  have hcuw : ∀ mem', cuWords (2 ^ c.tb) mem' (cm.map fun j => (j, 0, 0)) = [] := by intro m; cases cm <;> rfl
  have hcuj : cuJ (cm.map fun j => (j, 0, 0)) = cm.toList := by cases cm <;> rfl
  have hcur := hT.cur
  match cu, hcur with
  | none, hcur =>
    have hts : s.ts = .idle := hcur
    have hl : axrLoad s i = true := by unfold axrLoad; rw [hts]; rfl
    have hnr : (s.rReady && i.rValid) = false := by
      cases h : s.rReady with
      | false => rfl
      | true => have := (hT.rdy h).2.2; rw [hts] at this; simp at this
    have hnv : (axrFire s i || (s.ts == .cpl && s.out.ready)) = false := by
      unfold axrFire axrGo; rw [hts]; rfl
    rw [hnv] at hws
    rw [hnr] at hrs
    refine ⟨done, cm.map fun j => (j, 0, 0), ⟨hsk.1, hrdy, hload _ hl, ?_, ?_⟩, ?_, ⟨fun _ => ⟨by simp [cuJ], rfl⟩, fun h => by rw [hl] at h; cases h⟩⟩
    · rw [hnr, hrs, hcub]; simp [cuBeats]
    · rw [hws, hcuw]; simp [cuWords]
    · rw [if_pos hl, hcuj]; simp [cuJ]
  | some (j, ni, no), Or.inr ⟨hj, h1, h2, hu⟩ =>
    subst h1; subst h2
    have hts := hu.ts
    have hnr : (s.rReady && i.rValid) = false := by
      cases h : s.rReady with
      | false => rfl
      | true => have := (hT.rdy h).2.2; rw [hts] at this; simp at this
    have hfire : axrFire s i = false := by unfold axrFire axrGo; rw [hts]; rfl
    rw [hnr] at hrs
    have hvv : (axrFire s i || (s.ts == .cpl && s.out.ready)) = s.out.ready := by rw [hfire, hts]; rfl
    rw [hvv] at hws
    by_cases hrdyo : s.out.ready = true
    · have hl : axrLoad s i = true := by unfold axrLoad axrEnd; rw [hts, hrdyo]; simp
      refine ⟨done ++ [j], cm.map fun j => (j, 0, 0), ⟨hsk.1, hrdy, hload _ hl, ?_, ?_⟩, ?_, ⟨fun _ => ⟨rfl, rfl⟩, fun h => by rw [hl] at h; cases h⟩⟩
      · rw [hnr, hrs, hcub, jobsBeats_one]; simp [cuBeats, jobBeats, hj]
      · rw [hws, hcuw, if_pos hrdyo, ur_view c cid hcid (mem (jobCount done)) s i j hu hj hi, jobsWords_one]; simp [cuWords]
      · rw [if_pos hl, hcuj]; simp [cuJ]
    · have hl : axrLoad s i = false := by unfold axrLoad axrEnd; rw [hts, hfire]; simpa using hrdyo
      have hl' : ¬ axrLoad s i = true := by rw [hl]; decide
      have hcu' : CurUr cid (axrStep c s i) j := by
        rw [axrStep_norst c s i hr]
        have e1 : (axrNext c s i false).status = s.status := by show (if _ then _ else _) = _; rw [if_neg hl']
        have e2 : (axrNext c s i false).rid = s.rid := by show (if _ then _ else _) = _; rw [if_neg hl']
        have e3 : (axrNext c s i false).tag = s.tag := by show (if _ then _ else _) = _; rw [if_neg hl']
        have e4 : (axrNext c s i false).tc = s.tc := by show (if _ then _ else _) = _; rw [if_neg hl']
        have e5 : (axrNext c s i false).attr = s.attr := by show (if _ then _ else _) = _; rw [if_neg hl']
        have e6 : (axrNext c s i false).dws = s.dws := by show (if _ then _ else if _ then _ else _) = _; rw [if_neg hl', hfire]; rfl
        have e7 : (axrNext c s i false).len = s.len := by show (if _ then _ else _) = _; rw [if_neg hl']
        refine ⟨by rw [e1, e2, e3, e4, e5]; exact hu.rng, by rw [e1]; exact hu.st1, ?_, by rw [e1, e2, e3, e4, e5, e6, e7]; exact hu.hdr⟩
        show axrTsNext s i = _
        unfold axrTsNext; rw [hts]; simp [hrdyo]
      rw [if_neg hrdyo] at hws
      refine ⟨done, some (j, 0, 0), ⟨hsk.1, hrdy, Or.inr ⟨hj, rfl, rfl, hcu'⟩, ?_, ?_⟩, ?_,
        ⟨fun h => absurd h hl', fun _ => ⟨rfl, fun j' a b hx => ?_⟩⟩⟩
      · rw [hnr, hrs]; simp
      · rw [hws]; simp
      · rw [if_neg hl']
      · cases hx
        exact ⟨0, 0, rfl, Nat.le_refl _, fun hg => by unfold axrGo at hg; rw [hts] at hg; simp at hg⟩
  | some (j, ni, no), Or.inl ⟨hj, hd⟩ =>
    have hb := fun h1 h2 => hb h1 h2 j ni no rfl
    obtain ⟨n1, n2, n3⟩ := jobN_rel c hc j hd.ok
    have hts : s.ts = .header ∨ s.ts = .transfer := by rw [hd.ts]; split <;> simp
    have hvv : (axrFire s i || (s.ts == .cpl && s.out.ready)) = axrFire s i := by
      rcases hts with e | e <;> rw [e] <;> simp
    rw [hvv] at hws
    have hgoR : (s.rReady && i.rValid) = true → axrGo s i = true ∧ ni < jobNb c j := by
      intro h
      have h' : s.rReady = true ∧ i.rValid = true := by simpa using h
      obtain ⟨g1, g2, g3⟩ := hT.rdy h'.1
      refine ⟨?_, ?_⟩
      · unfold axrGo
        rw [g1, h]; rcases hts with e | e <;> rw [e] <;> rfl
      · have := hd.inA; rw [g2] at this; exact of_decide_eq_true this.symm
    have hjb : jobBeats c (mem (jobCount done)) j = (List.range (jobNb c j)).map (jobBeat c (mem (jobCount done)) j) := by
      unfold jobBeats; rw [if_neg hj]
    by_cases hg : axrGo s i = true
    · have hbt := axrGo_beat c cid _ s i j ni no hd hg
      -- the transfers taken after this edge
      have hrs2 : (R ++ (if s.rReady && i.rValid then [i.rData] else [])).map (fun d => (List.range (2 ^ c.tb)).map d) =
          jobsBeats c mem 0 done ++ (jobBeats c (mem (jobCount done)) j).take (if ni < jobNb c j then ni + 1 else ni) := by
        rw [hrs]
        simp only [cuBeats]
        by_cases hlt : ni < jobNb c j
        · rw [(hbt hlt).1, (hbt hlt).2, if_pos hlt, hjb, take_succ_range _ _ _ hlt]
          simp only [Bool.and_self, if_true]
          rw [hb (hbt hlt).1 (hbt hlt).2, List.append_assoc]
        · have : ¬ (s.rReady && i.rValid) = true := fun h => hlt (hgoR h).2
          rw [if_neg this, if_neg hlt, List.append_nil]
      by_cases hf : axrFire s i = true
      · rw [if_pos hf, cur_view c hc cid hcid _ s i j ni no hd hi hf hb] at hws
        have hws2 : (S ++ (if s.out.outV && i.txReady then [s.out.out] else [])).map (axrView (2 ^ c.tb)) ++
            (skidQ (axrStep c s i).out).map (axrView (2 ^ c.tb)) =
            jobsWords (2 ^ c.tb) mem 0 done ++ (jobWords (2 ^ c.tb) (mem (jobCount done)) j).take (no + 1) := by
          rw [hws, jobWords_eq c _ j hj, take_succ_range _ _ _ hd.lt]
          simp only [cuWords, jobWords_eq c _ j hj, List.append_assoc]
        by_cases hlast : s.lastC = true
        · have hl : axrLoad s i = true := by unfold axrLoad axrEnd; rw [hf, hlast]; simp
          have hnw : no + 1 = jobNw c j := by have := hd.lastC; rw [hlast] at this; exact of_decide_eq_true this.symm
          have hbub : s.bubble = false := by
            cases hb : s.bubble with
            | false => rfl
            | true =>
              obtain ⟨h0, _⟩ := hd.bub hb
              have ht := hd.ts
              rw [if_pos h0] at ht
              simp [axrFire, hb, ht] at hf
          have hni := hd.hni
          rw [hbub] at hni
          simp only [Bool.false_eq_true, if_false] at hni
          have hfull : (if ni < jobNb c j then ni + 1 else ni) = jobNb c j := by
            generalize (if jobO c j = 0 then 0 else 1) = e at *
            split <;> omega
          refine ⟨done ++ [j], cm.map fun j => (j, 0, 0), ⟨hsk.1, hrdy, hload _ hl, ?_, ?_⟩, ?_, ⟨fun _ => ⟨rfl, rfl⟩, fun h => by rw [hl] at h; cases h⟩⟩
          · rw [hrs2, hfull, hcub, jobsBeats_one, hjb, List.take_of_length_le (by simp)]; simp
          · rw [hws2, hcuw, jobsWords_one, hnw, jobWords_eq c _ j hj, List.take_of_length_le (by simp)]; simp
          · rw [if_pos hl, hcuj]; simp [cuJ]
        · have hlast : s.lastC = false := by simpa using hlast
          have hl' : ¬ axrLoad s i = true := by
            unfold axrLoad axrEnd; rw [hlast]; rcases hts with e | e <;> rw [e] <;> simp
          refine ⟨done, some (j, (if ni < jobNb c j then ni + 1 else ni), no + 1),
            ⟨hsk.1, hrdy, Or.inl ⟨hj, fire_data c hc cid _ s i j ni no hr hd hf hlast hb⟩, hrs2, hws2⟩, ?_,
            ⟨fun h => absurd h hl', fun _ => ⟨rfl, fun j' a b hx => ?_⟩⟩⟩
          · rw [if_neg hl']; rfl
          · cases hx
            exact ⟨_, _, rfl, by split <;> omega, fun _ => by split <;> omega⟩
      · have hf0 : axrFire s i = false := by simpa using hf
        obtain ⟨h1, h2, h3, h4, h5⟩ := fill_data c hc cid _ s i j ni no hr hd hg hf0 hb
        rw [if_neg hf, List.append_nil] at hws
        have hl' : ¬ axrLoad s i = true := by
          unfold axrLoad axrEnd; rw [hf0]; rcases hts with e | e <;> rw [e] <;> simp
        subst h1; subst h2
        rw [if_pos (show 0 < jobNb c j by omega)] at hrs2
        refine ⟨done, some (j, 1, 0), ⟨hsk.1, hrdy, Or.inl ⟨hj, h5⟩, hrs2, hws⟩, ?_,
          ⟨fun h => absurd h hl', fun _ => ⟨rfl, fun j' a b hx => ?_⟩⟩⟩
        · rw [if_neg hl']; rfl
        · cases hx
          exact ⟨_, _, rfl, by omega, fun _ => by omega⟩
    · have hg0 : axrGo s i = false := by simpa using hg
      have hf0 : axrFire s i = false := by unfold axrFire; rw [hg0]; rfl
      have hnr : ¬ (s.rReady && i.rValid) = true := fun h => hg (hgoR h).1
      rw [if_neg hnr, List.append_nil] at hrs
      rw [hf0] at hws
      have hl' : ¬ axrLoad s i = true := by
        unfold axrLoad axrEnd; rw [hf0]; rcases hts with e | e <;> rw [e] <;> simp
      refine ⟨done, some (j, ni, no), ⟨hsk.1, hrdy, Or.inl ⟨hj, stay_data c cid _ s i j ni no hr hd hg0⟩, ?_, ?_⟩, ?_,
        ⟨fun h => absurd h hl', fun _ => ⟨rfl, fun j' a b hx => ?_⟩⟩⟩
      · rw [if_neg hnr, List.append_nil, hrs, if_neg hnr, List.append_nil]
      · rw [hws]; simp
      · rw [if_neg hl']
      · cases hx
        exact ⟨_, _, rfl, Nat.le_refl _, fun h => absurd h hg⟩

end Verif.Proofs
