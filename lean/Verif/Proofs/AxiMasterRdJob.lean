import Verif.Proofs.AxiMasterRd
/-! The AXI master for reads: the transfers and words of a completion, and the parts of a read. -/
namespace Verif.Proofs
open Verif Verif.Model Verif.Spec

/-- The length of a completion in DWORDs. -/
def jobN (j : AxrJob) : Nat := j.bytes / 4

/-- The offset of its data on the bus. -/
def jobO (c : AxrCfg) (j : AxrJob) : Nat := j.addr / 4 % c.dws

/-- The number of data transfers. -/
def jobNb (c : AxrCfg) (j : AxrJob) : Nat := (j.addr % 2 ^ c.tb + j.bytes + 2 ^ c.tb - 1) / 2 ^ c.tb

/-- The number of words. -/
def jobNw (c : AxrCfg) (j : AxrJob) : Nat := (j.bytes + 2 ^ c.tb - 1) / 2 ^ c.tb

/-- A completion with data. -/
structure JobOk (c : AxrCfg) (j : AxrJob) : Prop where
  b4 : j.bytes % 4 = 0
  a4 : j.addr % 4 = 0
  pos : 0 < j.bytes
  le : j.bytes ≤ 4096
  nb : jobNb c j ≤ 256

theorem job_rel (c : AxrCfg) (hc : AxrCfgOk c) (j : AxrJob) (h : JobOk c j) :
    j.bytes = 4 * jobN j ∧ j.addr % 2 ^ c.tb = 4 * jobO c j ∧ jobO c j < c.dws ∧ j.addr = j.addr / 2 ^ c.tb * 2 ^ c.tb + 4 * jobO c j ∧
    1 ≤ jobN j ∧ jobN j ≤ 1024 := by
  obtain ⟨hb, hd, _⟩ := axr_bytes c hc
  have h1 := h.b4; have h2 := h.a4; have h3 := h.pos; have h4 := h.le
  unfold jobN jobO
  have e : j.addr % 2 ^ c.tb = 4 * (j.addr / 4 % c.dws) := by
    have ea : j.addr = 4 * (j.addr / 4) := by omega
    rw [hb]; conv => lhs; rw [ea]
    rw [Nat.mul_mod_mul_left]
  refine ⟨by omega, e, Nat.mod_lt _ (by omega), ?_, by omega, by omega⟩
  rw [← e, Nat.mul_comm]; exact (Nat.div_add_mod _ _).symm

theorem jobNb_lt (c : AxrCfg) (hc : AxrCfgOk c) (j : AxrJob) (h : JobOk c j) (n : Nat) : n < jobNb c j ↔ n * c.dws < jobO c j + jobN j := by
  obtain ⟨hb, hd, _⟩ := axr_bytes c hc
  obtain ⟨h1, h2, _⟩ := job_rel c hc j h
  unfold jobNb
  rw [h2, h1, hb, ← Nat.mul_add]
  exact axw_ceil _ _ _ (by omega)

theorem jobNw_lt (c : AxrCfg) (hc : AxrCfgOk c) (j : AxrJob) (h : JobOk c j) (n : Nat) : n < jobNw c j ↔ n * c.dws < jobN j := by
  obtain ⟨hb, hd, _⟩ := axr_bytes c hc
  obtain ⟨h1, h2, _⟩ := job_rel c hc j h
  unfold jobNw
  rw [h1, hb]
  exact axw_ceil _ _ _ (by omega)

theorem jobN_rel (c : AxrCfg) (hc : AxrCfgOk c) (j : AxrJob) (h : JobOk c j) :
    1 ≤ jobNw c j ∧ jobNw c j ≤ jobNb c j ∧ jobNb c j ≤ jobNw c j + (if jobO c j = 0 then 0 else 1) := by
  obtain ⟨hb, hd, _⟩ := axr_bytes c hc
  obtain ⟨h1, h2, h3, h4, h5, h6⟩ := job_rel c hc j h
  refine ⟨?_, ?_, ?_⟩
  · have := (jobNw_lt c hc j h 0).2 (by omega); omega
  · rcases Nat.lt_or_ge (jobNb c j) (jobNw c j) with hlt | hge
    · exact absurd ((jobNb_lt c hc j h (jobNb c j)).2 (by have := (jobNw_lt c hc j h _).1 hlt; omega)) (by omega)
    · exact hge
  · rcases Nat.lt_or_ge (jobNw c j + (if jobO c j = 0 then 0 else 1)) (jobNb c j) with hlt | hge
    · exfalso
      have := (jobNb_lt c hc j h _).1 hlt
      have hn : ¬ jobNw c j < jobNw c j := by omega
      rw [jobNw_lt c hc j h] at hn
      rw [Nat.add_mul] at this
      split at this
      · omega
      · omega
    · exact hge

theorem axr_pred_div (D x : Nat) (hD : 1 ≤ D) (hx : 1 ≤ x) : (x - 1) / D = (4 * x + 4 * D - 1) / (4 * D) - 1 := by
  have h := axw_ceil D x
  have e : ∀ n, n < (x - 1) / D + 1 ↔ n < (4 * x + 4 * D - 1) / (4 * D) := by
    intro n
    rw [h n hD, Nat.lt_succ_iff, Nat.le_div_iff_mul_le (by omega)]
    omega
  have h1 := e ((x - 1) / D)
  have h2 := e ((4 * x + 4 * D - 1) / (4 * D) - 1)
  generalize (x - 1) / D = p at *
  generalize (4 * x + 4 * D - 1) / (4 * D) = q at *
  omega

/-! ### Data transfers -/

/-- Data transfer `t` of a completion. -/
def jobBeat (c : AxrCfg) (mem : Nat → UInt8) (j : AxrJob) (t : Nat) : List UInt8 :=
  (List.range (2 ^ c.tb)).map fun k => mem (j.addr / 2 ^ c.tb * 2 ^ c.tb + t * 2 ^ c.tb + k)

/-- The data transfers of a completion. -/
def jobBeats (c : AxrCfg) (mem : Nat → UInt8) (j : AxrJob) : List (List UInt8) :=
  if j.bytes = 0 then [] else (List.range (jobNb c j)).map (jobBeat c mem j)

/-- The data transfers of completions. -/
def jobsBeats (c : AxrCfg) (mem : Nat → Nat → UInt8) : Nat → List AxrJob → List (List UInt8)
  | _, [] => []
  | n, j :: js => jobBeats c (mem n) j ++ jobsBeats c mem (if j.bytes = 0 then n else n + 1) js

/-- The number of completions with data. -/
def jobCount (js : List AxrJob) : Nat := js.countP fun j => j.bytes != 0

theorem jobCount_append (xs ys : List AxrJob) : jobCount (xs ++ ys) = jobCount xs + jobCount ys := by simp [jobCount]

theorem jobsBeats_append (c : AxrCfg) (mem : Nat → Nat → UInt8) (xs ys : List AxrJob) : ∀ n,
    jobsBeats c mem n (xs ++ ys) = jobsBeats c mem n xs ++ jobsBeats c mem (n + jobCount xs) ys := by
  induction xs with
  | nil => intro n; simp [jobsBeats, jobCount]
  | cons x xs ih =>
    intro n
    simp only [List.cons_append, jobsBeats, ih, List.append_assoc, jobCount, List.countP_cons]
    congr 2
    by_cases h : x.bytes = 0 <;> simp [h, Nat.add_assoc, Nat.add_comm 1]

theorem jobsWords_append (b : Nat) (mem : Nat → Nat → UInt8) (xs ys : List AxrJob) : ∀ n,
    jobsWords b mem n (xs ++ ys) = jobsWords b mem n xs ++ jobsWords b mem (n + jobCount xs) ys := by
  induction xs with
  | nil => intro n; simp [jobsWords, jobCount]
  | cons x xs ih =>
    intro n
    simp only [List.cons_append, jobsWords, ih, List.append_assoc, jobCount, List.countP_cons]
    congr 2
    by_cases h : x.bytes = 0 <;> simp [h, Nat.add_assoc, Nat.add_comm 1]

theorem burstData_append (b : Nat) (mem : Nat → Nat → UInt8) (xs ys : List (Nat × Nat)) : ∀ n,
    burstData b mem n (xs ++ ys) = burstData b mem n xs ++ burstData b mem (n + xs.length) ys := by
  induction xs with
  | nil => intro n; simp [burstData]
  | cons x xs ih =>
    intro n
    simp only [List.cons_append, burstData, ih, List.append_assoc, List.length_cons, Nat.add_assoc, Nat.add_comm 1]

/-- The data of the bursts is what completions need. -/
theorem burstData_jobs (c : AxrCfg) (hc : AxrCfgOk c) (mem : Nat → Nat → UInt8) (js : List AxrJob)
    (hj : ∀ j ∈ js, j.bytes = 0 ∨ (JobOk c j ∧ j.first / 2 ^ c.tb = j.addr / 2 ^ c.tb)) : ∀ n,
    burstData (2 ^ c.tb) mem n (js.filterMap (jobBurst (2 ^ c.tb))) = jobsBeats c mem n js := by
  induction js with
  | nil => intro n; rfl
  | cons j js ih =>
    intro n
    have ih := ih (fun x hx => hj x (List.mem_cons_of_mem _ hx))
    by_cases h0 : j.bytes = 0
    · rw [List.filterMap_cons, show jobBurst (2 ^ c.tb) j = none by simp [jobBurst, h0]]
      simp only [jobsBeats, jobBeats, if_pos h0, List.nil_append]
      exact ih n
    · obtain ⟨hk, hf⟩ := (hj j (List.mem_cons_self ..)).resolve_left h0
      rw [List.filterMap_cons, show jobBurst (2 ^ c.tb) j = some (j.first, jobNb c j - 1) by simp [jobBurst, h0, jobNb]]
      simp only [jobsBeats, jobBeats, if_neg h0, burstData, ih, hf]
      have := jobN_rel c hc j hk
      rw [show jobNb c j - 1 + 1 = jobNb c j by omega]
      rfl

end Verif.Proofs
