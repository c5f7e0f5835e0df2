import Verif.Proofs.PtileIfRx
/-! The receive side of the P-Tile adapter with a source that stops too late: a small machine that follows the flags. -/
namespace Verif.Proofs
open Verif Verif.Model Verif.Spec Verif.Props

/-- The flags of the adapter when only requests of one row each arrive and the receivers are not ready. -/
structure PtLoss where
  fv : Bool := false
  dv : Bool := false
  n : Nat := 0
  r : Nat := 0
  rv : Bool := false
  ov : Bool := false
  full : Bool := false
  water : Bool := false
  deriving DecidableEq

def PtLoss.take (a : PtLoss) : Bool := !a.dv || !a.full

def PtLoss.step (f : TffCfg) (a : PtLoss) (v : Bool) : PtLoss :=
  let M := 2 ^ (f.addrW + 1)
  let cnt := (a.n + M - a.r) % M
  let load := !a.rv || !a.ov
  { fv := if a.take then v else a.fv
    dv := (a.dv && a.full) || (a.take && a.fv)
    n := if !a.full && a.dv then (a.n + 1) % M else a.n
    r := if load && a.n != a.r then (a.r + 1) % M else a.r
    rv := if load then a.n != a.r else a.rv
    ov := if !a.ov then a.rv else a.ov
    full := decide (f.words - 2 ≤ cnt)
    water := decide (f.mark ≤ cnt) }

def PtLoss.run (f : TffCfg) : PtLoss → List Bool → PtLoss
  | a, [] => a
  | a, v :: vs => PtLoss.run f (a.step f v) vs

/-- A cycle in which a request of one row is sent, or nothing; no receiver is ready. -/
def ptLossIn (v : Bool) : PtRxIn :=
  { valid := fun _ => v, sop := fun _ => true, eop := fun _ => true, data := fun _ => 0, empty := fun _ => 0, hdr := fun _ => 0
    bar := fun _ => 0, func := 0, ready := fun _ => false }

theorem ptLossIn_rst (v : Bool) : (ptLossIn v).rst = false := rfl
theorem ptLossIn_valid (v : Bool) : (ptLossIn v).valid = fun _ => v := rfl
theorem ptLossIn_sop (v : Bool) : (ptLossIn v).sop = fun _ => true := rfl
theorem ptLossIn_eop (v : Bool) : (ptLossIn v).eop = fun _ => true := rfl
theorem ptLossIn_hdr (v : Bool) : (ptLossIn v).hdr = fun _ => 0 := rfl
theorem ptLossIn_ready (v : Bool) : (ptLossIn v).ready = fun _ => false := rfl

structure PtLossSim (s : PtRx Tff) (a : PtLoss) : Prop where
  fv : s.valid 0 = a.fv
  fw : a.fv = true → (s.word 0).sop = true ∧ (s.word 0).eop = true ∧ (s.word 0).hdr = 0
  dv : s.dx.dm.valid 0 = a.dv
  dv1 : s.dx.dm.valid 1 = false
  dw : a.dv = true → (s.dx.dm.word 0).eop = true
  wr : (s.dx.fifo 0).wr = a.n
  wrCur : (s.dx.fifo 0).wrCur = a.n
  rd : (s.dx.fifo 0).rd = a.r
  rv : (s.dx.fifo 0).rdV = a.rv
  ov : (s.dx.fifo 0).outV = a.ov
  full : (s.dx.fifo 0).full = a.full
  water : (s.dx.fifo 0).water = a.water
  full1 : (s.dx.fifo 1).full = false
  water1 : (s.dx.fifo 1).water = false
  wr1 : (s.dx.fifo 1).wr = 0
  wrCur1 : (s.dx.fifo 1).wrCur = 0
  rd1 : (s.dx.fifo 1).rd = 0

theorem ptLoss_take {c : PtRxCfg} (hc : c.segs = 1) {f : TffCfg} {s : PtRx Tff} {a : PtLoss} (h : PtLossSim s a) (i : PtRxIn) :
    ptRxTake c (tffDev f) s i = a.take := by
  simp only [ptRxTake, tdfReady, tdmReady, tdfDmIn, tffDev, tffReady, PtRxCfg.tdm, hc, ptRxDxIn, PtLoss.take]
  rw [show List.range (2 * 1) = [0, 1] from rfl]
  simp [h.dv, h.dv1, h.full, h.full1]

theorem ptLoss_ready {s : PtRx Tff} {a : PtLoss} (h : PtLossSim s a) : ptRxReady (fun x : Tff => x.water) s = !a.water := by
  simp [ptRxReady, h.water, h.water1]

theorem ptLoss_step {c : PtRxCfg} (hc : c.segs = 1) {f : TffCfg} (h2 : 2 < f.words) (hm : 0 < f.mark) {s : PtRx Tff} {a : PtLoss}
    (h : PtLossSim s a) (v : Bool) : PtLossSim (ptRxStep c (tffDev f) s (ptLossIn v)) (a.step f v) := by
  have ht := ptLoss_take hc (f := f) h (ptLossIn v)
  have ht' : tdmReady { ports := 2, segs := 1 } s.dx.dm (tdfDmIn (tffDev f) s.dx (ptRxDxIn c s (ptLossIn v))) = a.take := by
    have : c.tdm = { ports := 2, segs := 1 } := by simp [PtRxCfg.tdm, hc]
    rw [← this]; exact ht
  have hcnt : tffCount f (s.dx.fifo 0) = (a.n + 2 ^ (f.addrW + 1) - a.r) % 2 ^ (f.addrW + 1) := by
    simp [tffCount, h.wrCur, h.rd]
  have hcnt1 : tffCount f (s.dx.fifo 1) = 0 := by simp [tffCount, h.wrCur1, h.rd1]
  have hr0 : tffReady (s.dx.fifo 0) = !a.full := by simp [tffReady, h.full]
  have hr1 : tffReady (s.dx.fifo 1) = true := by simp [tffReady, h.full1]
  have hval : ∀ k, (ptRxStep c (tffDev f) s (ptLossIn v)).dx.dm.valid k =
      (tdmVar1 { ports := 2, segs := 1 } s.dx.dm (tdfDmIn (tffDev f) s.dx (ptRxDxIn c s (ptLossIn v)))).valid k := by
    intro k
    simp [ptRxStep, tdfStep, tdmStep, PtRxCfg.tdm, hc, tdfDmIn, ptRxDxIn, ptLossIn_rst, ptLossIn_valid, ptLossIn_sop, ptLossIn_eop, ptLossIn_hdr, ptLossIn_ready]
  have hsel : ∀ k, ptRxSelect (s.word (k % 1)).hdr (k / 1) = ptRxSelect (s.word 0).hdr k := by
    intro k; rw [Nat.mod_one, Nat.div_one]
  have hcpl : a.fv = true → decide (((s.word 0).hdr >>> 121) % 32 = 5) = false := by
    intro hf; rw [(h.fw hf).2.2]; decide
  refine ⟨?_, ?_, ?_, ?_, ?_, ?_, ?_, ?_, ?_, ?_, ?_, ?_, ?_, ?_, ?_, ?_, ?_⟩
  · simp [ptRxStep, ht, PtLoss.step, ptLossIn_rst, ptLossIn_valid, ptLossIn_sop, ptLossIn_eop, ptLossIn_hdr, ptLossIn_ready, h.fv]
  · intro hfv
    simp only [PtLoss.step] at hfv
    cases htk : a.take with
    | true =>
      rw [htk, if_pos rfl] at hfv
      subst hfv
      simp [ptRxStep, ht, htk, ptRxSeg, ptLossIn_rst, ptLossIn_valid, ptLossIn_sop, ptLossIn_eop, ptLossIn_hdr, ptLossIn_ready]
    | false =>
      rw [htk] at hfv
      simp only [Bool.false_eq_true, if_false] at hfv
      simpa [ptRxStep, ht, htk] using h.fw hfv
  · rw [hval]
    simp only [tdmVar1, ht', PtLoss.step]
    cases htk : a.take with
    | false => 
      simp [tdmVar0, tdfDmIn, tffDev, hr0, hr1, h.dv, List.range_succ]
    | true =>
      rw [show List.range 1 = [0] from rfl]
      cases hfv : a.fv with
      | false =>
        simp [tdmSeg, tdfDmIn, ptRxDxIn, h.fv, hfv, tdmVar0, tffDev, hr0, hr1, h.dv, List.range_succ]
      | true =>
        obtain ⟨w1, w2, w3⟩ := h.fw hfv
        simp [tdmSeg, tdmSop, tdmPick, tdfDmIn, ptRxDxIn, h.fv, hfv, w1, w2, w3, hc, hsel, ptRxSelect]
  · rw [hval]
    simp only [tdmVar1, ht']
    cases htk : a.take with
    | false => 
      simp [tdmVar0, tdfDmIn, h.dv1]
    | true =>
      rw [show List.range 1 = [0] from rfl]
      cases hfv : a.fv with
      | false => simp [tdmSeg, tdfDmIn, ptRxDxIn, h.fv, hfv, tdmVar0, h.dv1]
      | true =>
        obtain ⟨w1, w2, w3⟩ := h.fw hfv
        simp [tdmSeg, tdmSop, tdmPick, tdfDmIn, ptRxDxIn, h.fv, hfv, w1, w2, w3, hc, hsel, ptRxSelect, tdmVar0, h.dv1]
  · intro hdv
    have hw : (ptRxStep c (tffDev f) s (ptLossIn v)).dx.dm.word 0 =
        if a.take then { s.word 0 with seq := 0, err := 0 } else s.dx.dm.word 0 := by
      simp only [ptRxStep, tdfStep, tdmStep, PtRxCfg.tdm, hc, ht']
      split <;> rfl
    rw [hw]
    simp only [PtLoss.step] at hdv
    cases htk : a.take with
    | true =>
      simp only [if_true]
      rw [htk] at hdv
      cases hfv : a.fv with
      | true => exact (h.fw hfv).2.1
      | false =>
        rw [hfv] at hdv
        simp only [PtLoss.take] at htk
        cases h1 : a.dv <;> cases h2 : a.full <;> simp [h1, h2] at htk hdv
    | false =>
      rw [htk] at hdv
      simp only [Bool.false_and, Bool.or_false, Bool.and_eq_true] at hdv
      simp only [Bool.false_eq_true, if_false]
      exact h.dw hdv.1
  · simp only [ptRxStep, tdfStep, tffDev, tdfFfIn, tffStep, tffAcc, tffWrNext, ptRxDxIn, PtRxCfg.tdm, hc, hr0, PtLoss.step, h.wr, h.wrCur,
      Nat.mul_zero, Nat.zero_add, h.dv, ptLossIn_rst, ptLossIn_valid, ptLossIn_sop, ptLossIn_eop, ptLossIn_hdr, ptLossIn_ready, Bool.false_eq_true, if_false]
    cases hd : a.dv with
    | false => simp
    | true => cases hf : a.full <;> simp [h.dw hd]
  · simp [ptRxStep, tdfStep, tffDev, tdfFfIn, tffStep, tffAcc, tffWrNext, ptRxDxIn, PtRxCfg.tdm, hc, hr0, PtLoss.step, h.wrCur, h.dv, ptLossIn_rst, ptLossIn_valid, ptLossIn_sop, ptLossIn_eop, ptLossIn_hdr, ptLossIn_ready]
  · simp [ptRxStep, tdfStep, tffDev, tdfFfIn, tffStep, tffRdNext, tffRead, tffLoad, tffTake, ptRxDxIn, PtLoss.step, h.wr, h.rd, h.rv, h.ov, ptLossIn_rst, ptLossIn_valid, ptLossIn_sop, ptLossIn_eop, ptLossIn_hdr, ptLossIn_ready]
  · simp [ptRxStep, tdfStep, tffDev, tdfFfIn, tffStep, tffLoad, tffTake, ptRxDxIn, PtLoss.step, h.wr, h.rd, h.rv, h.ov, ptLossIn_rst, ptLossIn_valid, ptLossIn_sop, ptLossIn_eop, ptLossIn_hdr, ptLossIn_ready]
  · simp [ptRxStep, tdfStep, tffDev, tdfFfIn, tffStep, tffTake, ptRxDxIn, PtLoss.step, h.rv, h.ov, ptLossIn_rst, ptLossIn_valid, ptLossIn_sop, ptLossIn_eop, ptLossIn_hdr, ptLossIn_ready]
  · simp [ptRxStep, tdfStep, tffDev, tdfFfIn, tffStep, ptRxDxIn, PtLoss.step, hcnt, ptLossIn_rst, ptLossIn_valid, ptLossIn_sop, ptLossIn_eop, ptLossIn_hdr, ptLossIn_ready]
  · simp [ptRxStep, tdfStep, tffDev, tdfFfIn, tffStep, ptRxDxIn, PtLoss.step, hcnt, ptLossIn_rst, ptLossIn_valid, ptLossIn_sop, ptLossIn_eop, ptLossIn_hdr, ptLossIn_ready]
  · simp [ptRxStep, tdfStep, tffDev, tdfFfIn, tffStep, ptRxDxIn, hcnt1, ptLossIn_rst, ptLossIn_valid, ptLossIn_sop, ptLossIn_eop, ptLossIn_hdr, ptLossIn_ready]; omega
  · simp [ptRxStep, tdfStep, tffDev, tdfFfIn, tffStep, ptRxDxIn, hcnt1, ptLossIn_rst, ptLossIn_valid, ptLossIn_sop, ptLossIn_eop, ptLossIn_hdr, ptLossIn_ready]; omega
  · simp [ptRxStep, tdfStep, tffDev, tdfFfIn, tffStep, tffAcc, tffWrNext, ptRxDxIn, PtRxCfg.tdm, hc, h.wr1, h.wrCur1, h.dv1, ptLossIn_rst, ptLossIn_valid, ptLossIn_sop, ptLossIn_eop, ptLossIn_hdr, ptLossIn_ready]
  · simp [ptRxStep, tdfStep, tffDev, tdfFfIn, tffStep, tffAcc, tffWrNext, ptRxDxIn, PtRxCfg.tdm, hc, h.wrCur1, h.dv1, ptLossIn_rst, ptLossIn_valid, ptLossIn_sop, ptLossIn_eop, ptLossIn_hdr, ptLossIn_ready]
  · simp [ptRxStep, tdfStep, tffDev, tdfFfIn, tffStep, tffRdNext, tffRead, ptRxDxIn, h.wr1, h.rd1, ptLossIn_rst, ptLossIn_valid, ptLossIn_sop, ptLossIn_eop, ptLossIn_hdr, ptLossIn_ready]

theorem ptLoss_reset {c : PtRxCfg} (f : TffCfg) (s : PtRx Tff) (r : PtRxIn) (hr : r.rst = true) :
    PtLossSim (ptRxStep c (tffDev f) s r) {} := by
  refine ⟨?_, ?_, ?_, ?_, ?_, ?_, ?_, ?_, ?_, ?_, ?_, ?_, ?_, ?_, ?_, ?_, ?_⟩ <;>
    simp [ptRxStep, hr, tdfStep, tdmStep, tdfDmIn, ptRxDxIn, tffDev, tffStep, tdfFfIn]

theorem ptLoss_run {c : PtRxCfg} (hc : c.segs = 1) {f : TffCfg} (h2 : 2 < f.words) (hm : 0 < f.mark) (vs : List Bool) {s : PtRx Tff}
    {a : PtLoss} (h : PtLossSim s a) : PtLossSim (ptRxRun c (tffDev f) s (vs.map ptLossIn)) (a.run f vs) := by
  induction vs generalizing s a with
  | nil => exact h
  | cons v vs ih => exact ih (ptLoss_step hc h2 hm h v)

/-- The source sends in cycle `L` and from then on. -/
def ptLossHist (L n : Nat) : List Bool := List.replicate L false ++ List.replicate n true

/-- The flags in each cycle. -/
def PtLoss.trace (f : TffCfg) : PtLoss → List Bool → List PtLoss
  | a, [] => [a]
  | a, v :: vs => a :: PtLoss.trace f (a.step f v) vs

theorem PtLoss.trace_get (f : TffCfg) (vs : List Bool) (a : PtLoss) (k : Nat) (h : k ≤ vs.length) :
    (PtLoss.trace f a vs)[k]? = some (a.run f (vs.take k)) := by
  induction vs generalizing a k with
  | nil =>
    have : k = 0 := by simpa using h
    subst this; rfl
  | cons v vs ih => cases k with
    | zero => rfl
    | succ k =>
      rw [PtLoss.trace, List.getElem?_cons_succ, ih _ _ (by simpa using h)]
      rfl

/-- If in the small machine the watermark is not reached in the first `m + 1` cycles and the input is then blocked, a source
with ready latency `L` loses a row. -/
theorem ptLoss_lost {c : PtRxCfg} (hc : c.segs = 1) {f : TffCfg} (h2 : 2 < f.words) (hm : 0 < f.mark) (L m : Nat)
    (hw : ((PtLoss.trace f {} (ptLossHist L m)).take (m + 1)).all (fun a => !a.water) = true)
    (ht : (({} : PtLoss).run f (ptLossHist L m)).take = false) (s : PtRx Tff) (r : PtRxIn) (hr : r.rst = true) :
    PtRxObeys c (tffDev f) (fun x : Tff => x.water) L (ptRxStep c (tffDev f) s r) ((ptLossHist L m).map ptLossIn ++ [ptLossIn true]) ∧
    ptRxTake c (tffDev f) (ptRxRun c (tffDev f) (ptRxStep c (tffDev f) s r) ((ptLossHist L m).map ptLossIn)) (ptLossIn true) = false := by
  have h0 := ptLoss_reset (c := c) f s r hr
  have hlen : (ptLossHist L m).length = L + m := by simp [ptLossHist]
  constructor
  · intro k hk ⟨g, hg, hv⟩
    simp only [List.length_append, List.length_map, hlen, List.length_cons, List.length_nil] at hk
    have hLk : L ≤ k := by
      apply Classical.byContradiction
      intro hn
      rw [List.getElem_append_left (by simp [hlen]; omega), List.getElem_map, ptLossIn_valid] at hv
      simp only [ptLossHist] at hv
      rw [List.getElem_append_left (by simp; omega), List.getElem_replicate] at hv
      cases hv
    refine ⟨hLk, ?_⟩
    rw [List.take_append_of_le_length (by simp [hlen]; omega), ← List.map_take, ptLoss_ready (ptLoss_run hc h2 hm _ h0)]
    have h1 := PtLoss.trace_get f (ptLossHist L m) {} (k - L) (by omega)
    have h3 : ({} : PtLoss).run f ((ptLossHist L m).take (k - L)) ∈ (PtLoss.trace f {} (ptLossHist L m)).take (m + 1) := by
      apply List.mem_of_getElem? (i := k - L)
      rw [List.getElem?_take_of_lt (by omega)]
      exact h1
    exact List.all_eq_true.mp hw _ h3
  · rw [ptLoss_take hc (ptLoss_run hc h2 hm _ h0)]
    exact ht

theorem ptLoss_256 : ((PtLoss.trace (ptRxFifo 3) {} (ptLossHist 27 131)).take (131 + 1)).all (fun a => !a.water) = true ∧
    (({} : PtLoss).run (ptRxFifo 3) (ptLossHist 27 131)).take = false := by decide +kernel

theorem ptLoss_128 : ((PtLoss.trace (ptRxFifo 2) {} (ptLossHist 27 259)).take (259 + 1)).all (fun a => !a.water) = true ∧
    (({} : PtLoss).run (ptRxFifo 2) (ptLossHist 27 259)).take = false := by decide +kernel

end Verif.Proofs
