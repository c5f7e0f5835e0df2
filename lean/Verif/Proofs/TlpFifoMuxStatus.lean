import Verif.Proofs.TlpFifoMux
import Verif.Proofs.Counters
/-! Lemmas on the TLP multiplexer with FIFOs: the status outputs. -/
namespace Verif.Proofs
open Verif Verif.Model Verif.Spec

/-- What the status outputs show. -/
def txmSeqOut (c : TxmCfg) (s : Txm) : List (Nat × Nat) := ((List.range c.mux.ports).filter s.seqV).map fun p => (p, s.seq)

/-- The report that is on its way. -/
def txmSeqNext (s : Txm) : List (Nat × Nat) := if s.selSeqV s.selPort then [(s.selPort, (txmSeg s).seq)] else []

theorem txm_seq_step {c : TxmCfg} (h0 : 0 < c.mux.ports) (hc : TffOk c.fifo) {s : Txm} {t : List (Nat × TlpSeg)}
    {A : Nat → List TlpSeg} {T : List TlpSeg} (h : TxmInv c s t A T) (i : TxmIn) (hr : i.rst = false) :
    txmSeqOut c (txmStep c s i) = txmSeqNext s ∧
    (tmxStarts true (t ++ txmNew c s i)).map (fun x => (x.1, x.2.seq)) =
      (tmxStarts true t).map (fun x => (x.1, x.2.seq)) ++ txmSeqNext (txmStep c s i) := by
  have eSel : (txmStep c s i).sel = txmCommit c s i := by show (!i.rst && _) = _; rw [hr]; rfl
  have eSelP : (txmStep c s i).selPort = (txmArb c s i).1 := rfl
  have eSeq : ∀ p, (txmStep c s i).selSeqV p = (txmCommit c s i && !s.frame && decide (p = (txmArb c s i).1)) := by
    intro p; show (!i.rst && _) = _; rw [hr]; rfl
  have eV : (txmStep c s i).seqV = s.selSeqV := by funext p; show (!i.rst && s.selSeqV p) = _; rw [hr]; rfl
  have hI := txmInv_step h0 hc h i hr
  constructor
  · unfold txmSeqOut txmSeqNext
    rw [eV, show (txmStep c s i).seq = (txmSeg s).seq from rfl]
    cases hv : s.selSeqV s.selPort with
    | false =>
      have : (List.range c.mux.ports).filter s.selSeqV = [] := by
        rw [List.filter_eq_nil_iff]
        intro p _ hp
        have := (h.selSeqV p hp).2
        rw [this, hv] at hp; cases hp
      rw [this]; simp
    | true =>
      have hlt := h.selPort (h.selSeqV _ hv).1
      have : s.selSeqV = fun p => p == s.selPort := by
        funext p
        cases hp : s.selSeqV p with
        | true => simp [(h.selSeqV p hp).2]
        | false =>
          by_cases e : p = s.selPort
          · rw [e, hv] at hp; cases hp
          · simp [e]
      rw [this, tmx_filter_range, if_pos hlt]; simp
  · rw [tmxStarts_append, List.map_append]
    congr 1
    have hfr := h.frame
    have hlast := hI.selLast
    unfold txmSeqNext
    rw [eSelP, eSeq]
    cases hgo : txmCommit c s i with
    | false => simp [txmNew, hgo, tmxStarts]
    | true =>
      rw [eSel, hgo] at hlast
      have hl := hlast rfl
      rw [txmNew, hgo] at hl
      simp only [if_true, List.getLast?_append, List.getLast?_singleton, Option.some_or, Option.some.injEq, Prod.mk.injEq] at hl
      rw [txmNew, hgo, ← hl.2]
      cases he : tmxEnd true t <;> rw [he] at hfr <;> simp [tmxStarts, hfr]

theorem txmReported_eq (c : TxmCfg) (s : Txm) (i : TxmIn) (is : List TxmIn) :
    txmReported c s (i :: is) = txmSeqOut c s ++ txmReported c (txmStep c s i) is := rfl

theorem txm_report_run {c : TxmCfg} (h0 : 0 < c.mux.ports) (hc : TffOk c.fifo) (is : List TxmIn) {s : Txm}
    {t : List (Nat × TlpSeg)} {A : Nat → List TlpSeg} {T : List TlpSeg} (h : TxmInv c s t A T) (hi : ∀ i ∈ is, i.rst = false)
    (rep : List (Nat × Nat))
    (hrep : rep ++ txmSeqOut c s ++ txmSeqNext s = (tmxStarts true t).map fun x => (x.1, x.2.seq)) :
    rep ++ txmReported c s is ++ txmSeqNext (txmRun c s is) =
      (tmxStarts true (t ++ txmSelected c s is)).map fun x => (x.1, x.2.seq) := by
  induction is generalizing s t A T rep with
  | nil => simpa [txmReported, txmRun, txmSelected, txmSeqOut] using hrep
  | cons i is ih =>
    have hs := txm_seq_step h0 hc h i (hi i (by simp))
    have h1 := ih (txmInv_step h0 hc h i (hi i (by simp))) (fun x hx => hi x (by simp [hx])) (rep ++ txmSeqOut c s)
      (by rw [hs.1, hs.2, ← hrep])
    simpa [txmReported_eq, txmRun, txmSelected, List.append_assoc] using h1

/-! ### Credit counts -/

/-- The credits counted for a selected segment. -/
def txmCreditsOf (l : List TlpSeg) : List FcCount := (l.filter (·.sop)).map fun x => tlpCredits x.hdr

theorem fcStep_one (hdr : Nat) (v sop : Bool) (h : v = true → sop = true → TlpHdrOk hdr) :
    fcStep 1 { rst := false, hdr := hdr, valid := v.toNat, sop := sop.toNat, ready := true } =
      if v && sop then tlpCredits hdr else {} := by
  cases v with
  | false => cases sop <;> simp [fcStep, fcSeg, List.range_succ]
  | true =>
    cases sop with
    | false => simp [fcStep, fcSeg, List.range_succ]
    | true =>
      obtain ⟨hlt, hdef, hlen⟩ := h rfl rfl
      generalize hi : ({ rst := false, hdr := hdr, valid := true.toNat, sop := true.toNat, ready := true } : FcIn) = i
      have e0 : segHdr i 0 = hdr := by
        rw [← hi]; unfold segHdr; rw [Nat.zero_mul, Nat.pow_zero, Nat.div_one]; exact Nat.mod_eq_of_lt hlt
      have est : tlpStarts i 0 = true := by rw [← hi]; simp [tlpStarts]
      have hall : ∀ seg < 1, tlpStarts i seg = true → DefinedTlp (segHdr i seg / 2 ^ 120) ∧ announced (segHdr i seg) ≤ 512 := by
        intro seg hs _
        have : seg = 0 := by omega
        subst this
        rw [e0]; exact ⟨hdef, hlen⟩
      have hr : i.rst = false := by rw [← hi]
      have hH : ∀ cl, headerTotal 1 i cl = if fcClass (hdr / 2 ^ 120) = cl then 1 else 0 := by
        intro cl
        unfold headerTotal
        rw [show List.range 1 = [0] from rfl, List.filter_cons, est, e0]
        by_cases e : fcClass (hdr / 2 ^ 120) = cl
        · rw [decide_eq_true e, if_pos e]; rfl
        · rw [decide_eq_false e, if_neg e]; rfl
      have hD : ∀ cl, dataTotal 1 i cl = if fcClass (hdr / 2 ^ 120) = cl then dataCredits hdr else 0 := by
        intro cl
        unfold dataTotal
        rw [show List.range 1 = [0] from rfl, List.filter_cons, est, e0]
        by_cases e : fcClass (hdr / 2 ^ 120) = cl
        · rw [decide_eq_true e, if_pos e]
          simp only [Bool.true_and, if_true, List.filter_nil, List.map_cons, List.map_nil, e0, List.sum_cons, List.sum_nil,
            Nat.add_zero]
        · rw [decide_eq_false e, if_neg e]; rfl
      have hp := fcStep_eq 1 i .p hr hall
      have hn := fcStep_eq 1 i .np hr hall
      have hc := fcStep_eq 1 i .cpl hr hall
      have hdc : dataCredits hdr ≤ 128 := by unfold dataCredits; omega
      generalize fcStep 1 i = s at *
      obtain ⟨a, b, c, d, e, f⟩ := s
      simp only [fcH, fcD, hH, hD] at hp hn hc
      rw [hp.1, hp.2, hn.1, hn.2, hc.1, hc.2]
      simp only [Bool.and_self, if_true]
      unfold tlpCredits
      generalize dataCredits hdr = dc at *
      have hm : dc % 512 = dc := Nat.mod_eq_of_lt (by omega)
      cases fcClass (hdr / 2 ^ 120) <;> simp [hm]

theorem tlpCredits_ne (hdr : Nat) : tlpCredits hdr ≠ {} := by
  unfold tlpCredits; cases fcClass (hdr / 2 ^ 120) <;> simp

/-- The count that is on its way. -/
def txmFcNext (s : Txm) : List FcCount := txmCreditsOf (if s.sel then [txmSeg s] else [])

/-- What the count outputs show. -/
def txmFcOut (s : Txm) : List FcCount := if s.fc = {} then [] else [s.fc]

theorem txm_fc_step {c : TxmCfg} (h0 : 0 < c.mux.ports) (hc : TffOk c.fifo) {s : Txm} {t : List (Nat × TlpSeg)}
    {A : Nat → List TlpSeg} {T : List TlpSeg} (h : TxmInv c s t A T) (i : TxmIn) (hr : i.rst = false)
    (hok : ∀ x ∈ t, x.2.sop = true → TlpHdrOk x.2.hdr) :
    txmFcOut (txmStep c s i) = txmFcNext s ∧
    txmCreditsOf ((t ++ txmNew c s i).map (·.2)) = txmCreditsOf (t.map (·.2)) ++ txmFcNext (txmStep c s i) := by
  have eSel : (txmStep c s i).sel = txmCommit c s i := by show (!i.rst && _) = _; rw [hr]; rfl
  have hI := txmInv_step h0 hc h i hr
  constructor
  · have e : (txmStep c s i).fc = if s.sel && (txmSeg s).sop then tlpCredits (txmSeg s).hdr else {} := by
      show fcStep 1 (txmFcIn s i) = _
      unfold txmFcIn
      rw [hr, txmSegV_eq h]
      refine fcStep_one _ _ _ fun h1 h2 => ?_
      have := List.mem_of_getLast? (h.selLast h1)
      exact hok _ this h2
    unfold txmFcOut txmFcNext txmCreditsOf
    rw [e]
    cases s.sel with
    | false => rfl
    | true =>
      cases hs : (txmSeg s).sop with
      | false => simp [hs]
      | true => simp [hs, tlpCredits_ne]
  · unfold txmFcNext txmCreditsOf
    rw [List.map_append, List.filter_append, List.map_append]
    congr 1
    rw [eSel]
    have hlast := hI.selLast
    cases hgo : txmCommit c s i with
    | false => simp [txmNew, hgo]
    | true =>
      rw [eSel, hgo] at hlast
      have hl := hlast rfl
      rw [txmNew, hgo] at hl
      simp only [if_true, List.getLast?_append, List.getLast?_singleton, Option.some_or, Option.some.injEq, Prod.mk.injEq] at hl
      rw [txmNew, hgo, ← hl.2]
      rfl

theorem txmCounts_eq (c : TxmCfg) (s : Txm) (i : TxmIn) (is : List TxmIn) :
    txmCounts c s (i :: is) = txmFcOut s ++ txmCounts c (txmStep c s i) is := rfl

theorem txm_mem {c : TxmCfg} {s : Txm} {t : List (Nat × TlpSeg)} {A : Nat → List TlpSeg} {T : List TlpSeg}
    (h : TxmInv c s t A T) (x : Nat × TlpSeg) (hx : x ∈ t) : x.2 ∈ A x.1 := by
  obtain ⟨tkD, RC, R, hf⟩ := h.fifo x.1 (h.ports x hx)
  have h1 : x.2 ∈ ofPort x.1 t := by
    unfold ofPort
    exact List.mem_map.mpr ⟨x, List.mem_filter.mpr ⟨hx, by simp⟩, rfl⟩
  have h2 : x.2 ∈ (A x.1).take RC := by
    rw [← hf.ctrl.front, List.append_assoc]; exact List.mem_append_left _ h1
  exact List.mem_of_mem_take h2

theorem txm_count_run {c : TxmCfg} (h0 : 0 < c.mux.ports) (hc : TffOk c.fifo) (is : List TxmIn) {s : Txm}
    {t : List (Nat × TlpSeg)} {A : Nat → List TlpSeg} {T : List TlpSeg} (h : TxmInv c s t A T) (hi : ∀ i ∈ is, i.rst = false)
    (hA : ∀ p < c.mux.ports, ∀ x ∈ A p, x.sop = true → TlpHdrOk x.hdr)
    (hok : ∀ i ∈ is, ∀ p < c.mux.ports, i.valid p = true → (i.seg p).sop = true → TlpHdrOk (i.seg p).hdr)
    (cnt : List FcCount) (hcnt : cnt ++ txmFcOut s ++ txmFcNext s = txmCreditsOf (t.map (·.2))) :
    cnt ++ txmCounts c s is ++ txmFcNext (txmRun c s is) = txmCreditsOf ((t ++ txmSelected c s is).map (·.2)) := by
  induction is generalizing s t A T cnt with
  | nil => simpa [txmCounts, txmRun, txmSelected, txmFcOut] using hcnt
  | cons i is ih =>
    have hs := txm_fc_step h0 hc h i (hi i (by simp)) fun x hx => hA x.1 (h.ports x hx) _ (txm_mem h x hx)
    have h1 := ih (txmInv_step h0 hc h i (hi i (by simp))) (fun x hx => hi x (by simp [hx]))
      (by
        intro p hp x hx
        rcases List.mem_append.mp hx with hx | hx
        · exact hA p hp x hx
        · split at hx
          · rename_i hv
            simp only [List.mem_singleton] at hx
            subst hx
            simp only [Bool.and_eq_true] at hv
            exact hok i (by simp) p hp hv.2
          · cases hx)
      (fun x hx => hok x (by simp [hx])) (cnt ++ txmFcOut s)
      (by rw [hs.1, hs.2, ← hcnt])
    simpa [txmCounts_eq, txmRun, txmSelected, List.append_assoc] using h1

end Verif.Proofs
