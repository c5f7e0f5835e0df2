import Verif.Proofs.DwrDefs
/-! Preservation of the pipeline invariant of the DMA write interface. -/
namespace Verif.Proofs
open Verif Verif.Model Verif.Spec

theorem tlpSize_facts {m a n : Nat} (h0 : 1 ≤ m) (h1 : m ≤ 1024) (hn : 1 ≤ n) :
    1 ≤ dwrTlpSize m a n ∧ dwrTlpSize m a n ≤ n ∧ a % 4 + dwrTlpSize m a n ≤ 4 * m ∧
    a % 4096 + dwrTlpSize m a n ≤ 4096 := by
  unfold dwrTlpSize
  split <;> split <;> omega

theorem reqSegs_fuel {c : DwrCfg} {m : Nat} (h0 : 1 ≤ m) (h1 : m ≤ 1024) (n k : Nat) (r : DwrReq) (hr : ReqOk m r)
    (hn : r.count ≤ n) (hk : r.count ≤ k) : reqSegs c m n r = reqSegs c m k r := by
  induction n generalizing r k with
  | zero => have := hr.pos; omega
  | succ n ih =>
    have hp := hr.pos
    have hs := tlpSize_facts (a := r.addr) h0 h1 hp
    rw [← hr.size] at hs
    cases k with
    | zero => omega
    | succ k =>
      simp only [reqSegs]
      split
      · rfl
      · rename_i hne
        rw [ih k (reqNext c m r) ⟨hr.ready, rfl, by show 1 ≤ r.count - r.tlpCount; omega⟩
          (by show r.count - r.tlpCount ≤ n; omega) (by show r.count - r.tlpCount ≤ k; omega)]

theorem reqSegs_cons {c : DwrCfg} {m : Nat} (h0 : 1 ≤ m) (h1 : m ≤ 1024) (r : DwrReq) (hr : ReqOk m r) :
    reqSegs c m r.count r = r :: if r.count = r.tlpCount then [] else reqSegs c m (reqNext c m r).count (reqNext c m r) := by
  have hp := hr.pos
  have hs := tlpSize_facts (a := r.addr) h0 h1 hp
  rw [← hr.size] at hs
  have e : reqSegs c m r.count r = reqSegs c m (r.count + 1) r := reqSegs_fuel h0 h1 _ _ r hr (by omega) (by omega)
  rw [e]
  simp only [reqSegs]
  split
  · rfl
  · rw [reqSegs_fuel h0 h1 r.count (reqNext c m r).count (reqNext c m r)
      ⟨hr.ready, rfl, by show 1 ≤ r.count - r.tlpCount; omega⟩ (by show r.count - r.tlpCount ≤ r.count; omega)
      (Nat.le_refl _)]

theorem txAt_basic (c : DwrCfg) (r : DwrReq) (n : Nat) (hn : n ≤ segCyc c r) :
    (txAt c r n).transfer = true ∧ (txAt c r n).cyc = segCyc c r - n ∧ (txAt c r n).lastC = (n == segCyc c r) ∧
    (txAt c r n).frame = (n != 0) ∧ (txAt c r n).imm = r.imm ∧ (txAt c r n).immEn = r.immEn := by
  induction n with
  | zero =>
    simp only [txAt, dwrTxLoad, dwrOpOf, segCyc]
    refine ⟨trivial, by simp, ?_, by simp, trivial, trivial⟩
    rw [Bool.eq_iff_iff]; simp only [beq_iff_eq]; omega
  | succ n ih =>
    obtain ⟨h1, h2, h3, h4, h5, h6⟩ := ih (by omega)
    refine ⟨h1, ?_, ?_, by simp [txAt, txNext], h5, h6⟩
    · show (txAt c r n).cyc - 1 = _; omega
    · show ((txAt c r n).cyc - 1 == 0) = _
      rw [h2, Bool.eq_iff_iff]; simp only [beq_iff_eq]; omega

theorem rdSeq_length (c : DwrCfg) (n : Nat) (x : DwrRd) : (rdSeq c n x).length = n + 1 := by
  induction n generalizing x with
  | zero => rfl
  | succ n ih => simp [rdSeq, ih]

section
variable {c : DwrCfg} {mem : Nat → Nat → UInt8} {m rid : Nat} {g : DwrGhost} {s : Dwr} {i : DwrIn}

theorem DwrInv.txst (h : DwrInv c mem m rid g s) (ht : dwrTxStart c s i = true) : ∃ r C', g.C = r :: C' := by
  simp only [dwrTxStart, Bool.and_eq_true, bne_iff_ne] at ht
  have := h.tbl.txs_ne.mp ht.2.1.2
  cases hC : g.C with
  | nil => simp [hC] at this
  | cons r C' => exact ⟨r, C', rfl⟩

theorem DwrInv.fin (h : DwrInv c mem m rid g s) (ht : dwrFinish c s = true) : ∃ r A', g.A = r :: A' := by
  simp only [dwrFinish, Bool.and_eq_true, bne_iff_ne] at ht
  have := h.tbl.fin_ne.mp ht.2
  cases hC : g.A with
  | nil => simp [hC] at this
  | cons r C' => exact ⟨r, C', rfl⟩

theorem DwrInv.beat (h : DwrInv c mem m rid g s) (hb : dwrBeat c s i = true) :
    ∃ r n u U', g.B = some (r, n) ∧ g.U = u :: U' ∧ n ≤ segCyc c r ∧ s.tx = txAt c r n ∧ (segReads c r)[n]? = some u ∧
      s.ramMaskV = true ∧ s.ramMask = maskOf c u ∧ ringList (c.opW + 1) s.fifo = U'.map (maskOf c) := by
  simp only [dwrBeat, Bool.and_eq_true] at hb
  have hmv := hb.1.2
  cases hB : g.B with
  | none => have := h.tx0 hB; simp [hb.1.1.1] at this
  | some x =>
    obtain ⟨r, n⟩ := x
    obtain ⟨h1, h2⟩ := h.tx1 r n hB
    have hf := h.fifo
    rw [hmv] at hf
    cases hU : g.U with
    | nil => simp [hU] at hf
    | cons u U' =>
      rw [hU] at hf
      simp only [if_true, List.cons_append, List.nil_append, List.map_cons, List.cons.injEq] at hf
      refine ⟨r, n, u, U', rfl, rfl, h2, h1, ?_, hmv, hf.1, hf.2⟩
      have hr := h.reads
      rw [hU, hB] at hr
      simp only [bReads] at hr
      have hlen : n < (segReads c r).length := by unfold segReads; rw [rdSeq_length]; omega
      rw [List.drop_eq_getElem_cons hlen] at hr
      simp only [List.cons_append, List.cons.injEq] at hr
      rw [List.getElem?_eq_getElem hlen, hr.1]

theorem DwrInv.txfin (h : DwrInv c mem m rid g s) {r : DwrReq} {n : Nat} (hB : g.B = some (r, n))
    (hb : dwrBeat c s i = true) : dwrTxFinish c s i = (n == segCyc c r) := by
  obtain ⟨h1, h2⟩ := h.tx1 r n hB
  simp only [dwrTxFinish, hb, Bool.true_and]
  rw [h1, (txAt_basic c r n h2).2.2.1]

theorem DwrInv.txst_idle (ht : dwrTxStart c s i = true) : s.tx.transfer = false ∨ dwrTxFinish c s i = true := by
  simp only [dwrTxStart, Bool.and_eq_true, Bool.or_eq_true, Bool.not_eq_true'] at ht
  exact ht.1

theorem txfin_beat (h : dwrTxFinish c s i = true) : dwrBeat c s i = true := by
  simp only [dwrTxFinish, Bool.and_eq_true] at h; exact h.1

theorem DwrInv.tbl_step (h : DwrInv c mem m rid g s) :
    TblOk c.opW (dwrNext c s i).tbl (dwrGhost c g s i).D.length ((dwrGhost c g s i).A.map (dwrOpOf c))
      ((bSeg (dwrGhost c g s i).B).map (dwrOpOf c)) ((dwrGhost c g s i).C.map (dwrOpOf c)) := by
  have ht := h.tbl.step (dwrOpStart c s i) (dwrOpOf c s.req) (dwrTxStart c s i) (dwrTxFinish c s i) (dwrFinish c s)
    (by
      intro ho
      simp only [dwrOpStart, Bool.and_eq_true] at ho
      exact h.tbl.free ho.1.1.2)
    (by intro ht; obtain ⟨r, C', e⟩ := h.txst ht; simp [e])
    (by intro ht; obtain ⟨r, n, u, U', e, _⟩ := h.beat (txfin_beat ht); simp [e, bSeg])
    (by intro ht; obtain ⟨r, C', e⟩ := h.fin ht; simp [e])
  have eD : (dwrGhost c g s i).D.length = g.D.length + (dwrFinish c s).toNat := by
    simp only [dwrGhost, List.length_append, List.length_take]
    cases hf : dwrFinish c s with
    | false => simp
    | true => obtain ⟨r, A', e⟩ := h.fin hf; simp [e]
  have eA : (dwrGhost c g s i).A.map (dwrOpOf c) = (g.A.map (dwrOpOf c)).drop (dwrFinish c s).toNat ++
      ((bSeg g.B).map (dwrOpOf c)).take (dwrTxFinish c s i).toNat := by
    simp only [dwrGhost, List.map_append, List.map_drop]
    congr 1
    cases hf : dwrTxFinish c s i with
    | false => simp
    | true => cases hB : g.B <;> simp [bSeg]
  have eC : (dwrGhost c g s i).C.map (dwrOpOf c) = (g.C.map (dwrOpOf c)).drop (dwrTxStart c s i).toNat ++
      (if dwrOpStart c s i then [dwrOpOf c s.req] else []) := by
    simp only [dwrGhost, List.map_append, List.map_drop]
    congr 1
    split <;> rfl
  have eB : (bSeg (dwrGhost c g s i).B).map (dwrOpOf c) = ((bSeg g.B).map (dwrOpOf c)).drop (dwrTxFinish c s i).toNat ++
      (g.C.map (dwrOpOf c)).take (dwrTxStart c s i).toNat := by
    simp only [dwrGhost]
    cases hts : dwrTxStart c s i with
    | true =>
      obtain ⟨r, C', e⟩ := h.txst hts
      rcases DwrInv.txst_idle hts with h1 | h1
      · have hB : g.B = none := by
          cases hB : g.B with
          | none => rfl
          | some x => have := (h.tx1 x.1 x.2 hB).1; rw [this, (txAt_basic c _ _ (h.tx1 x.1 x.2 hB).2).1] at h1; simp at h1
        simp [e, hB, bSeg]
      · rw [h1]; cases hB : g.B <;> simp [e, bSeg]
    | false =>
      cases htf : dwrTxFinish c s i with
      | true => cases hB : g.B <;> simp [bSeg]
      | false => cases hb : dwrBeat c s i <;> cases hB : g.B <;> simp [bSeg]
  rw [eD, eA, eB, eC]
  exact ht

theorem DwrInv.idle (h : DwrInv c mem m rid g s) (hB : g.B = none) :
    s.tx.transfer = false ∧ dwrBeat c s i = false ∧ dwrTxFinish c s i = false := by
  have h1 := h.tx0 hB
  have h2 : dwrBeat c s i = false := by simp [dwrBeat, h1]
  exact ⟨h1, h2, by simp [dwrTxFinish, h2]⟩

theorem DwrInv.busy (h : DwrInv c mem m rid g s) {r : DwrReq} {n : Nat} (hB : g.B = some (r, n))
    (hf : dwrTxFinish c s i = false) : s.tx.transfer = true ∧ dwrTxStart c s i = false := by
  obtain ⟨h1, h2⟩ := h.tx1 r n hB
  have h3 : s.tx.transfer = true := by rw [h1, (txAt_basic c r n h2).1]
  exact ⟨h3, by simp [dwrTxStart, h3, hf]⟩

theorem DwrInv.load (h : DwrInv c mem m rid g s) {r : DwrReq} {C' : List DwrReq} (hC : g.C = r :: C') :
    s.tbl.mem (s.tbl.txStart % 2 ^ c.opW) = dwrOpOf c r :=
  h.tbl.mem_txs (a := dwrOpOf c r) (C' := C'.map (dwrOpOf c)) (by rw [hC]; rfl)

/-- The TLP state machine and the ghost state of the TLP in transmission move together. -/
theorem DwrInv.tx_step (h : DwrInv c mem m rid g s) :
    ((dwrGhost c g s i).B = none → (dwrNext c s i).tx.transfer = false) ∧
    (∀ r n, (dwrGhost c g s i).B = some (r, n) → (dwrNext c s i).tx = txAt c r n ∧ n ≤ segCyc c r) := by
  have e1 : (dwrNext c s i).tx = dwrTxStep c s i := rfl
  have e2 : (dwrGhost c g s i).B = if dwrTxStart c s i then g.C.head?.map (·, 0) else if dwrTxFinish c s i then none
      else if dwrBeat c s i then g.B.map fun x => (x.1, x.2 + 1) else g.B := rfl
  rw [e1, e2]
  cases hB : g.B with
  | none =>
    obtain ⟨h1, h2, h3⟩ := h.idle (i := i) hB
    simp only [dwrTxStep, h1, h2, h3]
    cases hts : dwrTxStart c s i with
    | false => simp [dwrTxLoad]
    | true =>
      obtain ⟨r, C', hC⟩ := h.txst hts
      simp [hC, h.load hC, txAt]
  | some x =>
    obtain ⟨r, n⟩ := x
    obtain ⟨h1, h2⟩ := h.tx1 r n hB
    obtain ⟨b1, b2, b3, -⟩ := txAt_basic c r n h2
    cases hb : dwrBeat c s i with
    | false =>
      have hf : dwrTxFinish c s i = false := by simp [dwrTxFinish, hb]
      obtain ⟨h3, h4⟩ := h.busy hB hf
      simp only [dwrTxStep, h3, hb, hf, h4]
      refine ⟨by simp, ?_⟩
      intro r' n' e
      simp at e
      obtain ⟨rfl, rfl⟩ := e
      exact ⟨by simpa using h1, h2⟩
    | true =>
      cases hf : dwrTxFinish c s i with
      | false =>
        obtain ⟨h3, h4⟩ := h.busy hB hf
        have hl : s.tx.lastC = false := by simpa [dwrTxFinish, hb] using hf
        have hn : n ≠ segCyc c r := by
          intro e; rw [h1, b3] at hl; simp [e] at hl
        simp only [dwrTxStep, h3, hb, h4, hl]
        refine ⟨by simp, ?_⟩
        intro r' n' e
        simp at e
        obtain ⟨rfl, rfl⟩ := e
        refine ⟨?_, by omega⟩
        simp only [txAt, ← h1]
        simp [txNext, h3]
      | true =>
        have hl : s.tx.lastC = true := by simpa [dwrTxFinish, hb] using hf
        have h3 : s.tx.transfer = true := by rw [h1, b1]
        simp only [dwrTxStep, h3, hb, hl]
        cases hts : dwrTxStart c s i with
        | false => simp [dwrTxLoad]
        | true =>
          obtain ⟨r, C', hC⟩ := h.txst hts
          simp [hC, h.load hC, txAt]

theorem DwrInv.cmd_step (h : DwrInv c mem m rid g s) :
    (dwrNext c s i).cmdV = true → (dwrNext c s i).cmd = dwrCmdOf c (dwrGhost c g s i).cmdSeg := by
  simp only [dwrNext, dwrGhost]
  cases ho : dwrOpStart c s i with
  | true => simp
  | false =>
    simp only [Bool.false_or, Bool.and_eq_true]
    rintro ⟨h1, -⟩
    simpa using h.cmd h1

theorem dwrRdLoad_last (m : DwrCmd) (v : Bool) (hm : m.lastC = (m.cyc == 0)) :
    (dwrRdLoad c m v).lastC = ((dwrRdLoad c m v).cyc == 0) := hm

theorem DwrInv.rdL_step (h : DwrInv c mem m rid g s) :
    (dwrNext c s i).rd.read = true → (dwrNext c s i).rd.lastC = ((dwrNext c s i).rd.cyc == 0) := by
  have e1 : (dwrNext c s i).rd = dwrRdStep c s i := rfl
  rw [e1]
  unfold dwrRdStep
  have hl : (dwrRdLoad c s.cmd s.cmdV).read = true →
      (dwrRdLoad c s.cmd s.cmdV).lastC = ((dwrRdLoad c s.cmd s.cmdV).cyc == 0) := by
    intro hv
    apply dwrRdLoad_last
    rw [h.cmd hv]
    rfl
  split
  · split
    · split
      · exact hl
      · intro _; rfl
    · exact h.rdL
  · exact hl

/-- The reads still to be issued, after an edge. -/
theorem DwrInv.readRem_step (h : DwrInv c mem m rid g s) :
    readRem c g s ++ (if dwrOpStart c s i then segReads c s.req else []) =
    (if dwrRead c s i then [s.rd] else []) ++ readRem c (dwrGhost c g s i) (dwrNext c s i) := by
  have e1 : (dwrNext c s i).rd = dwrRdStep c s i := rfl
  have e2 : (dwrNext c s i).cmdV = (dwrOpStart c s i || (s.cmdV && !dwrTakeCmd c s i)) := rfl
  have e3 : (dwrGhost c g s i).cmdSeg = if dwrOpStart c s i then s.req else g.cmdSeg := rfl
  simp only [readRem, e1, e2, e3]
  -- a new command comes only when the register is empty or being emptied
  have hcmd : dwrOpStart c s i = true → s.cmdV = true → dwrTakeCmd c s i = true := by
    intro h1 h2
    simp only [dwrOpStart, Bool.and_eq_true, Bool.or_eq_true, Bool.not_eq_true'] at h1
    rcases h1.2 with h3 | h3
    · rw [h2] at h3; simp at h3
    · exact h3
  have hload : s.cmdV = true → rdSeq c (dwrRdLoad c s.cmd true).cyc (dwrRdLoad c s.cmd true) = segReads c g.cmdSeg := by
    intro hv
    rw [h.cmd hv]; rfl
  have hld : ∀ v, (dwrRdLoad c s.cmd v).read = v := fun _ => rfl
  cases hr : s.rd.read with
  | false =>
    have hrd : dwrRead c s i = false := by simp [dwrRead, hr]
    have htk : dwrTakeCmd c s i = s.cmdV := by simp [dwrTakeCmd, hr]
    simp only [dwrRdStep, hr, hrd, htk]
    cases hv : s.cmdV with
    | false => cases ho : dwrOpStart c s i <;> simp [hld]
    | true => cases ho : dwrOpStart c s i <;> simp [hld, hload hv]
  | true =>
    cases hrd : dwrRead c s i with
    | false =>
      have htk : dwrTakeCmd c s i = false := by simp [dwrTakeCmd, hr, hrd]
      simp only [dwrRdStep, hr, hrd, htk]
      cases ho : dwrOpStart c s i with
      | false => cases hv : s.cmdV <;> simp [hr]
      | true =>
        cases hv : s.cmdV with
        | true => have := hcmd ho hv; rw [htk] at this; simp at this
        | false => simp [hr]
    | true =>
      have hl := h.rdL hr
      cases hc : s.rd.lastC with
      | true =>
        have hc0 : s.rd.cyc = 0 := by rw [hc] at hl; simpa using hl.symm
        have htk : dwrTakeCmd c s i = s.cmdV := by simp [dwrTakeCmd, hrd, hc]
        simp only [dwrRdStep, hr, hrd, htk, hc, hc0]
        cases hv : s.cmdV with
        | false => cases ho : dwrOpStart c s i <;> simp [hld, rdSeq]
        | true => cases ho : dwrOpStart c s i <;> simp [hld, hload hv, rdSeq]
      | false =>
        have hc0 : s.rd.cyc ≠ 0 := by rw [hc] at hl; simpa using hl.symm
        obtain ⟨k, hk⟩ : ∃ k, s.rd.cyc = k + 1 := ⟨s.rd.cyc - 1, by omega⟩
        have htk : dwrTakeCmd c s i = false := by simp [dwrTakeCmd, hr, hc]
        have hn1 : (dwrRdNext c s.rd).read = true := rfl
        have hn2 : (dwrRdNext c s.rd).cyc = k := by show s.rd.cyc - 1 = k; omega
        simp only [dwrRdStep, hr, hrd, htk, hc, hk, rdSeq]
        cases ho : dwrOpStart c s i with
        | false => cases hv : s.cmdV <;> simp [hn1, hn2]
        | true =>
          cases hv : s.cmdV with
          | true => have := hcmd ho hv; rw [htk] at this; simp at this
          | false => simp [hn1, hn2]

theorem DwrInv.reads_step (h : DwrInv c mem m rid g s) :
    (dwrGhost c g s i).U ++ readRem c (dwrGhost c g s i) (dwrNext c s i) =
    bReads c (dwrGhost c g s i).B ++ (dwrGhost c g s i).C.flatMap (segReads c) := by
  have hr := h.readRem_step (i := i)
  have e1 : (dwrGhost c g s i).U = g.U.drop (dwrBeat c s i).toNat ++ (if dwrRead c s i then [s.rd] else []) := rfl
  have e2 : (dwrGhost c g s i).C = g.C.drop (dwrTxStart c s i).toNat ++ (if dwrOpStart c s i then [s.req] else []) := rfl
  have e3 : (dwrGhost c g s i).B = if dwrTxStart c s i then g.C.head?.map (·, 0) else if dwrTxFinish c s i then none
      else if dwrBeat c s i then g.B.map fun x => (x.1, x.2 + 1) else g.B := rfl
  rw [e1, e2, e3, List.append_assoc, ← hr, ← List.append_assoc, List.flatMap_append]
  rw [show ((if dwrOpStart c s i then [s.req] else []).flatMap (segReads c)) =
    (if dwrOpStart c s i then segReads c s.req else []) by split <;> simp]
  rw [← List.append_assoc]
  congr 1
  have hc := h.reads
  cases hB : g.B with
  | none =>
    obtain ⟨h1, h2, h3⟩ := h.idle (i := i) hB
    rw [hB] at hc
    simp only [bReads, List.nil_append] at hc
    rw [h2, h3]
    cases hts : dwrTxStart c s i with
    | false => simpa [bReads] using hc
    | true =>
      obtain ⟨r, C', hC⟩ := h.txst hts
      rw [hC] at hc
      simpa [hC, bReads] using hc
  | some x =>
    obtain ⟨r, n⟩ := x
    obtain ⟨h1, h2⟩ := h.tx1 r n hB
    rw [hB] at hc
    cases hb : dwrBeat c s i with
    | false =>
      have hf : dwrTxFinish c s i = false := by simp [dwrTxFinish, hb]
      obtain ⟨h3, h4⟩ := h.busy hB hf
      rw [hf, h4]
      simpa using hc
    | true =>
      have hf := h.txfin hB hb
      obtain ⟨r', n', u, U', hB', hU, _, _, hu, _⟩ := h.beat hb
      rw [hB] at hB'
      simp only [Option.some.injEq, Prod.mk.injEq] at hB'
      obtain ⟨rfl, rfl⟩ := hB'
      have hlen : n < (segReads c r).length := by unfold segReads; rw [rdSeq_length]; omega
      rw [hU] at hc ⊢
      simp only [bReads, List.drop_eq_getElem_cons hlen, List.cons_append, List.cons.injEq] at hc
      have hc := hc.2
      simp only [Bool.toNat_true, List.drop_succ_cons, List.drop_zero]
      rw [hc]
      cases hf' : dwrTxFinish c s i with
      | false =>
        obtain ⟨h3, h4⟩ := h.busy hB hf'
        rw [h4]; simp [bReads]
      | true =>
        rw [hf] at hf'
        have hn : n = segCyc c r := by simpa using hf'
        have hlen' : (segReads c r).length = n + 1 := by unfold segReads; rw [rdSeq_length, hn]
        rw [List.drop_of_length_le (by omega)]
        cases hts : dwrTxStart c s i with
        | false => simp [bReads]
        | true =>
          obtain ⟨r, C', hC⟩ := h.txst hts
          simp [hC, bReads]

end

end Verif.Proofs
