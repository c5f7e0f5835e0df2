import Verif.Proofs.DwrStep
/-! Preservation of the pipeline invariant of the DMA write interface, continued. -/
namespace Verif.Proofs
open Verif Verif.Model Verif.Spec

theorem dwrMasks_sub (c : DwrCfg) (a b k : Nat) (h : (dwrMasks c a b).2 k = true) : (dwrMasks c a b).1 k = true := by
  unfold dwrMasks at h ⊢
  simp only at h ⊢
  split at h
  · simp at h
  · rename_i hw
    rw [if_neg hw]
    simp only [Bool.or_eq_true]
    exact Or.inr h

theorem rdSeq_mem {c : DwrCfg} {n : Nat} {x u : DwrRd} (hx : ∀ k, x.mask1 k = true → x.mask k = true)
    (hu : u ∈ rdSeq c n x) :
    (∀ k, u.mask1 k = true → u.mask k = true) ∧ u.immEn = x.immEn ∧ u.sel = x.sel := by
  induction n generalizing x with
  | zero => simp [rdSeq] at hu; subst hu; exact ⟨hx, rfl, rfl⟩
  | succ n ih =>
    simp only [rdSeq, List.mem_cons] at hu
    rcases hu with rfl | hu
    · exact ⟨hx, rfl, rfl⟩
    · exact ih (x := dwrRdNext c x) (fun k hk => dwrMasks_sub _ _ _ k hk) hu

theorem segReads_mem {c : DwrCfg} {r : DwrReq} {u : DwrRd} (hu : u ∈ segReads c r) :
    (∀ k, u.mask1 k = true → u.mask k = true) ∧ u.immEn = r.immEn ∧ u.sel = r.sel :=
  rdSeq_mem (fun k hk => dwrMasks_sub _ _ _ k hk) hu

theorem rdSeq_self (c : DwrCfg) (n : Nat) (x : DwrRd) : x ∈ rdSeq c n x := by cases n <;> simp [rdSeq]

section
variable {c : DwrCfg} {mem : Nat → Nat → UInt8} {m rid : Nat} {g : DwrGhost} {s : Dwr} {i : DwrIn}

theorem DwrInv.rd_sub (h : DwrInv c mem m rid g s) (hr : s.rd.read = true) :
    ∀ k, s.rd.mask1 k = true → s.rd.mask k = true := by
  have h1 : s.rd ∈ g.U ++ readRem c g s := by simp [readRem, hr, rdSeq_self]
  rw [h.reads] at h1
  simp only [List.mem_append, List.mem_flatMap] at h1
  rcases h1 with h1 | ⟨r, _, h1⟩
  · cases hB : g.B with
    | none => rw [hB] at h1; simp [bReads] at h1
    | some x =>
      obtain ⟨r, n⟩ := x
      rw [hB] at h1
      exact (segReads_mem (List.mem_of_mem_drop h1)).1
  · exact (segReads_mem h1).1

theorem DwrInv.fifo_step (h : DwrInv c mem m rid g s) :
    RingOk (c.opW + 1) (dwrNext c s i).fifo ∧
    (if (dwrNext c s i).ramMaskV then [(dwrNext c s i).ramMask] else []) ++ ringList (c.opW + 1) (dwrNext c s i).fifo =
      (dwrGhost c g s i).U.map (maskOf c) := by
  let pop := (!s.ramMaskV || dwrBeat c s i) && !ringEmpty s.fifo
  let f1 := if pop then ringPop (c.opW + 1) s.fifo else s.fifo
  have e1 : (dwrNext c s i).fifo = if dwrRead c s i then ringPush (c.opW + 1) f1 (maskOf c s.rd) else f1 := rfl
  have e2 : (dwrNext c s i).ramMaskV = (pop || (s.ramMaskV && !dwrBeat c s i)) := rfl
  have e3 : (dwrNext c s i).ramMask = if pop then ringHead (c.opW + 1) s.fifo else s.ramMask := rfl
  have e4 : (dwrGhost c g s i).U = g.U.drop (dwrBeat c s i).toNat ++ (if dwrRead c s i then [s.rd] else []) := rfl
  have hemp := ring_empty (c.opW + 1) s.fifo h.ring
  -- the first half: taking a mask
  have hpop : RingOk (c.opW + 1) f1 ∧ ringCount (c.opW + 1) f1 ≤ ringCount (c.opW + 1) s.fifo ∧
      (if (dwrNext c s i).ramMaskV then [(dwrNext c s i).ramMask] else []) ++ ringList (c.opW + 1) f1 =
      (g.U.drop (dwrBeat c s i).toNat).map (maskOf c) := by
    -- what is left once the transfer has used its mask
    have hU : (if s.ramMaskV && !dwrBeat c s i then [s.ramMask] else []) ++ ringList (c.opW + 1) s.fifo =
        (g.U.drop (dwrBeat c s i).toNat).map (maskOf c) := by
      cases hb : dwrBeat c s i with
      | false => simpa using h.fifo
      | true =>
        obtain ⟨r, n, u, U', _, hU, _, _, _, _, _, hl⟩ := h.beat hb
        simpa [hU] using hl
    rw [e2, e3]
    cases hp : pop with
    | false =>
      have : f1 = s.fifo := by simp only [f1, hp]; simp
      rw [this]
      exact ⟨h.ring, Nat.le_refl _, by simpa using hU⟩
    | true =>
      have hp' : ((!s.ramMaskV || dwrBeat c s i) && !ringEmpty s.fifo) = true := hp
      have hf1 : f1 = ringPop (c.opW + 1) s.fifo := by simp only [f1, hp]; simp
      simp only [Bool.and_eq_true, Bool.not_eq_true', hemp, decide_eq_false_iff_not] at hp'
      obtain ⟨r1, r2, r3⟩ := ring_pop (c.opW + 1) s.fifo h.ring (by omega)
      rw [hf1]
      refine ⟨r1, by omega, ?_⟩
      have : (s.ramMaskV && !dwrBeat c s i) = false := by
        have hp1 := hp'.1
        revert hp1
        cases s.ramMaskV <;> cases dwrBeat c s i <;> simp
      rw [this] at hU
      rw [← hU, r3]
      simp
  rw [e1, e4]
  cases hr : dwrRead c s i with
  | false => exact ⟨by simpa using hpop.1, by simpa using hpop.2.2⟩
  | true =>
    have hf : ringFull (c.opW + 1) s.fifo = false := by
      simp only [dwrRead, dwrCanRead, Bool.and_eq_true, Bool.not_eq_true'] at hr
      exact hr.2.2
    rw [ring_full _ _ h.ring] at hf
    have hc := h.ring.count
    obtain ⟨p1, p2, p3⟩ := ring_push (c.opW + 1) f1 (maskOf c s.rd) hpop.1 (by
      have := hpop.2.1
      simp only [decide_eq_false_iff_not] at hf
      omega)
    refine ⟨p1, ?_⟩
    simp only [if_true]
    rw [p3, List.map_append, ← hpop.2.2, List.append_assoc]
    rfl

theorem allSegs_iff {c : DwrCfg} {p : Nat → Bool} : c.allSegs p = true ↔ ∀ k, k < c.segs → p k = true := by
  simp [DwrCfg.allSegs]

/-- The response taken in a segment is the one for the read of this transfer. -/
theorem DwrInv.resp (h : DwrInv c mem m rid g s) (ha : RamAnswers c mem g.pend i) {u : DwrRd} {U' : List DwrRd}
    (hU : g.U = u :: U') {k : Nat} (hk : k < c.segs) (hm : maskOf c u k = true) (hv : i.respValid k = true) :
    ∃ rest, g.pend k = (u.sel, rdAddr c u k) :: rest ∧
      ∀ b, b < c.segBytes → i.respData (k * c.segBytes + b) = mem u.sel (rdAddr c u k * c.rowBytes + (k * c.segBytes + b)) := by
  obtain ⟨q, hq, hd⟩ := ha k hk hv
  have hp := h.pend k hk
  rw [hU, List.filter_cons_of_pos (by simpa using hm)] at hp
  cases he : g.pend k with
  | nil => simp [he] at hq
  | cons q' rest =>
    rw [he] at hq hp
    simp only [List.head?_cons, Option.some.injEq] at hq
    subst hq
    simp only [List.cons_append, List.map_cons, List.cons.injEq] at hp
    rw [hp.1] at hd
    exact ⟨rest, by rw [hp.1], hd⟩

theorem DwrInv.beat_valid (h : DwrInv c mem m rid g s) (hb : dwrBeat c s i = true) {u : DwrRd} {U' : List DwrRd}
    (hU : g.U = u :: U') {k : Nat} (hk : k < c.segs) (hm : maskOf c u k = true) : i.respValid k = true := by
  obtain ⟨r, n, u', U'', _, hU', _, _, _, _, hmask, _⟩ := h.beat hb
  rw [hU] at hU'
  simp only [List.cons.injEq] at hU'
  obtain ⟨rfl, rfl⟩ := hU'
  simp only [dwrBeat, Bool.and_eq_true] at hb
  have := allSegs_iff.mp hb.1.1.2 k hk
  rw [hmask, hm] at this
  simpa using this

theorem DwrInv.pend_step (h : DwrInv c mem m rid g s) (ha : RamAnswers c mem g.pend i) (k : Nat) (hk : k < c.segs) :
    (dwrGhost c g s i).pend k ++
      (if (dwrNext c s i).cmdValid k then [((dwrNext c s i).cmdSel k, (dwrNext c s i).cmdAddr k)] else []) =
    ((dwrGhost c g s i).U.filter (maskOf c · k)).map fun u => (u.sel, rdAddr c u k) := by
  have e4 : (dwrGhost c g s i).U = g.U.drop (dwrBeat c s i).toNat ++ (if dwrRead c s i then [s.rd] else []) := rfl
  have e5 : (dwrGhost c g s i).pend k = (if i.respValid k && dwrRespReady c s i k then (g.pend k).tail else g.pend k) ++
    (if s.cmdValid k && i.cmdReady k then [(s.cmdSel k, s.cmdAddr k)] else []) := rfl
  have hp := h.pend k hk
  -- the responses
  have h1 : (if i.respValid k && dwrRespReady c s i k then (g.pend k).tail else g.pend k) ++
      (if s.cmdValid k then [(s.cmdSel k, s.cmdAddr k)] else []) =
      ((g.U.drop (dwrBeat c s i).toNat).filter (maskOf c · k)).map fun u => (u.sel, rdAddr c u k) := by
    cases hb : dwrBeat c s i with
    | false => simpa [dwrRespReady, hb] using hp
    | true =>
      obtain ⟨r, n, u, U', _, hU, _, _, _, _, hmask, _⟩ := h.beat hb
      rw [hU]
      cases hm : maskOf c u k with
      | false =>
        rw [hU, List.filter_cons_of_neg (by simp [hm])] at hp
        simpa [dwrRespReady, hb, hmask, hm] using hp
      | true =>
        have hv := h.beat_valid hb hU hk hm
        obtain ⟨rest, hr, _⟩ := h.resp ha hU hk hm hv
        rw [hU, List.filter_cons_of_pos (by simpa using hm), hr] at hp
        simp only [List.cons_append, List.map_cons, List.cons.injEq, true_and] at hp
        simpa [dwrRespReady, hb, hmask, hm, hv, hr] using hp
  rw [e4, e5, List.filter_append, List.map_append, ← h1, List.append_assoc, List.append_assoc]
  congr 1
  have e7 : (dwrNext c s i).cmdValid k =
    if dwrRead c s i && s.rd.mask k then !(c.immEn && s.rd.immEn) else s.cmdValid k && !i.cmdReady k := rfl
  have e8 : (dwrNext c s i).cmdSel k = if dwrRead c s i && s.rd.mask k then s.rd.sel else s.cmdSel k := rfl
  have e9 : (dwrNext c s i).cmdAddr k =
      if dwrRead c s i && s.rd.mask1 k then (s.rd.ram / c.rowBytes + 1) % 2 ^ (c.ramW - (c.tb + 1))
      else if dwrRead c s i && s.rd.mask k then s.rd.ram / c.rowBytes % 2 ^ (c.ramW - (c.tb + 1)) else s.cmdAddr k := rfl
  rw [e7, e8, e9]
  cases hr : dwrRead c s i with
  | false => cases s.cmdValid k <;> cases i.cmdReady k <;> simp
  | true =>
    have hrr : s.rd.read = true := by simp only [dwrRead, Bool.and_eq_true] at hr; exact hr.1
    have hsub := h.rd_sub hrr k
    have hcan : (!(s.cmdValid k && !i.cmdReady k && s.rd.mask k)) = true := by
      simp only [dwrRead, dwrCanRead, Bool.and_eq_true] at hr
      exact allSegs_iff.mp hr.2.1 k hk
    cases hmk : s.rd.mask k with
    | false =>
      have h1 : s.rd.mask1 k = false := by cases h2 : s.rd.mask1 k <;> simp_all
      have h2 : maskOf c s.rd k = false := by unfold maskOf; split <;> simp [hmk]
      simp only [h1, h2, Bool.and_false, if_true, List.filter_cons, List.filter_nil]
      cases s.cmdValid k <;> cases i.cmdReady k <;> simp
    | true =>
      rw [hmk] at hcan
      cases hi : c.immEn && s.rd.immEn with
      | true =>
        have h2 : maskOf c s.rd k = false := by simp [maskOf, hi]
        cases hc1 : s.cmdValid k <;> cases hc2 : i.cmdReady k <;> simp_all
      | false =>
        have h2 : maskOf c s.rd k = true := by simp [maskOf, hi, hmk]
        cases hc1 : s.cmdValid k <;> cases hc2 : i.cmdReady k <;> simp_all [rdAddr]

theorem DwrInv.cat_step (h : DwrInv c mem m rid g s) :
    (dwrGhost c g s i).D ++ (dwrGhost c g s i).A = g.D ++ g.A ++ (if dwrTxFinish c s i then bSeg g.B else []) ∧
    (dwrGhost c g s i).D ++ (dwrGhost c g s i).A ++ bSeg (dwrGhost c g s i).B ++ (dwrGhost c g s i).C =
      g.D ++ g.A ++ bSeg g.B ++ g.C ++ (if dwrOpStart c s i then [s.req] else []) := by
  have e1 : (dwrGhost c g s i).D ++ (dwrGhost c g s i).A = g.D ++ g.A ++ (if dwrTxFinish c s i then bSeg g.B else []) := by
    simp only [dwrGhost]
    rw [List.append_assoc, ← List.append_assoc (g.A.take _), List.take_append_drop, List.append_assoc]
  refine ⟨e1, ?_⟩
  rw [e1]
  simp only [dwrGhost]
  rw [← List.append_assoc]
  congr 1
  rw [List.append_assoc, List.append_assoc, List.append_assoc (g.D ++ g.A)]
  congr 1
  cases hts : dwrTxStart c s i with
  | true =>
    obtain ⟨r, C', e⟩ := h.txst hts
    rcases DwrInv.txst_idle hts with h1 | h1
    · have hB : g.B = none := by
        cases hB : g.B with
        | none => rfl
        | some x => have := (h.tx1 x.1 x.2 hB).1; rw [this, (txAt_basic c _ _ (h.tx1 x.1 x.2 hB).2).1] at h1; simp at h1
      simp [e, hB, bSeg]
    · rw [h1]; cases hB : g.B <;> simp [e, bSeg]
  | false =>
    cases htf : dwrTxFinish c s i with
    | true => cases hB : g.B <;> simp [bSeg]
    | false => cases hb : dwrBeat c s i <;> cases hB : g.B <;> simp [bSeg]

theorem DwrInv.req_step (h0 : 1 ≤ m) (h1 : m ≤ 1024) (h : DwrInv c mem m rid g s) :
    ((dwrNext c s i).req.start = true → ReqOk m (dwrNext c s i).req) ∧
    (dwrGhost c g s i).D ++ (dwrGhost c g s i).A ++ bSeg (dwrGhost c g s i).B ++ (dwrGhost c g s i).C ++
      (if (dwrNext c s i).req.start then reqSegs c m (dwrNext c s i).req.count (dwrNext c s i).req else []) =
    (dwrGhost c g s i).acc.flatMap (descSegs c m) := by
  have e1 : (dwrNext c s i).req = dwrReqStep c s i := rfl
  have e2 : (dwrGhost c g s i).acc = g.acc ++ (if s.req.ready && i.valid then [descOf c i] else []) := rfl
  rw [h.cat_step.2, e1, e2, List.flatMap_append, ← h.segs]
  cases hs : s.req.start with
  | true =>
    have hr := h.req hs
    rw [hr.ready]
    cases ho : dwrOpStart c s i with
    | false =>
      have : dwrReqStep c s i = s.req := by
        have hrd := hr.ready
        unfold dwrReqStep
        simp only [hs, ho, if_true, Bool.false_eq_true, if_false]
        generalize s.req = q at *
        cases q
        simp_all
      rw [this]
      exact ⟨fun _ => hr, by simp [hs]⟩
    | true =>
      have hfacts := tlpSize_facts (a := s.req.addr) h0 h1 hr.pos
      rw [← hr.size] at hfacts
      rw [if_pos rfl, reqSegs_cons h0 h1 s.req hr]
      by_cases hl : s.req.count = s.req.tlpCount
      · have : (dwrReqStep c s i).start = false := by
          unfold dwrReqStep; simp [hs, ho, hl]
        rw [this]
        exact ⟨by simp, by simp [hl]⟩
      · have : dwrReqStep c s i = reqNext c m s.req := by
          have hrd := hr.ready
          unfold dwrReqStep reqNext
          rw [h.mps]
          simp only [hs, ho, if_true, hrd]
          simp [hl]
        rw [this, if_neg hl]
        have hst : (reqNext c m s.req).start = true := hs
        refine ⟨fun _ => ⟨hr.ready, rfl, ?_⟩, ?_⟩
        · show 1 ≤ s.req.count - s.req.tlpCount; omega
        · rw [hst]; simp
  | false =>
    have ho : dwrOpStart c s i = false := by simp [dwrOpStart, hs]
    rw [ho]
    cases ha : s.req.ready && i.valid with
    | false =>
      have : (dwrReqStep c s i).start = false := by unfold dwrReqStep; simp [hs, ha]
      rw [this]
      exact ⟨by simp, by simp⟩
    | true =>
      have : dwrReqStep c s i = reqOf m (descOf c i) := by
        unfold dwrReqStep reqOf descOf
        rw [h.mps]
        simp [hs, ha]
      rw [this]
      refine ⟨fun _ => ⟨rfl, rfl, ?_⟩, ?_⟩
      · show 1 ≤ if (descOf c i).len = 0 then 1 else (descOf c i).len
        split <;> omega
      · have hst : (reqOf m (descOf c i)).start = true := rfl
        rw [hst]; simp [descSegs]

theorem DwrInv.outs_step (h : DwrInv c mem m rid g s) :
    (dwrGhost c g s i).outs ++ (if (dwrNext c s i).outV then [(dwrNext c s i).out] else []) =
      (dwrGhost c g s i).P.map (·.2) := by
  have e1 : (dwrGhost c g s i).outs = g.outs ++ (if s.outV && i.tlpReady then [s.out] else []) := rfl
  have e2 : (dwrNext c s i).outV = (dwrBeat c s i || (s.outV && !i.tlpReady)) := rfl
  have e3 : (dwrNext c s i).out = if s.tx.transfer && (!s.outV || i.tlpReady) then dwrBeatOut c s i else s.out := rfl
  have e4 : (dwrGhost c g s i).P =
    g.P ++ (if dwrBeat c s i then (match g.B with | none => [] | some x => [(x, dwrBeatOut c s i)]) else []) := rfl
  rw [e1, e2, e3, e4, List.map_append, ← h.outs]
  cases hb : dwrBeat c s i with
  | true =>
    obtain ⟨r, n, u, U', hB, _⟩ := h.beat hb
    have hfree : (!s.outV || i.tlpReady) = true := by simp only [dwrBeat, Bool.and_eq_true] at hb; exact hb.2
    have htr : s.tx.transfer = true := by simp only [dwrBeat, Bool.and_eq_true] at hb; exact hb.1.1.1
    rw [hB, hfree, htr]
    cases h1 : s.outV <;> cases h2 : i.tlpReady <;> simp_all
  | false =>
    cases h1 : s.outV <;> cases h2 : i.tlpReady <;> simp

theorem DwrInv.beats_step (h : DwrInv c mem m rid g s) :
    (dwrGhost c g s i).P.map (·.1) =
      ((dwrGhost c g s i).D ++ (dwrGhost c g s i).A).flatMap (segBeats c) ++ bBeats (dwrGhost c g s i).B := by
  rw [h.cat_step.1]
  have e3 : (dwrGhost c g s i).B = if dwrTxStart c s i then g.C.head?.map (·, 0) else if dwrTxFinish c s i then none
      else if dwrBeat c s i then g.B.map fun x => (x.1, x.2 + 1) else g.B := rfl
  have e6 : (dwrGhost c g s i).P =
    g.P ++ (if dwrBeat c s i then (match g.B with | none => [] | some x => [(x, dwrBeatOut c s i)]) else []) := rfl
  rw [e3, e6, List.map_append, h.beats, show ∀ X, ((g.D ++ g.A) ++ X).flatMap (segBeats c) =
    (g.D ++ g.A).flatMap (segBeats c) ++ X.flatMap (segBeats c) from fun X => List.flatMap_append ..,
    List.append_assoc, List.append_assoc]
  congr 1
  cases hB : g.B with
  | none =>
    obtain ⟨h1, h2, h3⟩ := h.idle (i := i) hB
    rw [h2, h3]
    cases hts : dwrTxStart c s i with
    | false => simp [bBeats]
    | true => obtain ⟨r, C', hC⟩ := h.txst hts; simp [hC, bBeats]
  | some x =>
    obtain ⟨r, n⟩ := x
    cases hb : dwrBeat c s i with
    | false =>
      have hf : dwrTxFinish c s i = false := by simp [dwrTxFinish, hb]
      obtain ⟨h3, h4⟩ := h.busy hB hf
      simp [hf, h4]
    | true =>
      have hf := h.txfin hB hb
      cases hf' : dwrTxFinish c s i with
      | false =>
        obtain ⟨h3, h4⟩ := h.busy hB hf'
        rw [h4]; simp [bBeats, List.range_succ]
      | true =>
        rw [hf] at hf'
        have hn : n = segCyc c r := by simpa using hf'
        have key : bBeats (if dwrTxStart c s i then g.C.head?.map (·, 0) else none) = [] := by
          cases hts : dwrTxStart c s i with
          | false => simp [bBeats]
          | true => obtain ⟨r, C', hC⟩ := h.txst hts; simp [hC, bBeats]
        simp only [if_true, key]
        simp [bBeats, bSeg, segBeats, ← hn, List.range_succ]

theorem DwrInv.ok_step (h : DwrInv c mem m rid g s) (ha : RamAnswers c mem g.pend i) (hrid : i.requesterId = rid) :
    ∀ p ∈ (dwrGhost c g s i).P, BeatOk c mem rid p.1.1 p.1.2 p.2 := by
  intro p hp
  have e6 : (dwrGhost c g s i).P =
    g.P ++ (if dwrBeat c s i then (match g.B with | none => [] | some x => [(x, dwrBeatOut c s i)]) else []) := rfl
  rw [e6, List.mem_append] at hp
  rcases hp with hp | hp
  · exact h.ok p hp
  · cases hb : dwrBeat c s i with
    | false => simp [hb] at hp
    | true =>
      obtain ⟨r, n, u, U', hB, hU, hn, htx, hu, hmv, hmask, _⟩ := h.beat hb
      rw [hb, hB] at hp
      simp only [if_true, List.mem_singleton] at hp
      subst hp
      obtain ⟨_, _, b3, b4, b5, b6⟩ := txAt_basic c r n hn
      have hmem : u ∈ segReads c r := List.mem_of_getElem? hu
      have him := (segReads_mem hmem).2.1
      refine ⟨?_, ?_, ?_, ?_, ?_⟩
      · simp only [dwrBeatOut, htx]
      · simp only [dwrBeatOut, htx, hrid]
      · simp only [dwrBeatOut, hb, if_true, htx, b4]
        cases n <;> simp
      · simp only [dwrBeatOut]
        exact h.txfin hB hb
      · refine ⟨if c.immEn && r.immEn then r.imm else i.respData, u, hu, ?_, ?_, ?_⟩
        · simp only [dwrBeatOut, htx]
          funext l
          simp only [dwrData, b5, b6]
        · intro hi; rw [if_pos hi]
        · intro k hk hm
          have : (c.immEn && r.immEn) = false := by
            rw [← him]
            cases hi : c.immEn && u.immEn with
            | false => rfl
            | true => simp [maskOf, hi] at hm
          rw [this]
          obtain ⟨rest, _, hd⟩ := h.resp ha hU hk hm (h.beat_valid hb hU hk hm)
          exact hd

theorem DwrInv.st_step (h : DwrInv c mem m rid g s) :
    (dwrGhost c g s i).sts ++ (if (dwrNext c s i).stV then [(dwrNext c s i).stTag] else []) =
      lastTags (dwrGhost c g s i).D := by
  have e1 : (dwrGhost c g s i).D = g.D ++ g.A.take (dwrFinish c s).toNat := rfl
  have e2 : (dwrGhost c g s i).sts = g.sts ++ (if s.stV then [s.stTag] else []) := rfl
  rw [e1, e2, h.st]
  simp only [lastTags, List.filter_append, List.map_append]
  congr 1
  have e3 : (dwrNext c s i).stV = (dwrFinish c s && (s.tbl.mem (s.tbl.finish % 2 ^ c.opW)).last) := rfl
  have e4 : (dwrNext c s i).stTag = (s.tbl.mem (s.tbl.finish % 2 ^ c.opW)).tag := rfl
  rw [e3, e4]
  cases hf : dwrFinish c s with
  | false => simp
  | true =>
    obtain ⟨r, A', hA⟩ := h.fin hf
    rw [h.tbl.mem_fin (a := dwrOpOf c r) (A' := A'.map (dwrOpOf c)) (by rw [hA]; rfl)]
    simp only [dwrOpOf, hA, Bool.true_and, Bool.toNat_true, List.take_succ_cons, List.take_zero, List.filter_cons,
      List.filter_nil]
    split <;> simp

theorem DwrInv.step (h0 : 1 ≤ m) (h1 : m ≤ 1024) (h : DwrInv c mem m rid g s) (hrst : i.rst = false)
    (ha : RamAnswers c mem g.pend i) (hrid : i.requesterId = rid) (hm : 32 * 2 ^ (if i.mps > 5 then 5 else i.mps) = m) :
    DwrInv c mem m rid (dwrGhost c g s i) (dwrStep c s i) := by
  have e : dwrStep c s i = dwrNext c s i := by simp [dwrStep, hrst]
  rw [e]
  exact {
    tbl := h.tbl_step, tx0 := h.tx_step.1, tx1 := h.tx_step.2, cmd := h.cmd_step, rdL := h.rdL_step,
    reads := h.reads_step, ring := h.fifo_step.1, fifo := h.fifo_step.2, pend := h.pend_step ha,
    req := (h.req_step h0 h1).1, segs := (h.req_step h0 h1).2, mps := hm, outs := h.outs_step, beats := h.beats_step,
    ok := h.ok_step ha hrid, st := h.st_step }

end

end Verif.Proofs
