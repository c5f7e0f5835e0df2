import Verif.Proofs.DwrSeq
/-! The count of TLPs in flight of the DMA write interface, and histories with sequence numbers. -/
namespace Verif.Proofs
open Verif Verif.Model Verif.Spec

/-- The TLPs of which a transfer has been put on the interface. -/
def gStarted (g : DwrGhost) : Nat :=
  g.D.length + g.A.length + match g.B with | none => 0 | some (_, n) => if n = 0 then 0 else 1

/-- A TLP is about to start. -/
def gPend (g : DwrGhost) : Nat :=
  match g.B with | none => 0 | some (_, n) => if n = 0 then 1 else 0

/-- Invariant: `R` sequence numbers have come back. -/
structure CntInv (c : DwrCfg) (g : DwrGhost) (q : SeqState) (R : Nat) (s : Dwr) : Prop where
  ret : R + q.out.length = q.sent
  cnt : s.txCount + R = gStarted g
  av : s.txAv = decide (s.txCount < c.txLimit)
  lim : gStarted g + gPend g ≤ R + c.txLimit + 1

theorem cntInv_reset (c : DwrCfg) (h0 : 1 ≤ c.txLimit) (s : Dwr) (r : DwrIn) (hr : r.rst = true) :
    CntInv c (dwrGhost0 s) ⟨0, []⟩ 0 (dwrStep c s r) := by
  refine ⟨rfl, ?_, ?_, ?_⟩
  · simp [dwrStep, hr, dwrGhost0, gStarted]
  · simp [dwrStep, hr]; omega
  · simp [dwrGhost0, gStarted, gPend]

section
variable {c : DwrCfg} {mem : Nat → Nat → UInt8} {m rid : Nat} {g : DwrGhost} {q : SeqState} {s : Dwr} {i : DwrIn} {R : Nat}

theorem seqs_count (h : DwrInv c mem m rid g s) (hq : SeqInv c g q s) (ha : SeqAnswers c q i) :
    (q.out.filter fun n => !i.seqs.contains (n % 2 ^ c.opW)).length + i.seqs.length = q.out.length := by
  have hsize := h.size
  have hcnt := hq.cnt
  have hinj : ∀ a ∈ q.out, ∀ b ∈ q.out, a % 2 ^ c.opW = b % 2 ^ c.opW → a = b := by
    intro a ha b hb he
    have h1 := hq.win a ha
    have h2 := hq.win b hb
    exact h.inj h1.1 h2.1 (by omega) (by omega) he
  have hp : ((q.out.filter fun n => i.seqs.contains (n % 2 ^ c.opW)).map (· % 2 ^ c.opW)).Perm i.seqs := by
    rw [List.perm_ext_iff_of_nodup]
    · intro x
      simp only [List.mem_map, List.mem_filter, List.contains_iff_mem]
      constructor
      · rintro ⟨n, ⟨_, h1⟩, rfl⟩; exact h1
      · intro hx
        obtain ⟨n, hn, he⟩ := ha.2 x hx
        exact ⟨n, ⟨hn, by rw [he]; exact hx⟩, he⟩
    · rw [List.Nodup, List.pairwise_map]
      refine List.Pairwise.imp_of_mem ?_ (hq.nodup.filter _)
      intro a b ha hb hne he
      exact hne (hinj a (List.mem_filter.mp ha).1 b (List.mem_filter.mp hb).1 he)
    · exact ha.1
  have hl := hp.length_eq
  rw [List.length_map] at hl
  have h2 := @List.length_eq_countP_add_countP _ (fun n => i.seqs.contains (n % 2 ^ c.opW)) q.out
  rw [List.countP_eq_length_filter, List.countP_eq_length_filter, hl] at h2
  rw [h2, Nat.add_comm]
  congr 2
  apply List.filter_congr
  intro n _
  simp

theorem started_step (h : DwrInv c mem m rid g s) :
    gStarted (dwrGhost c g s i) = gStarted g + (dwrBeat c s i && !s.tx.frame).toNat ∧
    (dwrTxStart c s i = false → gStarted (dwrGhost c g s i) + gPend (dwrGhost c g s i) = gStarted g + gPend g) ∧
    gPend (dwrGhost c g s i) ≤ 1 := by
  have hcat := congrArg List.length (h.cat_step (i := i)).1
  simp only [List.length_append] at hcat
  have eB : (dwrGhost c g s i).B = if dwrTxStart c s i then g.C.head?.map (·, 0) else if dwrTxFinish c s i then none
      else if dwrBeat c s i then g.B.map fun x => (x.1, x.2 + 1) else g.B := rfl
  refine ⟨?_, ?_, ?_⟩
  · unfold gStarted
    rw [hcat, eB]
    cases hB : g.B with
    | none =>
      obtain ⟨h1, h2, h3⟩ := h.idle (i := i) hB
      rw [h2, h3]
      cases ht : dwrTxStart c s i with
      | false => simp
      | true =>
        obtain ⟨r, C', hC⟩ := h.txst ht
        simp [hC]
    | some x =>
      obtain ⟨r, n⟩ := x
      obtain ⟨t1, t2⟩ := h.tx1 r n hB
      have hfr : s.tx.frame = (n != 0) := by rw [t1, (txAt_basic c r n t2).2.2.2.1]
      cases hb : dwrBeat c s i with
      | true =>
        have hf := h.txfin hB hb
        rw [hf, hfr]
        by_cases hn : n = segCyc c r
        · cases ht : dwrTxStart c s i with
          | true =>
            obtain ⟨r', C', hC⟩ := h.txst ht
            simp [hC, hn, bSeg]
            split <;> simp_all
          | false =>
            simp [hn, bSeg]
            split <;> simp_all
        · have hf0 : (n == segCyc c r) = false := by simpa using hn
          have ht : dwrTxStart c s i = false := (h.busy hB (by rw [hf, hf0])).2
          rw [hf0, ht]
          simp
          split <;> simp_all
      | false =>
        have hf0 : dwrTxFinish c s i = false := by simp [dwrTxFinish, hb]
        have ht := (h.busy hB hf0).2
        rw [hf0, ht]
        simp
  · intro ht
    unfold gStarted gPend
    rw [hcat, eB, ht]
    simp only [Bool.false_eq_true, if_false]
    cases hB : g.B with
    | none =>
      obtain ⟨h1, h2, h3⟩ := h.idle (i := i) hB
      simp [h2, h3]
    | some x =>
      obtain ⟨r, n⟩ := x
      cases hf : dwrTxFinish c s i with
      | true => simp [bSeg]; split <;> simp
      | false =>
        cases hb : dwrBeat c s i with
        | true => simp; split <;> simp
        | false => simp
  · unfold gPend
    split
    · omega
    · split <;> omega

theorem CntInv.step (h : DwrInv c mem m rid g s) (hq : SeqInv c g q s) (hn : CntInv c g q R s) (hs : c.seqEn = true)
    (hlim : c.txLimit + 1 < 2 ^ clog2 (c.txLimit + 1)) (ha : SeqAnswers c q i) :
    CntInv c (dwrGhost c g s i) (seqNext c s i q) (R + i.seqs.length) (dwrNext c s i) := by
  have hcount := seqs_count h hq ha
  obtain ⟨st1, st2, st3⟩ := started_step (i := i) h
  have e1 : (dwrNext c s i).txCount = dwrTxCount c s.txCount (dwrBeat c s i && !s.tx.frame) i.seqs.length := rfl
  have e2 : (dwrNext c s i).txAv =
    decide (dwrTxCount c s.txCount (dwrBeat c s i && !s.tx.frame) i.seqs.length < c.txLimit) := rfl
  have hret := hn.ret
  have hcnt := hn.cnt
  have hl := hn.lim
  have hge : q.sent ≤ gStarted g := by
    have := hq.cnt; unfold gStarted; omega
  have hlim' : gStarted (dwrGhost c g s i) + gPend (dwrGhost c g s i) ≤ R + c.txLimit + 1 := by
    cases ht : dwrTxStart c s i with
    | false => rw [st2 ht]; exact hl
    | true =>
      simp only [dwrTxStart, hs, Bool.not_true, Bool.false_or, Bool.and_eq_true] at ht
      have hav := ht.2.2
      rw [hn.av] at hav
      have hav := of_decide_eq_true hav
      have : (dwrBeat c s i && !s.tx.frame).toNat ≤ 1 := Bool.toNat_le _
      omega
  have hcnt' : (dwrNext c s i).txCount + (R + i.seqs.length) = gStarted (dwrGhost c g s i) := by
    rw [e1]
    unfold dwrTxCount
    rw [if_neg (by omega)]
    omega
  refine ⟨?_, hcnt', by rw [e2, e1], by omega⟩
  unfold seqNext
  simp only
  split
  · simp only [List.length_append, List.length_cons, List.length_nil]; omega
  · simp only; omega

/-! ### Histories -/

theorem seqInv_run {mps : Nat} (hs : c.seqEn = true) (is : List DwrIn) (g : DwrGhost) (q : SeqState) (R : Nat) (s : Dwr)
    (h : DwrInv c mem (mpsDw mps) rid g s) (hq : SeqInv c g q s) (hram : RamOk c mem g.pend s is) (hseq : SeqOk c q s is)
    (his : ∀ i ∈ is, i.rst = false ∧ i.requesterId = rid ∧ i.mps = mps) :
    ∃ g', DwrInv c mem (mpsDw mps) rid g' (dwrRun c s is) ∧ g'.acc = g.acc ++ dwrAccepted c s is ∧
      g'.outs = g.outs ++ dwrSent c s is ∧ g'.sts = g.sts ++ dwrStatus c s is ∧
      SeqInv c g' (seqRun c q s is) (dwrRun c s is) ∧
      (c.txLimit + 1 < 2 ^ clog2 (c.txLimit + 1) → CntInv c g q R s →
        CntInv c g' (seqRun c q s is) (R + (is.map (·.seqs.length)).sum) (dwrRun c s is)) := by
  induction is generalizing g q R s with
  | nil =>
    exact ⟨g, h, by simp [dwrAccepted, dwrTrace], by simp [dwrSent, dwrTrace], by simp [dwrStatus, dwrTrace], hq,
      fun _ hn => by simpa [seqRun, dwrRun] using hn⟩
  | cons i is ih =>
    obtain ⟨hb1, hb2⟩ := mpsDw_bounds mps
    obtain ⟨i1, i2, i3⟩ := his i List.mem_cons_self
    have e : dwrStep c s i = dwrNext c s i := by simp [dwrStep, i1]
    have hst := h.step hb1 hb2 i1 hram.1 i2 (by rw [i3]; rfl)
    have hsq := SeqInv.step h hq hs hseq.1
    rw [← e] at hsq
    obtain ⟨g', h1, h2, h3, h4, h5, h6⟩ := ih (dwrGhost c g s i) (seqNext c s i q) (R + i.seqs.length) (dwrStep c s i) hst hsq
      hram.2 hseq.2 (fun j hj => his j (List.mem_cons_of_mem _ hj))
    refine ⟨g', h1, ?_, ?_, ?_, h5, ?_⟩
    · rw [h2]
      simp only [dwrGhost, dwrAccepted, dwrTrace, List.filterMap_cons]
      split <;> simp
    · rw [h3]
      simp only [dwrGhost, dwrSent, dwrTrace, List.filterMap_cons]
      split <;> simp
    · rw [h4]
      simp only [dwrGhost, dwrStatus, dwrTrace, List.filterMap_cons]
      split <;> simp
    · intro hlim hn
      have hc := CntInv.step h hq hn hs hlim hseq.1
      rw [← e] at hc
      have := h6 hlim hc
      simpa [Nat.add_assoc, seqRun, dwrRun] using this

theorem dwr_seq_history {mps : Nat} (mem : Nat → Nat → UInt8) (hs : c.seqEn = true) (s : Dwr) (r : DwrIn) (is : List DwrIn)
    (hr : r.rst = true) (his : ∀ i ∈ is, i.rst = false) (hin : ∀ i ∈ r :: is, i.mps = mps ∧ i.requesterId = rid)
    (hram : RamOk c mem (fun _ => []) (dwrStep c s r) is) (hseq : SeqOk c ⟨0, []⟩ (dwrStep c s r) is) :
    ∃ g, DwrInv c mem (mpsDw mps) rid g (dwrRun c (dwrStep c s r) is) ∧ g.acc = dwrAccepted c (dwrStep c s r) is ∧
      g.outs = dwrSent c (dwrStep c s r) is ∧ g.sts = dwrStatus c (dwrStep c s r) is ∧
      SeqInv c g (seqRun c ⟨0, []⟩ (dwrStep c s r) is) (dwrRun c (dwrStep c s r) is) ∧
      (1 ≤ c.txLimit → c.txLimit + 1 < 2 ^ clog2 (c.txLimit + 1) →
        CntInv c g (seqRun c ⟨0, []⟩ (dwrStep c s r) is) (is.map (·.seqs.length)).sum (dwrRun c (dwrStep c s r) is)) := by
  have h := dwrInv_reset c mem rid s r hr
  rw [(hin r List.mem_cons_self).1] at h
  obtain ⟨g, h1, h2, h3, h4, h5, h6⟩ := seqInv_run hs is (dwrGhost0 s) ⟨0, []⟩ 0 _ h (seqInv_reset c s r hr) hram hseq
    (fun i hi => ⟨his i hi, (hin i (List.mem_cons_of_mem _ hi)).2, (hin i (List.mem_cons_of_mem _ hi)).1⟩)
  exact ⟨g, h1, by simpa [dwrGhost0] using h2, by simpa [dwrGhost0] using h3, by simpa [dwrGhost0] using h4, h5,
    fun h7 h8 => by simpa using h6 h8 (cntInv_reset c h7 s r hr)⟩

/-- The number of TLPs started is the number of transfers marked `sop`. -/
theorem started_sop (h : DwrInv c mem m rid g s) : (g.P.map (·.2)).countP (·.sop) = gStarted g := by
  have hok := h.ok
  have hb := h.beats
  have hn : ∀ r n, g.B = some (r, n) → n ≤ segCyc c r := fun r n hB => (h.tx1 r n hB).2
  have h1 : (g.P.map (·.2)).countP (·.sop) = (g.P.map (·.1)).countP (fun p => p.2 == 0) := by
    rw [List.countP_map, List.countP_map]
    apply List.countP_congr
    intro p hp
    have := (hok p hp).sop
    simp only [Function.comp]
    rw [this]
  rw [h1, hb, List.countP_append, List.countP_flatMap]
  have hz : ∀ n (r : DwrReq), ((List.range n).map fun k => (r, k)).countP (fun p => p.2 == 0) = if n = 0 then 0 else 1 := by
    intro n r
    rw [List.countP_map]
    cases n with
    | zero => rfl
    | succ n =>
      rw [List.range_succ_eq_map, List.countP_cons, List.countP_map]
      have : List.countP (((fun p : DwrReq × Nat => p.2 == 0) ∘ fun k => (r, k)) ∘ Nat.succ) (List.range n) = 0 := by
        rw [List.countP_eq_zero]; intro a _; simp
      rw [this]; simp
  have h2 : ((g.D ++ g.A).map (List.countP (fun p => p.2 == 0) ∘ segBeats c)).sum = (g.D ++ g.A).length := by
    have : ∀ l : List DwrReq, (l.map (List.countP (fun p => p.2 == 0) ∘ segBeats c)).sum = l.length := by
      intro l
      induction l with
      | nil => rfl
      | cons a l ih =>
        rw [List.map_cons, List.sum_cons, ih]
        simp only [Function.comp, segBeats, hz, List.length_cons]
        simp
        omega
    exact this _
  rw [h2]
  unfold gStarted
  rw [List.length_append]
  congr 1
  cases hB : g.B with
  | none => rfl
  | some x => obtain ⟨r, n⟩ := x; simp only [bBeats]; rw [hz]

theorem frames_length (cur l : List DwrBeat) : (framesAux cur l).length = l.countP (·.eop) := by
  induction l generalizing cur with
  | nil => rfl
  | cons b bs ih =>
    simp only [framesAux, List.countP_cons]
    split <;> rename_i hb <;> simp [ih, hb]

theorem seqRun_sent (is : List DwrIn) (q : SeqState) (s : Dwr) :
    (seqRun c q s is).sent = q.sent + (dwrSent c s is).countP (·.eop) := by
  induction is generalizing q s with
  | nil => simp [seqRun, dwrSent, dwrTrace]
  | cons i is ih =>
    simp only [seqRun, ih]
    have e : dwrSent c s (i :: is) = (if s.outV && i.tlpReady then [s.out] else []) ++ dwrSent c (dwrStep c s i) is := by
      simp only [dwrSent, dwrTrace, List.filterMap_cons]
      split <;> simp_all
    rw [e, List.countP_append]
    unfold seqNext
    cases hx : (s.outV && i.tlpReady) with
    | false => simp
    | true => cases he : s.out.eop <;> simp [he]; omega

/-! ### Numbers of the TLPs -/

/-- Each transfer has the number of its TLP. -/
def NumInv (c : DwrCfg) (g : DwrGhost) : Prop :=
  SeqNumbered c 0 (g.P.map (·.2)) ∧ (g.P.map (·.2)).countP (·.eop) = g.D.length + g.A.length

theorem numbered_append (k : Nat) (l : List DwrBeat) (b : DwrBeat) (h : SeqNumbered c k l)
    (hb : b.seq = (k + l.countP (·.eop)) % 2 ^ c.opW) : SeqNumbered c k (l ++ [b]) := by
  induction l generalizing k with
  | nil => exact ⟨by simpa using hb, trivial⟩
  | cons a l ih =>
    refine ⟨h.1, ih _ h.2 ?_⟩
    rw [hb, List.countP_cons]
    congr 1
    cases a.eop <;> simp; omega

theorem numbered_prefix (k : Nat) (l l' : List DwrBeat) (h : SeqNumbered c k (l ++ l')) : SeqNumbered c k l := by
  induction l generalizing k with
  | nil => trivial
  | cons a l ih => exact ⟨h.1, ih _ h.2⟩

theorem NumInv.step (h : DwrInv c mem m rid g s) (hn : NumInv c g) : NumInv c (dwrGhost c g s i) := by
  have hcat := congrArg List.length (h.cat_step (i := i)).1
  simp only [List.length_append] at hcat
  have eP : (dwrGhost c g s i).P =
    g.P ++ (if dwrBeat c s i then (match g.B with | none => [] | some x => [(x, dwrBeatOut c s i)]) else []) := rfl
  unfold NumInv
  rw [hcat, eP]
  cases hb : dwrBeat c s i with
  | false =>
    have hf : dwrTxFinish c s i = false := by simp [dwrTxFinish, hb]
    simpa [hf, NumInv] using hn
  | true =>
    obtain ⟨r, n, _, _, hB, _⟩ := h.beat hb
    simp only [hB, if_true, List.map_append, List.map_cons, List.map_nil]
    have he : (dwrBeatOut c s i).eop = dwrTxFinish c s i := rfl
    have hs : (dwrBeatOut c s i).seq = s.tbl.txFinish % 2 ^ c.opW := rfl
    rw [h.tbl.txf, mod_pow_succ] at hs
    simp only [List.length_map] at hs
    refine ⟨numbered_append _ _ _ hn.1 (by rw [hs, hn.2, Nat.zero_add]), ?_⟩
    rw [List.countP_append, hn.2]
    cases hf : dwrTxFinish c s i <;> simp [he, hf, bSeg]

theorem num_run {mps : Nat} (is : List DwrIn) (g : DwrGhost) (s : Dwr)
    (h : DwrInv c mem (mpsDw mps) rid g s) (hn : NumInv c g) (hram : RamOk c mem g.pend s is)
    (his : ∀ i ∈ is, i.rst = false ∧ i.requesterId = rid ∧ i.mps = mps) :
    ∃ g', DwrInv c mem (mpsDw mps) rid g' (dwrRun c s is) ∧ NumInv c g' ∧ g'.outs = g.outs ++ dwrSent c s is := by
  induction is generalizing g s with
  | nil => exact ⟨g, h, hn, by simp [dwrSent, dwrTrace]⟩
  | cons i is ih =>
    obtain ⟨hb1, hb2⟩ := mpsDw_bounds mps
    obtain ⟨i1, i2, i3⟩ := his i List.mem_cons_self
    have hst := h.step hb1 hb2 i1 hram.1 i2 (by rw [i3]; rfl)
    obtain ⟨g', h1, h2, h3⟩ := ih (dwrGhost c g s i) (dwrStep c s i) hst (NumInv.step h hn) hram.2
      (fun j hj => his j (List.mem_cons_of_mem _ hj))
    refine ⟨g', h1, h2, ?_⟩
    rw [h3]
    simp only [dwrGhost, dwrSent, dwrTrace, List.filterMap_cons]
    split <;> simp

end

end Verif.Proofs
