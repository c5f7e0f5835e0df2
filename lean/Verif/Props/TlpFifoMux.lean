import Verif.Proofs.TlpFifoMuxLive
import Verif.Proofs.TlpFifoMuxStatus
/-! C110 and C111: the TLP multiplexer with FIFOs, one segment per word. -/
namespace Verif.Props
open Verif Verif.Model Verif.Spec Verif.Proofs

/-- **C110**, one segment per word: after a reset, for every history: what the receiver has taken is a merge `t` of the port
streams that does not mix TLPs: the segment after one without an end flag comes from the same port. Of each port, `t` holds
segments of TLPs that were accepted completely, in order and unchanged; no more than the FIFO and 20 segments are still
inside. Missing for the full claim: more than one segment per word. -/
theorem C110_merge_partial (c : TxmCfg) (h0 : 0 < c.mux.ports) (hc : TffOk c.fifo) (s : Txm) (r : TxmIn) (hr : r.rst = true)
    (is : List TxmIn) (hi : ∀ i ∈ is, i.rst = false) :
    ∃ t : List (Nat × TlpSeg), txmTaken c (txmStep c s r) is = t.map (·.2) ∧ (∀ x ∈ t, x.1 < c.mux.ports) ∧
      FramesWhole (fun x : TlpSeg => x.eop) t ∧
      ∀ p < c.mux.ports, ofPort p t <+: tlpWhole (txmAccepted c p (txmStep c s r) is) ∧
        ∃ inside, txmAccepted c p (txmStep c s r) is = ofPort p t ++ inside ∧ inside.length ≤ c.fifo.words + 20 := by
  have hT := txmInv_run h0 hc is (txmInv_init c h0 hc s r hr) hi
  simp only [List.nil_append] at hT
  have ho := hT.out
  rw [List.append_assoc] at ho
  obtain ⟨t1, t2, e, e1, e2⟩ := List.map_eq_append_iff.mp ho
  have hlen2 : t2.length ≤ 19 := by
    have := congrArg List.length e2
    rw [List.length_map, List.length_append, outQ, List.length_append, ringList_length] at this
    have hcnt := hT.count
    have hs : (if (txmRun c (txmStep c s r) is).sel then [txmSeg (txmRun c (txmStep c s r) is)] else []).length =
      (txmRun c (txmStep c s r) is).sel.toNat := by cases (txmRun c (txmStep c s r) is).sel <;> rfl
    have hv : (if (txmRun c (txmStep c s r) is).out.valid then [(txmRun c (txmStep c s r) is).out.out] else []).length ≤ 1 := by
      split <;> simp
    omega
  refine ⟨t1, e1.symm, fun x hx => hT.ports x (e ▸ List.mem_append_left _ hx), ?_, ?_⟩
  · intro k a b ha hb
    have hk := (List.getElem?_eq_some_iff.mp ha).1
    have hk' := (List.getElem?_eq_some_iff.mp hb).1
    exact hT.whole k a b (by rw [e, List.getElem?_append_left hk]; exact ha) (by rw [e, List.getElem?_append_left hk']; exact hb)
  · intro p hp
    obtain ⟨tkD, RC, R, hf⟩ := hT.fifo p hp
    have hfr := hf.ctrl.front
    have lC := tff_len hf.ctrl
    have hro := hf.ctrl.room
    rw [e, ofPort_append'] at hfr lC
    have hpre : ofPort p t1 <+: txmAccepted c p (txmStep c s r) is :=
      ⟨ofPort p t2 ++ tffShown (tfxView ((txmRun c (txmStep c s r) is).fifo p)) ++
        tffMid (tfxView ((txmRun c (txmStep c s r) is).fifo p)) ++ (txmAccepted c p (txmStep c s r) is).drop RC, by
        simp only [← List.append_assoc]
        rw [hfr, List.take_append_drop]⟩
    rw [List.length_append] at lC
    refine ⟨List.prefix_of_prefix_length_le hpre (tlpWhole_prefix _) (by omega), ?_⟩
    obtain ⟨ins, hins⟩ := hpre
    refine ⟨ins, hins.symm, ?_⟩
    have hl := congrArg List.length hins
    rw [List.length_append] at hl
    have h2 : (ofPort p t2).length ≤ t2.length := by
      unfold ofPort
      rw [List.length_map]; exact List.length_filter_le _ _
    have b1 := Bool.toNat_le (tfxView ((txmRun c (txmStep c s r) is).fifo p)).outV
    have b2 := Bool.toNat_le (tfxView ((txmRun c (txmStep c s r) is).fifo p)).rdV
    omega

/-- **C110**: in every state a shown segment stays, unchanged, until it is taken. -/
theorem C110_stable (c : TxmCfg) (s : Txm) (i : TxmIn) (hr : i.rst = false) (h : i.ready = false) (hs : s.out.valid = true) :
    txmShown (txmStep c s i) = txmShown s := by
  have e : (txmStep c s i).out = outFifoStep txmOutW false s.out (txmSegV s) (txmSeg s) false := by
    show outFifoStep txmOutW i.rst s.out (txmSegV s) (txmSeg s) i.ready = _
    rw [hr, h]
  unfold txmShown
  rw [e]
  simp [outFifoStep, hs]

/-- **C110**, one segment per word: when nothing more is offered, no port is paused and the receiver is ready, all TLPs that
were accepted completely come out, after a number of cycles bounded by the size of the FIFOs. Missing for the full claim: more
than one segment per word. -/
theorem C110_drain_partial (c : TxmCfg) (h0 : 0 < c.mux.ports) (hc : TffOk c.fifo) (s : Txm) (r : TxmIn) (hr : r.rst = true)
    (is qs : List TxmIn) (hi : ∀ i ∈ is, i.rst = false) (hq : ∀ i ∈ qs, TxmQuiet c i)
    (hl : 21 * c.mux.ports * (c.fifo.words + 1) + 78 ≤ qs.length) :
    ∃ t : List (Nat × TlpSeg), txmTaken c (txmStep c s r) (is ++ qs) = t.map (·.2) ∧ (∀ x ∈ t, x.1 < c.mux.ports) ∧
      FramesWhole (fun x : TlpSeg => x.eop) t ∧
      ∀ p < c.mux.ports, ofPort p t = tlpWhole (txmAccepted c p (txmStep c s r) is) := by
  have hT := txmInv_run h0 hc is (txmInv_init c h0 hc s r hr) hi
  simp only [List.nil_append] at hT
  have hT2 := txmInv_run h0 hc qs hT fun i hi => (hq i hi).1
  have hw := txm_work_run h0 hc qs hT hq
  have hb := txm_work_bound hT
  obtain ⟨d1, d2⟩ := txm_done hT2 (by omega)
  have happ : ∀ s', txmTaken c s' (is ++ qs) = txmTaken c s' is ++ txmTaken c (txmRun c s' is) qs := by
    clear hT hT2 hw hb d1 d2 hi
    intro s'
    induction is generalizing s' with
    | nil => rfl
    | cons i is ih => simp only [List.cons_append, txmTaken, txmRun, ih, List.append_assoc]
  refine ⟨_, by rw [happ, d1], hT2.ports, hT2.whole, fun p hp => ?_⟩
  rw [d2 p hp]
  have : ∀ s', txmAccepted c p s' qs = [] := by
    clear hT hT2 hw hb d1 d2 hl happ
    intro s'
    induction qs generalizing s' with
    | nil => rfl
    | cons i qs ih =>
      have := ((hq i (by simp)).2.2 p hp).1
      simp [txmAccepted, this, ih fun i hi => hq i (by simp [hi])]
  rw [this, List.append_nil]

/-- **C111**, one segment per word: after a reset, for every history: the sequence numbers reported on `sel_tlp_seq`, with
their ports, are those of the first segments of the TLPs in the order in which the TLPs go out: one report for each TLP, none
else, the last one possibly still on its way. `t` is the merged stream, of which the receiver has taken a prefix. Missing for
the full claim: more than one segment per word. -/
theorem C111_status_partial (c : TxmCfg) (h0 : 0 < c.mux.ports) (hc : TffOk c.fifo) (s : Txm) (r : TxmIn) (hr : r.rst = true)
    (is : List TxmIn) (hi : ∀ i ∈ is, i.rst = false) :
    ∃ (t : List (Nat × TlpSeg)) (inside : List TlpSeg) (late : List (Nat × Nat)),
      t.map (·.2) = txmTaken c (txmStep c s r) is ++ inside ∧ inside.length ≤ 19 ∧ (∀ x ∈ t, x.1 < c.mux.ports) ∧
      FramesWhole (fun x : TlpSeg => x.eop) t ∧
      (∀ p < c.mux.ports, ofPort p t <+: txmAccepted c p (txmStep c s r) is) ∧
      txmReported c (txmStep c s r) is ++ late = (tmxStarts true t).map (fun x => (x.1, x.2.seq)) ∧ late.length ≤ 1 := by
  have hI := txmInv_init c h0 hc s r hr
  have hT := txmInv_run h0 hc is hI hi
  have hV : ∀ p, (txmStep c s r).seqV p = false := by intro p; show (!r.rst && _) = _; rw [hr]; rfl
  have hS : ∀ p, (txmStep c s r).selSeqV p = false := by intro p; show (!r.rst && _) = _; rw [hr]; rfl
  have hR := txm_report_run h0 hc is hI hi [] (by
    have : (List.range c.mux.ports).filter (txmStep c s r).seqV = [] := by
      rw [List.filter_eq_nil_iff]; intro p _; simp [hV p]
    simp [txmSeqOut, this, txmSeqNext, hS, tmxStarts])
  simp only [List.nil_append] at hT hR
  refine ⟨_, _, _, by rw [hT.out, List.append_assoc], ?_, hT.ports, hT.whole, fun p hp => ?_, hR, ?_⟩
  · rw [List.length_append, outQ, List.length_append, ringList_length]
    have hcnt := hT.count
    have hs : (if (txmRun c (txmStep c s r) is).sel then [txmSeg (txmRun c (txmStep c s r) is)] else []).length =
      (txmRun c (txmStep c s r) is).sel.toNat := by cases (txmRun c (txmStep c s r) is).sel <;> rfl
    have hv : (if (txmRun c (txmStep c s r) is).out.valid then [(txmRun c (txmStep c s r) is).out.out] else []).length ≤ 1 := by
      split <;> simp
    omega
  · obtain ⟨tkD, RC, R, hf⟩ := hT.fifo p hp
    exact ⟨tffShown (tfxView ((txmRun c (txmStep c s r) is).fifo p)) ++
      tffMid (tfxView ((txmRun c (txmStep c s r) is).fifo p)) ++ (txmAccepted c p (txmStep c s r) is).drop RC, by
      rw [← List.append_assoc, ← List.append_assoc, hf.ctrl.front, List.take_append_drop]⟩
  · unfold txmSeqNext; split <;> simp

/-- **C111**, one segment per word: after a reset, for every history: a TLP of port `p` whose report is shown after the cycles
`i` and `j` was started in cycle `i`, in which port `p` was not paused. -/
theorem C111_pause_partial (c : TxmCfg) (h0 : 0 < c.mux.ports) (hc : TffOk c.fifo) (s : Txm) (r : TxmIn) (hr : r.rst = true)
    (is : List TxmIn) (hi : ∀ i ∈ is, i.rst = false) (i j : TxmIn) (p : Nat)
    (h : (txmStep c (txmStep c (txmRun c (txmStep c s r) is) i) j).seqV p = true) : i.pause p = false := by
  have hT := txmInv_run h0 hc is (txmInv_init c h0 hc s r hr) hi
  generalize txmRun c (txmStep c s r) is = s' at *
  have h1 : (!j.rst && (txmStep c s' i).selSeqV p) = true := h
  simp only [Bool.and_eq_true] at h1
  have h2 : (!i.rst && (txmCommit c s' i && !s'.frame && decide (p = (txmArb c s' i).1))) = true := h1.2
  simp only [Bool.and_eq_true, decide_eq_true_eq, Bool.not_eq_true'] at h2
  have h3 := h2.2.1.1
  unfold txmCommit at h3
  simp only [Bool.and_eq_true] at h3
  rw [h2.2.2]
  exact txmArb_pause c h0 s' i hT.port h2.2.1.2 h3.1.1

/-- **C111**, one segment per word, for defined headers with at most 512 DWORDs of payload: after a reset, for every history:
the credit counts shown on `out_fc_*` in cycles in which they are not zero are the credits of the TLPs in the order in which
they go out, one count per TLP, the last one possibly still on its way. `t` is the merged stream, of which the receiver has
taken a prefix. Missing for the full claim: more than one segment per word, and longer TLPs, which are counted wrongly
(`C34_length_fails`). -/
theorem C111_credits_partial (c : TxmCfg) (h0 : 0 < c.mux.ports) (hc : TffOk c.fifo) (s : Txm) (r : TxmIn) (hr : r.rst = true)
    (is : List TxmIn) (hi : ∀ i ∈ is, i.rst = false)
    (hok : ∀ i ∈ is, ∀ p < c.mux.ports, i.valid p = true → (i.seg p).sop = true → TlpHdrOk (i.seg p).hdr) :
    ∃ (t : List (Nat × TlpSeg)) (inside : List TlpSeg) (late : List FcCount),
      t.map (·.2) = txmTaken c (txmStep c s r) is ++ inside ∧ inside.length ≤ 19 ∧ (∀ x ∈ t, x.1 < c.mux.ports) ∧
      (∀ p < c.mux.ports, ofPort p t <+: txmAccepted c p (txmStep c s r) is) ∧
      txmCounts c (txmStep c s r) is ++ late =
        ((t.map (·.2)).filter (·.sop)).map (fun x => tlpCredits x.hdr) ∧ late.length ≤ 1 := by
  have hI := txmInv_init c h0 hc s r hr
  have hT := txmInv_run h0 hc is hI hi
  have hF : (txmStep c s r).fc = {} := by
    show fcStep 1 (txmFcIn s r) = {}
    unfold fcStep txmFcIn
    rw [hr]; rfl
  have hS : (txmStep c s r).sel = false := by show (!r.rst && _) = _; rw [hr]; rfl
  have hR := txm_count_run h0 hc is hI hi (by simp) hok [] (by simp [txmFcOut, hF, txmFcNext, hS, txmCreditsOf])
  simp only [List.nil_append] at hT hR
  refine ⟨_, _, _, by rw [hT.out, List.append_assoc], ?_, hT.ports, fun p hp => ?_, hR, ?_⟩
  · rw [List.length_append, outQ, List.length_append, ringList_length]
    have hcnt := hT.count
    have hs : (if (txmRun c (txmStep c s r) is).sel then [txmSeg (txmRun c (txmStep c s r) is)] else []).length =
      (txmRun c (txmStep c s r) is).sel.toNat := by cases (txmRun c (txmStep c s r) is).sel <;> rfl
    have hv : (if (txmRun c (txmStep c s r) is).out.valid then [(txmRun c (txmStep c s r) is).out.out] else []).length ≤ 1 := by
      split <;> simp
    omega
  · obtain ⟨tkD, RC, R, hf⟩ := hT.fifo p hp
    exact ⟨tffShown (tfxView ((txmRun c (txmStep c s r) is).fifo p)) ++
      tffMid (tfxView ((txmRun c (txmStep c s r) is).fifo p)) ++ (txmAccepted c p (txmStep c s r) is).drop RC, by
      rw [← List.append_assoc, ← List.append_assoc, hf.ctrl.front, List.take_append_drop]⟩
  · unfold txmFcNext txmCreditsOf
    rw [List.length_map]
    refine Nat.le_trans (List.length_filter_le _ _) ?_
    split <;> simp

/-! ### Concrete cases -/

/-- Two ports, round robin, FIFOs of eight words. -/
def txmEx : TxmCfg := { mux := { ports := 2, segs := 1, roundRobin := true, lsb := true }, fifo := { addrW := 3, words := 8, mark := 4 } }

/-- A cycle in which port 0 offers `a` and port 1 offers `b`. -/
def txmC (a b : Option TlpSeg) (pause0 : Bool := false) : TxmIn :=
  { valid := fun p => if p = 0 then a.isSome else if p = 1 then b.isSome else false
    seg := fun p => if p = 0 then a.getD {} else b.getD {}
    pause := fun p => p == 0 && pause0
    ready := true }

/-- A cycle with reset. -/
def txmR : TxmIn := { rst := true, valid := fun _ => false, seg := fun _ => {}, ready := true }

/-- A segment with a number; a memory write of 5 DWORDs. -/
def txmS (n : Nat) (sop eop : Bool) : TlpSeg := { data := n, seq := n, hdr := 0x60000005 <<< 96, sop := sop, eop := eop }

/-- A TLP of two segments and one of a single segment on port 0, two TLPs on port 1; port 0 is paused at first. -/
def txmHist : List TxmIn :=
  [txmC (some (txmS 1 true false)) (some (txmS 11 true true)) true, txmC (some (txmS 2 false true)) (some (txmS 12 true false)) true,
   txmC none (some (txmS 13 false true)) true, txmC (some (txmS 3 true true)) none true, txmC none none true, txmC none none true, txmC none none true] ++
  List.replicate 9 (txmC none none)

example : TffOk txmEx.fifo ∧ (∀ i ∈ txmHist, i.rst = false) ∧
    (txmAccepted txmEx 0 (txmStep txmEx {} txmR) txmHist).map (·.data) = [1, 2, 3] ∧
    (txmAccepted txmEx 1 (txmStep txmEx {} txmR) txmHist).map (·.data) = [11, 12, 13] ∧
    (txmTaken txmEx (txmStep txmEx {} txmR) txmHist).map (·.data) = [11, 12, 13, 1, 2, 3] ∧
    txmReported txmEx (txmStep txmEx {} txmR) txmHist = [(1, 11), (1, 12), (0, 1), (0, 3)] ∧
    txmCounts txmEx (txmStep txmEx {} txmR) txmHist = List.replicate 4 { ph := 1, pd := 2 } := by
  refine ⟨⟨by decide, by decide⟩, ?_⟩
  decide +kernel

/-- The headers of the example are as `C111_credits_partial` needs them, and quiet cycles as in `C110_drain_partial` exist. -/
example : TlpHdrOk (txmS 1 true false).hdr ∧ TxmQuiet txmEx (txmC none none) := by
  refine ⟨⟨by decide, by decide +kernel, by decide +kernel⟩, rfl, rfl, fun p hp => ?_⟩
  have : p = 0 ∨ p = 1 := by have : p < 2 := hp; omega
  rcases this with rfl | rfl <;> exact ⟨rfl, rfl⟩

end Verif.Props
