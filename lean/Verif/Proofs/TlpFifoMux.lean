import Verif.Proofs.TlpFifoCtrl
import Verif.Proofs.TlpMuxStatus
import Verif.Proofs.OutFifo
import Verif.Spec.TlpFifoMux
/-! Lemmas on the TLP multiplexer with FIFOs: one clock cycle. -/
namespace Verif.Proofs
open Verif Verif.Model Verif.Spec

/-- The segment selected in one cycle, with its port. -/
def txmNew (c : TxmCfg) (s : Txm) (i : TxmIn) : List (Nat × TlpSeg) :=
  if txmCommit c s i then [((txmArb c s i).1, (s.fifo (txmArb c s i).1).outC)] else []

/-- Invariant: the segments `t` have been selected, `A p` has been accepted on port `p`, `T` has been taken. -/
structure TxmInv (c : TxmCfg) (s : Txm) (t : List (Nat × TlpSeg)) (A : Nat → List TlpSeg) (T : List TlpSeg) : Prop where
  port : s.port < c.mux.ports
  selPort : s.sel = true → s.selPort < c.mux.ports
  readEn : ∀ p, s.readEn p = (s.sel && decide (p = s.selPort))
  selSeqV : ∀ p, s.selSeqV p = true → s.sel = true ∧ p = s.selPort
  fifo : ∀ p < c.mux.ports, ∃ (tkD : List TlpSeg) (RC R : Nat),
    TfxInv c.fifo (s.fifo p) (s.readEn p) (A p) (ofPort p t) tkD RC R
  ports : ∀ x ∈ t, x.1 < c.mux.ports
  whole : FramesWhole (fun x : TlpSeg => x.eop) t
  frame : s.frame = !tmxEnd true t
  last : ∀ x, t.getLast? = some x → x.1 = s.port
  out : t.map (·.2) = T ++ outQ txmOutW s.out ++ (if s.sel then [txmSeg s] else [])
  selLast : s.sel = true → t.getLast? = some (s.selPort, txmSeg s)
  ring : RingOk txmOutW s.out.ring
  count : ringCount txmOutW s.out.ring + s.sel.toNat ≤ 18
  half : s.out.half = false → ringCount txmOutW s.out.ring ≤ 16

theorem txmArb_lt (c : TxmCfg) (h0 : 0 < c.mux.ports) (s : Txm) (i : TxmIn) (h : s.port < c.mux.ports) :
    (txmArb c s i).1 < c.mux.ports := by
  unfold txmArb
  split
  · exact h
  · exact (tmxScan_found c.mux h0 _ _ _ _ (tmxFirst_lt c.mux h0 _ h) h).1

/-- A TLP is started only on a port that is not paused. -/
theorem txmArb_pause (c : TxmCfg) (h0 : 0 < c.mux.ports) (s : Txm) (i : TxmIn) (h : s.port < c.mux.ports)
    (hf : s.frame = false) (ha : (txmArb c s i).2 = true) : i.pause (txmArb c s i).1 = false := by
  unfold txmArb at ha ⊢
  rw [hf] at ha ⊢
  simp only [Bool.false_eq_true, if_false] at ha ⊢
  have := (tmxScan_found c.mux h0 (fun p => !i.pause p && (s.fifo p).outVC) c.mux.ports _ _
    (tmxFirst_lt c.mux h0 _ h) h).2 ha
  simp only [Bool.and_eq_true, Bool.not_eq_true'] at this
  exact this.1

theorem txmSegV_eq {c : TxmCfg} {s : Txm} {t : List (Nat × TlpSeg)} {A : Nat → List TlpSeg} {T : List TlpSeg}
    (h : TxmInv c s t A T) : txmSegV s = s.sel := by
  unfold txmSegV
  cases hs : s.sel with
  | false => rfl
  | true =>
    obtain ⟨_, _, _, hf⟩ := h.fifo _ (h.selPort hs)
    have : s.readEn s.selPort = true := by rw [h.readEn, hs]; simp
    rw [hf.there this]; rfl

theorem txm_fifo {c : TxmCfg} (hc : TffOk c.fifo) {s : Txm} {t : List (Nat × TlpSeg)}
    {A : Nat → List TlpSeg} {T : List TlpSeg} (h : TxmInv c s t A T) (i : TxmIn) (hr : i.rst = false) (p : Nat)
    (hp : p < c.mux.ports) : ∃ (tkD : List TlpSeg) (RC R : Nat),
      TfxInv c.fifo ((txmStep c s i).fifo p) ((txmStep c s i).readEn p)
        (A p ++ (if txmReady s p && i.valid p then [i.seg p] else [])) (ofPort p (t ++ txmNew c s i)) tkD RC R := by
  obtain ⟨tkD, RC, R, hf⟩ := h.fifo p hp
  have hx : (txmFifoIn c s i p).readyC = true → (s.fifo p).outVC = true := by
    intro hh
    simp only [txmFifoIn, Bool.and_eq_true, decide_eq_true_eq] at hh
    have h2 := hh.1
    unfold txmCommit at h2
    rw [← hh.2] at h2
    simp only [Bool.and_eq_true] at h2
    exact h2.1.2
  have h1 := tfx_step hc hf (txmFifoIn c s i p) hr rfl hx
  have e1 : (txmStep c s i).readEn p = (txmFifoIn c s i p).readyC := by
    show (!i.rst && _) = _
    rw [hr]; rfl
  have e2 : ofPort p (t ++ txmNew c s i) = ofPort p t ++ (if (txmFifoIn c s i p).readyC then [(s.fifo p).outC] else []) := by
    rw [ofPort_append']
    congr 1
    unfold txmNew txmFifoIn ofPort
    cases txmCommit c s i with
    | false => rfl
    | true =>
      by_cases hq : p = (txmArb c s i).1
      · rw [← hq]; simp
      · have : ((txmArb c s i).1 == p) = false := by simpa using fun e => hq e.symm
        simp [hq, this]
  rw [e1, e2]
  exact ⟨_, _, _, h1⟩

theorem txmInv_step {c : TxmCfg} (h0 : 0 < c.mux.ports) (hc : TffOk c.fifo) {s : Txm} {t : List (Nat × TlpSeg)}
    {A : Nat → List TlpSeg} {T : List TlpSeg} (h : TxmInv c s t A T) (i : TxmIn) (hr : i.rst = false) :
    TxmInv c (txmStep c s i) (t ++ txmNew c s i)
      (fun p => A p ++ (if txmReady s p && i.valid p then [i.seg p] else [])) (T ++ (if i.ready then txmShown s else [])) := by
  have ha := txmArb_lt c h0 s i h.port
  have eSel : (txmStep c s i).sel = txmCommit c s i := by show (!i.rst && _) = _; rw [hr]; rfl
  have eSelP : (txmStep c s i).selPort = (txmArb c s i).1 := rfl
  have eRd : ∀ p, (txmStep c s i).readEn p = (txmCommit c s i && decide (p = (txmArb c s i).1)) := by
    intro p; show (!i.rst && _) = _; rw [hr]; rfl
  have eSeq : ∀ p, (txmStep c s i).selSeqV p = (txmCommit c s i && !s.frame && decide (p = (txmArb c s i).1)) := by
    intro p; show (!i.rst && _) = _; rw [hr]; rfl
  have ePort : (txmStep c s i).port = if txmCommit c s i then (txmArb c s i).1 else s.port := by
    show (if i.rst then _ else _) = _; rw [hr]; rfl
  have eFrame : (txmStep c s i).frame = if txmCommit c s i then !(s.fifo (txmArb c s i).1).outC.eop else s.frame := by
    show (if i.rst then _ else _) = _; rw [hr]; rfl
  have eOut : (txmStep c s i).out = outFifoStep txmOutW false s.out s.sel (txmSeg s) i.ready := by
    show outFifoStep txmOutW i.rst s.out (txmSegV s) (txmSeg s) i.ready = _
    rw [hr, txmSegV_eq h]
  have hFifo := txm_fifo hc h i hr
  have hlt : ringCount txmOutW s.out.ring < 2 ^ txmOutW := by
    have := h.count; unfold txmOutW at this ⊢; omega
  have hQ := outFifo_queue txmOutW s.out s.sel (txmSeg s) i.ready h.ring hlt
  obtain ⟨r, -, hrr, hok, hcnt, -⟩ := outFifo_ring_lt txmOutW s.out s.sel (txmSeg s) i.ready h.ring hlt
  have hpop := Bool.toNat_le (!ringEmpty s.out.ring && (!s.out.valid || i.ready))
  have hhalf : (txmStep c s i).out.half = decide (ringCount txmOutW s.out.ring ≥ 16) := rfl
  have hsel := Bool.toNat_le s.sel
  have hgoHalf : txmCommit c s i = true → s.out.half = false := by
    intro hh; unfold txmCommit at hh; simp only [Bool.and_eq_true, Bool.not_eq_true'] at hh; exact hh.2
  have hgoArb : txmCommit c s i = true → (txmArb c s i).2 = true := by
    intro hh; unfold txmCommit at hh; simp only [Bool.and_eq_true] at hh; exact hh.1.1
  -- the segment selected is the one that the data path shows next
  have hSeg : txmCommit c s i = true → txmSeg (txmStep c s i) = (s.fifo (txmArb c s i).1).outC := by
    intro hgo
    obtain ⟨tkD, RC, R, hf⟩ := hFifo _ ha
    have hl := tfx_last hf
    have hrd : (txmStep c s i).readEn (txmArb c s i).1 = true := by rw [eRd, hgo]; simp
    rw [hrd, ofPort_append', txmNew, hgo] at hl
    simp only [if_true, ofPort, List.filter_cons, beq_self_eq_true, List.filter_nil, List.map_cons, List.map_nil] at hl
    have := (List.append_inj_right' hl rfl)
    simp only [List.cons.injEq, and_true] at this
    exact this.symm
  have hEnd : tmxEnd true (t ++ txmNew c s i) =
      if txmCommit c s i then (s.fifo (txmArb c s i).1).outC.eop else tmxEnd true t := by
    unfold txmNew
    cases txmCommit c s i with
    | false => simp
    | true => simp [tmxEnd]
  refine ⟨?_, ?_, ?_, ?_, hFifo, ?_, ?_, ?_, ?_, ?_, ?_, ?_, ?_, ?_⟩
  · rw [ePort]; split
    · exact ha
    · exact h.port
  · intro _; rw [eSelP]; exact ha
  · intro p; rw [eRd, eSel, eSelP]
  · intro p hp
    rw [eSeq] at hp
    simp only [Bool.and_eq_true, decide_eq_true_eq] at hp
    rw [eSel, eSelP]
    exact ⟨hp.1.1, hp.2⟩
  · intro x hx
    rcases List.mem_append.mp hx with hx | hx
    · exact h.ports x hx
    · unfold txmNew at hx
      split at hx
      · simp only [List.mem_singleton] at hx; subst hx; exact ha
      · cases hx
  · refine framesWhole_append _ _ _ h.whole ?_ ?_
    · intro k a b h1 h2
      unfold txmNew at h2
      split at h2 <;> simp at h2
    · intro x y hx hy he
      have hfr : s.frame = true := by
        rw [h.frame, tmxEnd, hx]; simpa using he
      unfold txmNew at hy
      split at hy
      · simp only [List.head?_cons, Option.some.injEq] at hy
        subst hy
        rw [h.last x hx]
        simp [txmArb, hfr]
      · simp at hy
  · rw [eFrame, hEnd, h.frame]
    split <;> rfl
  · intro x hx
    rw [ePort]
    unfold txmNew at hx
    cases hgo : txmCommit c s i with
    | false =>
      rw [hgo] at hx
      simp only [Bool.false_eq_true, if_false, List.append_nil] at hx ⊢
      exact h.last x hx
    | true =>
      rw [hgo] at hx
      simp only [if_true, List.getLast?_append, List.getLast?_singleton, Option.some_or, Option.some.injEq] at hx ⊢
      rw [← hx]
  · rw [List.map_append, h.out, eOut, eSel]
    have e1 : (if i.ready then txmShown s else []) = if s.out.valid && i.ready then [s.out.out] else [] := by
      unfold txmShown; cases i.ready <;> cases s.out.valid <;> rfl
    rw [e1, List.append_assoc T, ← hQ]
    have e2 : (txmNew c s i).map (·.2) = if txmCommit c s i then [txmSeg (txmStep c s i)] else [] := by
      unfold txmNew
      cases hgo : txmCommit c s i with
      | false => rfl
      | true => simp [hSeg hgo]
    rw [e2]
    simp only [List.append_assoc]
  · intro hgo
    rw [eSel] at hgo
    rw [eSelP, hSeg hgo, txmNew, hgo]
    simp
  · rw [eOut, hrr]; exact hok
  · rw [eOut, hrr, eSel]
    have h1 := h.count
    cases hgo : txmCommit c s i with
    | false => simp only [Bool.toNat_false]; omega
    | true =>
      have := h.half (hgoHalf hgo)
      simp only [Bool.toNat_true]
      omega
  · intro hf
    rw [hhalf] at hf
    simp only [ge_iff_le, decide_eq_false_iff_not, Nat.not_le] at hf
    rw [eOut, hrr]
    omega

theorem txmInv_init (c : TxmCfg) (h0 : 0 < c.mux.ports) (hc : TffOk c.fifo) (s : Txm) (r : TxmIn) (hr : r.rst = true) :
    TxmInv c (txmStep c s r) [] (fun _ => []) [] := by
  have hO : (txmStep c s r).out = outFifoStep txmOutW true s.out (txmSegV s) (txmSeg s) r.ready := by
    show outFifoStep txmOutW r.rst _ _ _ _ = _; rw [hr]
  have eSel : (txmStep c s r).sel = false := by show (!r.rst && _) = _; rw [hr]; rfl
  have eRd : ∀ p, (txmStep c s r).readEn p = false := by intro p; show (!r.rst && _) = _; rw [hr]; rfl
  have eSeq : ∀ p, (txmStep c s r).selSeqV p = false := by intro p; show (!r.rst && _) = _; rw [hr]; rfl
  have ePort : (txmStep c s r).port = 0 := by show (if r.rst then _ else _) = _; rw [hr]; rfl
  have eFrame : (txmStep c s r).frame = false := by show (if r.rst then _ else _) = _; rw [hr]; rfl
  have hR := ring_reset txmOutW (outFifoStep txmOutW false s.out (txmSegV s) (txmSeg s) r.ready).ring
  have hRing : (txmStep c s r).out.ring = ringReset (outFifoStep txmOutW false s.out (txmSegV s) (txmSeg s) r.ready).ring := by
    rw [hO]; rfl
  have h1 := outFifo_rst txmOutW s.out (txmSegV s) (txmSeg s) r.ready
  rw [← hO] at h1
  refine ⟨by rw [ePort]; exact h0, by simp [eSel], by simp [eSel, eRd], by simp [eSeq], ?_, by simp, ?_, ?_, by simp, ?_,
    by simp [eSel], h1.1.ring, ?_, ?_⟩
  · intro p _
    refine ⟨[], 0, 0, ?_⟩
    rw [eRd]
    exact tfx_reset c.fifo hc _ _ hr
  · intro k a b ha; simp at ha
  · rw [eFrame]; rfl
  · rw [h1.2, eSel]; rfl
  · rw [hRing, hR.2.2, eSel]; simp
  · intro _; rw [hRing, hR.2.2]; omega

/-- The segments selected in a history. -/
def txmSelected (c : TxmCfg) : Txm → List TxmIn → List (Nat × TlpSeg)
  | _, [] => []
  | s, i :: is => txmNew c s i ++ txmSelected c (txmStep c s i) is

theorem txmInv_run {c : TxmCfg} (h0 : 0 < c.mux.ports) (hc : TffOk c.fifo) (is : List TxmIn) {s : Txm}
    {t : List (Nat × TlpSeg)} {A : Nat → List TlpSeg} {T : List TlpSeg} (h : TxmInv c s t A T) (hi : ∀ i ∈ is, i.rst = false) :
    TxmInv c (txmRun c s is) (t ++ txmSelected c s is) (fun p => A p ++ txmAccepted c p s is) (T ++ txmTaken c s is) := by
  induction is generalizing s t A T with
  | nil => simpa [txmRun, txmSelected, txmAccepted, txmTaken] using h
  | cons i is ih =>
    have h1 := ih (txmInv_step h0 hc h i (hi i (by simp))) (fun x hx => hi x (by simp [hx]))
    simpa [txmRun, txmSelected, txmAccepted, txmTaken, List.append_assoc] using h1

end Verif.Proofs
