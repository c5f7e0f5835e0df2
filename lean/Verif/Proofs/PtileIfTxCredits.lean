import Verif.Proofs.PtileIfTx
import Verif.Proofs.TlpFifoMuxStatus
/-! The P-Tile transmit adapter: read requests and their credits when the limit is presented in every cycle. -/
namespace Verif.Proofs
open Verif.Model Verif.Spec

/-- What is known of a segment of port `p`. -/
def PttHdr (p : Nat) (g : TlpSeg) : Prop :=
  (g.sop = true → TlpHdrOk g.hdr ∧ (p = 2 ↔ fcClass (g.hdr / 2 ^ 120) = .np)) ∧ (p = 2 → g.sop = true ∧ g.eop = true)

/-- A segment that starts a non-posted request. -/
def pttRead (g : TlpSeg) : Bool := g.sop && fcClass (g.hdr / 2 ^ 120) == .np

/-- Invariant of the counter for non-posted headers, `n` read requests having been selected, with the first limit `cap` and the
last limit `L`. -/
structure PttCr (cap L : Nat) (s : Ptt) (n : Nat) : Prop where
  capEq : s.nph.cap = cap
  limit : s.nph.limit = L % 2 ^ 12
  acc : s.nph.av + s.nph.inc + n = L + s.mux.fc.nph + (s.mux.sel && decide (s.mux.selPort = 2)).toNat
  top : s.nph.av + s.nph.inc ≤ cap
  fc : s.mux.fc.nph ≤ 1
  held : s.mux.fc.nph ≤ (ringList txmOutW s.mux.out.ring).countP pttRead
  room : s.haveNp = true → 4 ≤ s.nph.av + s.nph.inc
  safe : n ≤ L

theorem ptt_mem {c : TxmCfg} {s : Txm} {t : List (Nat × TlpSeg)} {A : Nat → List TlpSeg} {T : List TlpSeg}
    (h : TxmInv c s t A T) (hA : ∀ p < c.mux.ports, ∀ g ∈ A p, PttHdr p g) : ∀ x ∈ t, PttHdr x.1 x.2 := by
  intro x hx
  have hp := h.ports x hx
  obtain ⟨tkD, RC, R, hf⟩ := h.fifo x.1 hp
  refine hA x.1 hp x.2 ?_
  have h1 : x.2 ∈ ofPort x.1 t := by
    unfold ofPort
    exact List.mem_map.mpr ⟨x, List.mem_filter.mpr ⟨hx, by simp⟩, rfl⟩
  refine List.mem_of_mem_take (i := RC) ?_
  rw [← hf.ctrl.front]
  simp [h1]

theorem ptt_fc {f : TffCfg} {s : Txm} {t : List (Nat × TlpSeg)} {A : Nat → List TlpSeg} {T : List TlpSeg}
    (h : TxmInv (pttMux f) s t A T) (ht : ∀ x ∈ t, PttHdr x.1 x.2) (i : TxmIn) (hr : i.rst = false) :
    (txmStep (pttMux f) s i).fc.nph = (s.sel && decide (s.selPort = 2)).toNat := by
  have e : (txmStep (pttMux f) s i).fc = if s.sel && (txmSeg s).sop then tlpCredits (txmSeg s).hdr else {} := by
    show fcStep 1 (txmFcIn s i) = _
    unfold txmFcIn
    rw [hr, txmSegV_eq h]
    refine fcStep_one _ _ _ fun h1 h2 => ?_
    exact ((ht _ (List.mem_of_getLast? (h.selLast h1))).1 h2).1
  rw [e]
  cases hs : s.sel with
  | false => rfl
  | true =>
    have hx := ht _ (List.mem_of_getLast? (h.selLast hs))
    cases hsop : (txmSeg s).sop with
    | false =>
      have : s.selPort ≠ 2 := by
        intro h2
        have := (hx.2 h2).1
        rw [hsop] at this; cases this
      simp [this]
    | true =>
      have hc := (hx.1 hsop).2
      by_cases h2 : s.selPort = 2
      · have := hc.mp h2
        simp only at this
        simp [h2, tlpCredits, this]
      · have hn : fcClass ((txmSeg s).hdr / 2 ^ 120) ≠ .np := fun hh => h2 (hc.mpr hh)
        have hz : (tlpCredits (txmSeg s).hdr).nph = 0 := by
          unfold tlpCredits
          cases hcl : fcClass ((txmSeg s).hdr / 2 ^ 120) with
          | np => exact absurd hcl hn
          | p => rfl
          | cpl => rfl
        simp [h2, hz]

/-- The number of segments of port 2 in a stream. -/
def pttN (t : List (Nat × TlpSeg)) : Nat := (ofPort 2 t).length

theorem pttN_new (f : TffCfg) (s : Txm) (i : TxmIn) (t : List (Nat × TlpSeg)) :
    pttN (t ++ txmNew (pttMux f) s i) =
      pttN t + (txmCommit (pttMux f) s i && decide ((txmArb (pttMux f) s i).1 = 2)).toNat := by
  unfold pttN
  rw [ofPort_append', List.length_append]
  congr 1
  unfold txmNew
  cases txmCommit (pttMux f) s i with
  | false => rfl
  | true =>
    by_cases h2 : (txmArb (pttMux f) s i).1 = 2
    · simp [ofPort, h2]
    · simp [ofPort, h2]

/-- A read request is selected only when there is credit. -/
theorem ptt_go {f : TffCfg} {s : Ptt} {t : List (Nat × TlpSeg)} {A : Nat → List TlpSeg} {T : List TlpSeg}
    (h : TxmInv (pttMux f) s.mux t A T) (ht : ∀ x ∈ t, PttHdr x.1 x.2) (i : PttIn)
    (hgo : txmCommit (pttMux f) s.mux (pttMuxIn s i) = true) (h2 : (txmArb (pttMux f) s.mux (pttMuxIn s i)).1 = 2) :
    s.haveNp = true := by
  have hf : s.mux.frame = false := by
    cases hf : s.mux.frame with
    | false => rfl
    | true =>
      have hp : s.mux.port = 2 := by
        unfold txmArb at h2; rw [hf] at h2; exact h2
      have he := h.frame
      rw [hf, tmxEnd] at he
      cases hl : t.getLast? with
      | none => rw [hl] at he; simp at he
      | some x =>
        rw [hl] at he
        have hx := (ht x (List.mem_of_getLast? hl)).2 (by rw [h.last x hl, hp])
        simp [hx.2] at he
  have ha : (txmArb (pttMux f) s.mux (pttMuxIn s i)).2 = true := by
    unfold txmCommit at hgo; simp only [Bool.and_eq_true] at hgo; exact hgo.1.1
  have := txmArb_pause (pttMux f) (by show 0 < 4; omega) s.mux (pttMuxIn s i) h.port hf ha
  rw [h2] at this
  have h3 : (!s.haveNp) = false := this
  simpa using h3

/-- A segment pushed is in the output FIFO. -/
theorem ptt_pushed {α : Type} (aw : Nat) (o : OutFifo α) (x : α) (rdy : Bool) (h : RingOk aw o.ring)
    (hlt : ringCount aw o.ring < 2 ^ aw) : x ∈ ringList aw (outFifoStep aw false o true x rdy).ring := by
  obtain ⟨r, -, hr, -, -, hl⟩ := outFifo_ring_lt aw o true x rdy h hlt
  have he := ring_empty aw _ h
  rw [hr]
  cases hp : (!ringEmpty o.ring && (!o.valid || rdy)) with
  | false =>
    rw [hp] at hl
    simp only [if_true, Bool.false_eq_true, if_false, List.nil_append] at hl
    rw [← hl]; simp
  | true =>
    rw [hp] at hl
    simp only [if_true] at hl
    simp only [he, Bool.and_eq_true, Bool.not_eq_true', decide_eq_false_iff_not] at hp
    have hpos : 0 < ringCount aw o.ring := by omega
    have hpop := (ring_pop aw o.ring h hpos).2.2
    rw [hpop, List.cons_append, List.singleton_append] at hl
    rw [← (List.cons.inj hl).2]; simp

theorem ptt_isRead {t : List (Nat × TlpSeg)} (ht : ∀ x ∈ t, PttHdr x.1 x.2) (x : Nat × TlpSeg) (hx : x ∈ t) :
    pttRead x.2 = decide (x.1 = 2) := by
  have h := ht x hx
  unfold pttRead
  cases hs : x.2.sop with
  | false =>
    have : x.1 ≠ 2 := by
      intro h2
      have := (h.2 h2).1
      rw [hs] at this; cases this
    simp [this]
  | true =>
    have := (h.1 hs).2
    by_cases h2 : x.1 = 2
    · simp [h2, this.mp h2]
    · have hn : fcClass (x.2.hdr / 2 ^ 120) ≠ .np := fun hh => h2 (this.mpr hh)
      simp [h2, hn]

theorem ptt_count {t : List (Nat × TlpSeg)} (ht : ∀ x ∈ t, PttHdr x.1 x.2) : (t.map (·.2)).countP pttRead = pttN t := by
  unfold pttN ofPort
  rw [List.length_map, ← List.countP_eq_length_filter, List.countP_map]
  refine List.countP_congr fun x hx => ?_
  have := ptt_isRead ht x hx
  simp only [Function.comp, this, decide_eq_true_eq, beq_iff_eq]

theorem ptt_readsT (T : List TlpSeg) : pttReads (T.map pttWord) = T.countP pttRead := by
  unfold pttReads
  rw [← List.countP_eq_length_filter, List.countP_map]; rfl

/-- The read requests sent, those being counted and the one being selected are among those selected. -/
theorem ptt_sum {f : TffCfg} {cap L : Nat} {s : Ptt} {t : List (Nat × TlpSeg)} {A : Nat → List TlpSeg} {T : List TlpSeg}
    (h : TxmInv (pttMux f) s.mux t A T) (ht : ∀ x ∈ t, PttHdr x.1 x.2) (g : PttCr cap L s (pttN t)) :
    pttReads (T.map pttWord) + s.mux.fc.nph + (s.mux.sel && decide (s.mux.selPort = 2)).toNat ≤ pttN t := by
  rw [← ptt_count ht, h.out, List.countP_append, List.countP_append, ptt_readsT]
  have h1 := g.held
  have h2 : (outQ txmOutW s.mux.out).countP pttRead ≥ (ringList txmOutW s.mux.out.ring).countP pttRead := by
    unfold outQ; rw [List.countP_append]; omega
  have h3 : (if s.mux.sel then [txmSeg s.mux] else []).countP pttRead =
      (s.mux.sel && decide (s.mux.selPort = 2)).toNat := by
    cases hs : s.mux.sel with
    | false => rfl
    | true =>
      have := ptt_isRead ht _ (List.mem_of_getLast? (h.selLast hs))
      simp only [if_true, List.countP_cons, List.countP_nil, this, Bool.true_and, Nat.zero_add]
      by_cases h2 : s.mux.selPort = 2 <;> simp [h2]
  omega

theorem pttCr_step {f : TffCfg} {cap L : Nat} (hc0 : 0 < cap) (hcap : cap < 2 ^ 12) {s : Ptt} {t : List (Nat × TlpSeg)}
    {A : Nat → List TlpSeg} {T : List TlpSeg} (h : TxmInv (pttMux f) s.mux t A T) (ht : ∀ x ∈ t, PttHdr x.1 x.2)
    (g : PttCr cap L s (pttN t)) (i : PttIn) (L' : Nat) (hr : i.rst = false) (hx : i.idx = 1) (hl : i.limit = L' % 2 ^ 12)
    (hmono : L ≤ L') (henv : L' ≤ cap + pttReads (T.map pttWord)) :
    PttCr cap L' (pttStep f s i) (pttN (t ++ txmNew (pttMux f) s.mux (pttMuxIn s i))) := by
  have hsum := ptt_sum h ht g
  have hfc : (pttStep f s i).mux.fc.nph = (s.mux.sel && decide (s.mux.selPort = 2)).toNat := ptt_fc h ht _ hr
  have hsel : (pttStep f s i).mux.sel = txmCommit (pttMux f) s.mux (pttMuxIn s i) := by
    show (!i.rst && _) = _; rw [hr]; rfl
  have hsp : (pttStep f s i).mux.selPort = (txmArb (pttMux f) s.mux (pttMuxIn s i)).1 := rfl
  have hhave : (pttStep f s i).haveNp = decide (s.nph.av > 4) := rfl
  have hgo := ptt_go h ht i
  have hN := pttN_new f s.mux (pttMuxIn s i) t
  obtain ⟨gc, gl, ga, gt, gf, gh, gr, gs⟩ := g
  have hst : (pttStep f s i).nph =
      { cap := cap, limit := L' % 2 ^ 12, inc := L' - L, av := s.nph.av + s.nph.inc - s.mux.fc.nph } := by
    show ptileStep 12 s.nph (pttFcIn i 1 s.mux.fc.nph) = _
    unfold ptileStep pttFcIn
    simp only [hr, hx, hl, Bool.false_eq_true, if_false, beq_self_eq_true, if_true, gc, gl, Nat.mod_mod]
    have h1 : (L' % 2 ^ 12 + 2 ^ 12 - L % 2 ^ 12) % 2 ^ 12 = L' - L := by omega
    have h2 : (if cap = 0 then L' % 2 ^ 12 else cap) = cap := by rw [if_neg (by omega)]
    have h3 : s.mux.fc.nph % 2 ^ 12 = s.mux.fc.nph := Nat.mod_eq_of_lt (by omega)
    have h4 : ptileAv s.nph (s.mux.fc.nph) = s.nph.av + s.nph.inc - s.mux.fc.nph := by
      unfold ptileAv
      simp only [gc]
      split
      · omega
      · split <;> omega
    rw [h1, h2, h3, h4]
  have hb := Bool.toNat_le (s.mux.sel && decide (s.mux.selPort = 2))
  have hs2 : (txmCommit (pttMux f) s.mux (pttMuxIn s i) && decide ((txmArb (pttMux f) s.mux (pttMuxIn s i)).1 = 2)) = true →
      4 ≤ s.nph.av + s.nph.inc := by
    intro hh
    simp only [Bool.and_eq_true, decide_eq_true_eq] at hh
    exact gr (hgo hh.1 hh.2)
  refine ⟨by rw [hst], by rw [hst], ?_, ?_, ?_, ?_, ?_, ?_⟩
  · rw [hst, hfc, hsel, hsp, hN]
    simp only
    omega
  · rw [hst]; simp only; omega
  · rw [hfc]; exact hb
  · rw [hfc]
    cases hs : s.mux.sel with
    | false => exact Nat.zero_le _
    | true =>
      by_cases h2 : s.mux.selPort = 2
      · have hlt : ringCount txmOutW s.mux.out.ring < 2 ^ txmOutW := by
          have := h.count; unfold txmOutW at this ⊢; omega
        have hm := ptt_pushed txmOutW s.mux.out (txmSeg s.mux) s.rdy2 h.ring hlt
        have eOut : (pttStep f s i).mux.out = outFifoStep txmOutW false s.mux.out true (txmSeg s.mux) s.rdy2 := by
          show outFifoStep txmOutW i.rst s.mux.out (txmSegV s.mux) (txmSeg s.mux) s.rdy2 = _
          rw [hr, txmSegV_eq h, hs]
        rw [eOut]
        have hrd := ptt_isRead ht _ (List.mem_of_getLast? (h.selLast hs))
        have : 0 < (ringList txmOutW (outFifoStep txmOutW false s.mux.out true (txmSeg s.mux) s.rdy2).ring).countP pttRead :=
          List.countP_pos_iff.mpr ⟨_, hm, by rw [hrd]; simp [h2]⟩
        simp only [h2, decide_true, Bool.and_self, Bool.toNat_true]
        omega
      · simp [h2]
  · rw [hhave, hst]
    simp only [decide_eq_true_eq]
    omega
  · rw [hN]
    cases hh : (txmCommit (pttMux f) s.mux (pttMuxIn s i) && decide ((txmArb (pttMux f) s.mux (pttMuxIn s i)).1 = 2)) with
    | false => simp only [Bool.toNat_false]; omega
    | true =>
      have := hs2 hh
      simp only [Bool.toNat_true]
      omega

/-- The segments that port `p` gets are as `PttHdr` says. -/
theorem ptt_hdr {i : PttIn} (h : PttHeadersOk i) (p : Nat) (hp : p < 4) (hv : i.valid p = true) :
    PttHdr p (pttConv p (i.seg p)) := by
  by_cases h2 : p = 2
  · subst h2
    have := h 2 hp hv (Or.inl rfl)
    refine ⟨fun _ => ?_, fun _ => ⟨rfl, rfl⟩⟩
    simpa [pttConv] using this
  · refine ⟨fun hs => ?_, fun h' => absurd h' h2⟩
    have e : (pttConv p (i.seg p)).sop = (i.seg p).sop ∧ (pttConv p (i.seg p)).hdr = (i.seg p).hdr := by simp [pttConv, h2]
    rw [e.1] at hs
    rw [e.2]
    exact h p hp hv (Or.inr hs)

theorem ptt_A {i : PttIn} (h : PttHeadersOk i) {s : Ptt} {A : Nat → List TlpSeg} (hA : ∀ p < 4, ∀ g ∈ A p, PttHdr p g) :
    ∀ p < 4, ∀ g ∈ A p ++ (if txmReady s.mux p && (pttMuxIn s i).valid p then [(pttMuxIn s i).seg p] else []), PttHdr p g := by
  intro p hp g hg
  rcases List.mem_append.mp hg with hg | hg
  · exact hA p hp g hg
  · split at hg
    · rename_i hv
      simp only [Bool.and_eq_true] at hv
      rw [List.mem_singleton.mp hg]
      exact ptt_hdr h p hp hv.2
    · cases hg

/-- The first cycle after a reset. -/
theorem pttCr_first (f : TffCfg) (L : Nat) (hL : L < 2 ^ 12) (s : Ptt) (r i : PttIn) (hrr : r.rst = true) (hr : i.rst = false)
    (hx : i.idx = 1) (hl : i.limit = L) :
    txmNew (pttMux f) (pttStep f s r).mux (pttMuxIn (pttStep f s r) i) = [] ∧ PttCr L L (pttStep f (pttStep f s r) i) 0 := by
  have hv : ∀ p, ((pttStep f s r).mux.fifo p).outVC = false := by intro p; show (!r.rst && _) = _; rw [hrr]; rfl
  have hgo : txmCommit (pttMux f) (pttStep f s r).mux (pttMuxIn (pttStep f s r) i) = false := by
    unfold txmCommit; rw [hv]; simp
  have hs : (pttStep f s r).mux.sel = false := by show (!r.rst && _) = _; rw [hrr]; rfl
  have hf : (pttStep f s r).mux.fc = {} := by
    show fcStep 1 (txmFcIn s.mux (pttMuxIn s r)) = _
    have : (txmFcIn s.mux (pttMuxIn s r)).rst = true := hrr
    unfold fcStep; rw [this]; rfl
  have hn : (pttStep f s r).nph = {} := by
    show ptileStep 12 s.nph (pttFcIn r 1 s.mux.fc.nph) = _
    have : (pttFcIn r 1 s.mux.fc.nph).rst = true := hrr
    unfold ptileStep; rw [this]; rfl
  have hsel : (pttStep f (pttStep f s r) i).mux.sel = false := by
    show (!i.rst && txmCommit (pttMux f) (pttStep f s r).mux (pttMuxIn (pttStep f s r) i)) = _
    rw [hgo]; simp
  have hfc : (pttStep f (pttStep f s r) i).mux.fc.nph = 0 := by
    show (fcStep 1 (txmFcIn (pttStep f s r).mux (pttMuxIn (pttStep f s r) i))).nph = 0
    have e : txmSegV (pttStep f s r).mux = false := by unfold txmSegV; rw [hs]; rfl
    unfold txmFcIn
    rw [e]
    have : (pttMuxIn (pttStep f s r) i).rst = false := hr
    rw [this, fcStep_one _ false _ (by simp)]
    rfl
  have hnp : (pttStep f (pttStep f s r) i).nph = { cap := L, limit := L, inc := L, av := 0 } := by
    show ptileStep 12 (pttStep f s r).nph (pttFcIn i 1 (pttStep f s r).mux.fc.nph) = _
    rw [hn, hf]
    unfold ptileStep pttFcIn
    have hlm : L % 2 ^ 12 = L := Nat.mod_eq_of_lt hL
    simp only [hr, hx, hl, Bool.false_eq_true, if_false, beq_self_eq_true, if_true, hlm, Nat.sub_zero, Nat.add_mod_right]
    rfl
  have hh : (pttStep f (pttStep f s r) i).haveNp = false := by
    show decide ((pttStep f s r).nph.av > 4) = false
    rw [hn]; rfl
  refine ⟨by unfold txmNew; rw [hgo]; rfl, by rw [hnp], by rw [hnp]; exact (Nat.mod_eq_of_lt hL).symm, ?_, by rw [hnp]; simp,
    by rw [hfc]; omega, by rw [hfc]; omega, ?_, by omega⟩
  · rw [hnp, hfc, hsel]; simp
  · rw [hh]; intro h; cases h

theorem pttRun_snoc (f : TffCfg) (is : List PttIn) (i : PttIn) (s : Ptt) :
    pttRun f s (is ++ [i]) = pttStep f (pttRun f s is) i := by
  induction is generalizing s with
  | nil => rfl
  | cons y is ih => exact ih (pttStep f s y)

theorem pttSent_snoc (f : TffCfg) (is : List PttIn) (i : PttIn) (s : Ptt) :
    pttSent f s (is ++ [i]) =
      pttSent f s is ++ (if (pttRun f s (is ++ [i])).valid then [(pttRun f s (is ++ [i])).seg] else []) := by
  induction is generalizing s with
  | nil => simp [pttSent, pttRun]
  | cons y is ih =>
    rw [List.cons_append, pttSent, ih, pttSent, List.append_assoc]; rfl

/-- After the first cycles of a history that keeps to the limits `l`. -/
theorem pttCr_run {f : TffCfg} (hc : TffOk f) (l : Nat → Nat) (h0 : 0 < l 0) (hl : l 0 < 2 ^ 12) (s : Ptt) (r : PttIn)
    (hr : r.rst = true) (is : List PttIn)
    (hi : ∀ k i, is[k]? = some i → i.rst = false ∧ i.idx = 1 ∧ i.limit = l k % 2 ^ 12 ∧ PttHeadersOk i)
    (hm : ∀ k, l k ≤ l (k + 1))
    (he : ∀ k < is.length, l k ≤ l 0 + pttReads (pttSent f (pttStep f s r) (is.take k))) (n : Nat) (hn : n < is.length) :
    ∃ (t : List (Nat × TlpSeg)) (A : Nat → List TlpSeg) (T : List TlpSeg),
      pttSent f (pttStep f s r) (is.take (n + 1)) = T.map pttWord ∧
      TxmInv (pttMux f) (pttRun f (pttStep f s r) (is.take (n + 1))).mux t A T ∧ (∀ p < 4, ∀ g ∈ A p, PttHdr p g) ∧
      PttCr (l 0) (l n) (pttRun f (pttStep f s r) (is.take (n + 1))) (pttN t) := by
  induction n with
  | zero =>
    have hg : is[0]? = some is[0] := List.getElem?_eq_getElem hn
    obtain ⟨h1, h2, h3, h4⟩ := hi 0 _ hg
    rw [Nat.mod_eq_of_lt hl] at h3
    have hI := txmInv_init (pttMux f) (by show 0 < 4; omega) hc s.mux (pttMuxIn s r) hr
    have hS := txmInv_step (by show 0 < 4; omega) hc hI (pttMuxIn (pttStep f s r) is[0]) h1
    obtain ⟨e1, e2⟩ := pttCr_first f (l 0) hl s r is[0] hr h1 h2 h3
    have hA := ptt_A (s := pttStep f s r) (A := fun _ => []) h4 (by intro p _ g hg; cases hg)
    have e1' : [] ++ txmNew (pttMux f) (txmStep (pttMux f) s.mux (pttMuxIn s r)) (pttMuxIn (pttStep f s r) is[0]) = [] := e1
    rw [e1'] at hS
    have et : is.take (0 + 1) = [is[0]] := by rw [List.take_add_one, hg]; simp
    rw [et]
    refine ⟨_, _, _, ?_, hS, hA, e2⟩
    rw [ptt_sent f [is[0]] _ (by intro i hi; rw [List.mem_singleton.mp hi]; exact h1)]
    simp only [pttIns, txmTaken, List.append_nil, List.nil_append]
    rfl
  | succ n ih =>
    obtain ⟨t, A, T, k0, k1, k2, k3⟩ := ih (by omega)
    have hg : is[n + 1]? = some is[n + 1] := List.getElem?_eq_getElem hn
    obtain ⟨h1, h2, h3, h4⟩ := hi (n + 1) _ hg
    have et : is.take (n + 1 + 1) = is.take (n + 1) ++ [is[n + 1]] := by rw [List.take_add_one, hg]; rfl
    have henv := he (n + 1) hn
    rw [k0] at henv
    have hrun := pttRun_snoc f (is.take (n + 1)) is[n + 1] (pttStep f s r)
    have hsent := pttSent_snoc f (is.take (n + 1)) is[n + 1] (pttStep f s r)
    rw [et]
    rw [hrun] at hsent
    rw [hrun]
    generalize hs' : pttRun f (pttStep f s r) (is.take (n + 1)) = s' at *
    refine ⟨_, _, _, ?_, txmInv_step (by show 0 < 4; omega) hc k1 (pttMuxIn s' is[n + 1]) h1, ptt_A h4 k2,
      pttCr_step h0 hl k1 (ptt_mem k1 k2) k3 is[n + 1] (l (n + 1)) h1 h2 h3 (hm n) henv⟩
    rw [hsent, k0, List.map_append]
    congr 1
    have := ptt_sent f [is[n + 1]] s' (by intro i hi; rw [List.mem_singleton.mp hi]; exact h1)
    simp only [pttSent, pttIns, txmTaken, List.append_nil] at this
    exact this

end Verif.Proofs
