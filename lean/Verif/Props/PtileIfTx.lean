import Verif.Props.TlpFifoMux
import Verif.Proofs.PtileIfTxCredits
/-! C112 to C114: TLPs go out without gaps, credits, progress; the P-Tile transmit adapter, one segment per word. -/
namespace Verif.Props
open Verif Verif.Model Verif.Spec Verif.Proofs

/-- **C112**, multiplexer with one segment per word: after a reset, for every history: when the last segment taken does not end
its TLP, the next one is shown. So the output never pauses in the middle of a TLP, whatever is offered or paused. -/
theorem C112_gapless_partial (c : TxmCfg) (h0 : 0 < c.mux.ports) (hc : TffOk c.fifo) (s : Txm) (r : TxmIn) (hr : r.rst = true)
    (is : List TxmIn) (hi : ∀ i ∈ is, i.rst = false) (x : TlpSeg)
    (hx : (txmTaken c (txmStep c s r) is).getLast? = some x) (he : x.eop = false) :
    ∃ y, txmShown (txmRun c (txmStep c s r) is) = [y] := by
  have hT := txgInv_run h0 hc is (txmInv_init c h0 hc s r hr) (txgInv_init c s r hr) hi
  simp only [List.nil_append] at hT
  exact ⟨_, by rw [txmShown, hT.gap x hx he]; rfl⟩

/-- **C112**, P-Tile with one segment: in every state: `tx_st_valid` is set only if `tx_st_ready` was set three cycles
before. -/
theorem C112_latency_partial (f : TffCfg) (s : Ptt) (i j k : PttIn)
    (h : (pttStep f (pttStep f (pttStep f s i) j) k).valid = true) : i.ready = true := by
  have h1 : (!k.rst && ((pttStep f (pttStep f s i) j).rdy2 && _)) = true := h
  simp only [Bool.and_eq_true] at h1
  have h2 : (!j.rst && (pttStep f s i).rdy1) = true := h1.2.1
  simp only [Bool.and_eq_true] at h2
  have h3 : (!i.rst && i.ready) = true := h2.2
  simp only [Bool.and_eq_true] at h3
  exact h3.2

/-- **C112**, P-Tile with one segment: after a reset, for every history: when the last word sent does not end its TLP and
`tx_st_ready` was set three cycles before, the next word is sent: `tx_st_valid` does not go low in the middle of a TLP. -/
theorem C112_ptile_gapless_partial (f : TffCfg) (hc : TffOk f) (s : Ptt) (r : PttIn) (hr : r.rst = true) (is : List PttIn)
    (i j k : PttIn) (hi : ∀ x ∈ is ++ [i, j, k], x.rst = false) (x : TlpSeg)
    (hx : (pttSent f (pttStep f s r) (is ++ [i, j])).getLast? = some x) (he : x.eop = false) (hready : i.ready = true) :
    (pttRun f (pttStep f s r) (is ++ [i, j, k])).valid = true := by
  have hi2 : ∀ x ∈ is ++ [i, j], x.rst = false := fun x hx => hi x (by
    simp only [List.mem_append, List.mem_cons, List.not_mem_nil, or_false] at hx ⊢
    rcases hx with h | h | h <;> simp [h])
  have happ : ∀ (a b : List PttIn) (s' : Ptt), pttRun f s' (a ++ b) = pttRun f (pttRun f s' a) b := by
    intro a
    induction a with
    | nil => intro b s'; rfl
    | cons y a ih => intro b s'; exact ih b (pttStep f s' y)
  have hT := txgInv_run (by show 0 < 4; omega) hc (pttIns f (pttStep f s r) (is ++ [i, j]))
    (txmInv_init (pttMux f) (by show 0 < 4; omega) hc s.mux (pttMuxIn s r) hr)
    (txgInv_init (pttMux f) s.mux (pttMuxIn s r) hr) (ptt_rst f _ _ hi2)
  simp only [List.nil_append] at hT
  rw [ptt_sent f _ _ hi2, List.getLast?_map] at hx
  obtain ⟨g, hg, hgx⟩ := Option.map_eq_some_iff.mp hx
  have hv := hT.gap g hg (by rw [← hgx] at he; exact he)
  have hm := ptt_mux f (is ++ [i, j]) (pttStep f s r)
  have hv' : (pttRun f (pttStep f s r) (is ++ [i, j])).mux.out.valid = true := by rw [hm]; exact hv
  have ri := hi i (by simp)
  have rj := hi j (by simp)
  have rk := hi k (by simp)
  rw [happ] at hv' ⊢
  generalize pttRun f (pttStep f s r) is = s' at hv' ⊢
  show (!k.rst && ((pttStep f (pttStep f s' i) j).rdy2 && (pttStep f (pttStep f s' i) j).mux.out.valid)) = true
  have hv2 : (pttStep f (pttStep f s' i) j).mux.out.valid = true := hv'
  rw [rk, hv2]
  show (true && ((!j.rst && (!i.rst && i.ready)) && true)) = true
  rw [rj, ri, hready]
  rfl

/-- **C112**, P-Tile with one segment: after a reset, for every history: what is sent is a merge `t` of the streams of the
four ports that does not mix TLPs. Of each port, `t` holds the words to be sent for segments of TLPs that were accepted
completely, in order and unchanged. -/
theorem C112_merge_partial (f : TffCfg) (hc : TffOk f) (s : Ptt) (r : PttIn) (hr : r.rst = true) (is : List PttIn)
    (hi : ∀ i ∈ is, i.rst = false) :
    ∃ t : List (Nat × TlpSeg), pttSent f (pttStep f s r) is = t.map (·.2) ∧ (∀ x ∈ t, x.1 < 4) ∧
      FramesWhole (fun x : TlpSeg => x.eop) t ∧
      ∀ p < 4, ofPort p t <+: (pttWhole p (pttAccepted f p (pttStep f s r) is)).map (pttExpect p) := by
  obtain ⟨t, h1, h2, h3, h4⟩ := C110_merge_partial (pttMux f) (by show 0 < 4; omega) hc s.mux (pttMuxIn s r) hr
    (pttIns f (pttStep f s r) is) (ptt_rst f is _ hi)
  refine ⟨t.map fun x => (x.1, pttWord x.2), ?_, ?_, ?_, fun p hp => ?_⟩
  · rw [ptt_sent f is _ hi]
    show (txmTaken (pttMux f) (txmStep (pttMux f) s.mux (pttMuxIn s r)) _).map pttWord = _
    rw [h1, List.map_map, List.map_map]; rfl
  · intro x hx
    obtain ⟨y, hy, rfl⟩ := List.mem_map.mp hx
    exact h2 y hy
  · intro k a b ha hb
    rw [List.getElem?_map] at ha hb
    obtain ⟨a', ha', rfl⟩ := Option.map_eq_some_iff.mp ha
    obtain ⟨b', hb', rfl⟩ := Option.map_eq_some_iff.mp hb
    exact h3 k a' b' ha' hb'
  · have h5 := (h4 p hp).1
    have e : ofPort p (t.map fun x => (x.1, pttWord x.2)) = (ofPort p t).map pttWord := by
      unfold ofPort
      rw [List.filter_map, List.map_map, List.map_map]; rfl
    rw [show txmStep (pttMux f) s.mux (pttMuxIn s r) = (pttStep f s r).mux from rfl, ptt_accepted, ptt_whole] at h5
    rw [e]
    obtain ⟨m, hm⟩ := h5
    refine ⟨m.map pttWord, ?_⟩
    rw [← List.map_append, hm, List.map_map]
    exact List.map_congr_left fun g _ => ptt_word p g

/-- **C114**, P-Tile with one segment: after a reset and any history `is`: when nothing more is offered, the P-Tile is ready and
the credit outputs show credit, all TLPs that were accepted completely are sent, whole and those of each port in order, after a
number of cycles bounded by the size of the FIFOs. Missing for the full claim: more than one segment per word. -/
theorem C114_drain_partial (f : TffCfg) (hc : TffOk f) (m : Nat) (s : Ptt) (r : PttIn) (hr : r.rst = true) (is qs : List PttIn)
    (hi : ∀ i ∈ is, i.rst = false) (hq : PttDrains f m (pttRun f (pttStep f s r) is) qs)
    (hl : 84 * (f.words + 1) + 80 ≤ qs.length) :
    ∃ t : List (Nat × TlpSeg), pttSent f (pttStep f s r) (is ++ qs) = t.map (·.2) ∧ (∀ x ∈ t, x.1 < 4) ∧
      FramesWhole (fun x : TlpSeg => x.eop) t ∧
      ∀ p < 4, ofPort p t = (pttWhole p (pttAccepted f p (pttStep f s r) is)).map (pttExpect p) := by
  obtain ⟨a, b, qs, rfl⟩ : ∃ a b l, qs = a :: b :: l := by
    match qs, hl with
    | [], hl => simp at hl
    | [_], hl => simp at hl
    | a :: b :: l, _ => exact ⟨a, b, l, rfl⟩
  have hqr := pttDrains_all f m _ _ hq
  have hi2 : ∀ i ∈ is ++ [a, b], i.rst = false := by
    intro i h
    rcases List.mem_append.mp h with h | h
    · exact hi i h
    · refine (hqr i ?_).1
      simp only [List.mem_cons, List.not_mem_nil, or_false] at h ⊢
      rcases h with h | h <;> simp [h]
  have hall : ∀ i ∈ (is ++ [a, b]) ++ qs, i.rst = false := by
    intro i h
    rcases List.mem_append.mp h with h | h
    · exact hi2 i h
    · exact (hqr i (by simp [h])).1
  have hrun : pttRun f (pttStep f s r) (is ++ [a, b]) = pttStep f (pttStep f (pttRun f (pttStep f s r) is) a) b := by
    rw [ptt_run_append]; rfl
  have hquiet := ptt_quiet f m _ qs a b hq
  rw [← hrun] at hquiet
  have hacc : ∀ p < 4, pttAccepted f p (pttStep f s r) (is ++ [a, b]) = pttAccepted f p (pttStep f s r) is := by
    intro p hp
    rw [ptt_accepted_append]
    simp only [pttAccepted, (hqr a (by simp)).2 p hp, (hqr b (by simp)).2 p hp, Bool.and_false, Bool.false_eq_true, if_false,
      List.append_nil]
  obtain ⟨t, h1, h2, h3, h4⟩ := C110_drain_partial (pttMux f) (by show 0 < 4; omega) hc s.mux (pttMuxIn s r) hr
    (pttIns f (pttStep f s r) (is ++ [a, b])) (pttIns f (pttRun f (pttStep f s r) (is ++ [a, b])) qs)
    (ptt_rst f _ _ hi2) hquiet (by
      rw [ptt_ins_length]
      show 21 * 4 * (f.words + 1) + 78 ≤ _
      simp only [List.length_cons] at hl
      omega)
  refine ⟨t.map fun x => (x.1, pttWord x.2), ?_, ?_, ?_, fun p hp => ?_⟩
  · rw [show is ++ a :: b :: qs = (is ++ [a, b]) ++ qs by simp, ptt_sent f _ _ hall, ptt_ins_append]
    show (txmTaken (pttMux f) (txmStep (pttMux f) s.mux (pttMuxIn s r)) _).map pttWord = _
    rw [h1, List.map_map, List.map_map]; rfl
  · intro x hx
    obtain ⟨y, hy, rfl⟩ := List.mem_map.mp hx
    exact h2 y hy
  · intro k a b ha hb
    rw [List.getElem?_map] at ha hb
    obtain ⟨a', ha', rfl⟩ := Option.map_eq_some_iff.mp ha
    obtain ⟨b', hb', rfl⟩ := Option.map_eq_some_iff.mp hb
    exact h3 k a' b' ha' hb'
  · have h5 := h4 p hp
    have e : ofPort p (t.map fun x => (x.1, pttWord x.2)) = (ofPort p t).map pttWord := by
      unfold ofPort
      rw [List.filter_map, List.map_map, List.map_map]; rfl
    rw [show txmStep (pttMux f) s.mux (pttMuxIn s r) = (pttStep f s r).mux from rfl, ptt_accepted, ptt_whole, hacc p hp] at h5
    rw [e, h5, List.map_map]
    exact List.map_congr_left fun g _ => ptt_word p g

/-- **C113**, P-Tile with one segment: after a reset, for every history: a TLP of port `p` whose start is reported after the
cycles `g`, `h`, `i` and `j` was selected with the credit outputs in view as they were after `g`: more than four header
credits of its class, and, for writes and completions, more data credits than two TLPs of the greatest size have (16 bytes
each; `max_payload_size` in cycle `g`). Missing for the full claim, which `C113_credits_fails` refutes: that the credit outputs
are right. -/
theorem C113_check_partial (f : TffCfg) (hc : TffOk f) (s : Ptt) (r : PttIn) (hr : r.rst = true) (is : List PttIn)
    (hi : ∀ i ∈ is, i.rst = false) (g h i j : PttIn) (hg : g.rst = false) (hh : h.rst = false) (p : Nat)
    (hp : (pttRun f (pttStep f s r) (is ++ [g, h, i, j])).mux.seqV p = true) :
    let v := pttRun f (pttStep f s r) (is ++ [g])
    let big := 2 * (128 * 2 ^ min g.mps 5 / 16)
    (p = 2 → v.nph.av > 4) ∧ (p = 1 → v.cplh.av > 4 ∧ v.cpld.av > big) ∧
      (p = 0 ∨ p = 3 → v.ph.av > 4 ∧ v.pd.av > big) := by
  have happ : ∀ (a b : List PttIn) (s' : Ptt), pttRun f s' (a ++ b) = pttRun f (pttRun f s' a) b := by
    intro a
    induction a with
    | nil => intro b s'; rfl
    | cons y a ih => intro b s'; exact ih b (pttStep f s' y)
  have hgh : ∀ x ∈ is ++ [g, h], x.rst = false := by
    intro x hx
    simp only [List.mem_append, List.mem_cons, List.not_mem_nil, or_false] at hx
    rcases hx with hx | rfl | rfl
    · exact hi x hx
    · exact hg
    · exact hh
  have hm := ptt_mux f (is ++ [g, h]) (pttStep f s r)
  have hpause := C111_pause_partial (pttMux f) (by show 0 < 4; omega) hc s.mux (pttMuxIn s r) hr
    (pttIns f (pttStep f s r) (is ++ [g, h])) (ptt_rst f _ _ hgh)
    (pttMuxIn (pttRun f (pttStep f s r) (is ++ [g, h])) i)
    (pttMuxIn (pttStep f (pttRun f (pttStep f s r) (is ++ [g, h])) i) j) p (by
      rw [show txmRun (pttMux f) (txmStep (pttMux f) s.mux (pttMuxIn s r)) (pttIns f (pttStep f s r) (is ++ [g, h])) =
        (pttRun f (pttStep f s r) (is ++ [g, h])).mux from hm.symm]
      rw [show is ++ [g, h, i, j] = (is ++ [g, h]) ++ [i, j] by simp, happ] at hp
      exact hp)
  have hpause' : pttPause (pttRun f (pttStep f s r) (is ++ [g, h])) p = false := hpause
  rw [show is ++ [g, h] = (is ++ [g]) ++ [h] by simp, happ] at hpause'
  have hmps : (pttRun f (pttStep f s r) (is ++ [g])).mps = 8 * 2 ^ (if g.mps > 5 then 5 else g.mps) := by
    rw [happ]; rfl
  have hmin : (if g.mps > 5 then 5 else g.mps) = min g.mps 5 := by
    rw [Nat.min_def]; split <;> split <;> omega
  rw [hmin] at hmps
  have hdiv : 128 * 2 ^ min g.mps 5 / 16 = 8 * 2 ^ min g.mps 5 := by omega
  simp only [hdiv]
  generalize pttRun f (pttStep f s r) (is ++ [g]) = v at *
  have e1 : (pttRun f v [h]).haveP = (decide (v.ph.av > 4) && decide (v.pd.av > v.mps * 2)) := rfl
  have e2 : (pttRun f v [h]).haveNp = decide (v.nph.av > 4) := rfl
  have e3 : (pttRun f v [h]).haveCpl = (decide (v.cplh.av > 4) && decide (v.cpld.av > v.mps * 2)) := rfl
  unfold pttPause at hpause'
  rw [e1, e2, e3, hmps] at hpause'
  refine ⟨fun hq => ?_, fun hq => ?_, fun hq => ?_⟩
  · subst hq
    simpa using hpause'
  · subst hq
    simp at hpause'
    omega
  · have : p ≠ 1 ∧ p ≠ 2 := by omega
    rw [if_neg this.1, if_neg this.2] at hpause'
    simp at hpause'
    omega

/-- **C113** for read requests, P-Tile with one segment, when the limit for non-posted headers is presented in every cycle:
`l k` is the limit in cycle `k`, counted from the reset on and presented modulo 4096. It never falls, and the P-Tile never
promises more than its first limit beyond the read requests it has got. Then after a reset, for every history, at most as many
read requests are sent as the limit of the last cycle allows. So the margin of four covers the read requests that start
between the check and the count. Missing for the full claim, which `C113_credits_fails` refutes: limits of other classes in
between. -/
theorem C113_reads_partial (f : TffCfg) (hc : TffOk f) (l : Nat → Nat) (h0 : 0 < l 0) (hl : l 0 < 2 ^ 12) (s : Ptt) (r : PttIn)
    (hr : r.rst = true) (is : List PttIn)
    (hi : ∀ k i, is[k]? = some i → i.rst = false ∧ i.idx = 1 ∧ i.limit = l k % 2 ^ 12 ∧ PttHeadersOk i)
    (hm : ∀ k, l k ≤ l (k + 1))
    (he : ∀ k < is.length, l k ≤ l 0 + pttReads (pttSent f (pttStep f s r) (is.take k))) :
    pttReads (pttSent f (pttStep f s r) is) ≤ l (is.length - 1) := by
  cases hn : is.length with
  | zero => rw [List.length_eq_zero_iff.mp hn]; exact Nat.zero_le _
  | succ n =>
    obtain ⟨t, A, T, k0, k1, k2, k3⟩ := pttCr_run hc l h0 hl s r hr is hi hm he n (by omega)
    rw [← hn, List.take_length] at k0
    have hsum := ptt_sum k1 (ptt_mem k1 k2) k3
    have := k3.safe
    rw [k0]
    show _ ≤ l n
    omega

/-! ### Concrete cases -/

/-- FIFOs of eight words. -/
def pttEx : TffCfg := { addrW := 3, words := 8, mark := 4 }

/-- Cycle `k` of a history in which a read request is offered in the first six cycles and the P-Tile advertises, one class of
credits after the other, a limit of five. -/
def pttRd (k : Nat) : PttIn :=
  { valid := fun p => p == 2 && decide (k < 6), seg := fun _ => { hdr := 0x00000001 <<< 96 + k }, ready := true, limit := 5
    idx := (k + 1) % 8 }

/-- A cycle with reset. -/
def pttRst : PttIn := { rst := true, valid := fun _ => false, seg := fun _ => {}, ready := true }

/-- **C113** fails: the limit for non-posted headers is five at all times, and six read requests are sent. The counter adds
the limit again in every cycle until its class is presented again. -/
theorem C113_credits_fails :
    ∃ (f : TffCfg) (is : List PttIn), TffOk f ∧ (∀ i ∈ is, i.rst = false ∧ i.limit = 5) ∧
      pttReads (pttSent f (pttStep f {} pttRst) is) = 6 := by
  refine ⟨pttEx, (List.range 13).map pttRd, ⟨by decide, by decide⟩, fun i hi => ?_, by decide +kernel⟩
  obtain ⟨k, -, rfl⟩ := List.mem_map.mp hi
  exact ⟨rfl, rfl⟩

/-- The limits of an example: eight, and thirteen from cycle 20 on. -/
def pttLim (k : Nat) : Nat := if k < 20 then 8 else 13

/-- As `pttRd`, with ten read requests and the limit of non-posted headers presented in every cycle. -/
def pttRd1 (k : Nat) : PttIn := { pttRd k with valid := fun p => p == 2 && decide (k < 10), limit := pttLim k, idx := 1 }

/-- The hypotheses of `C113_reads_partial` are met. -/
example : (∀ k i, ((List.range 30).map pttRd1)[k]? = some i →
      i.rst = false ∧ i.idx = 1 ∧ i.limit = pttLim k % 2 ^ 12 ∧ PttHeadersOk i) ∧ (∀ k, pttLim k ≤ pttLim (k + 1)) ∧
    (∀ k < 30, pttLim k ≤ pttLim 0 + pttReads (pttSent pttEx (pttStep pttEx {} pttRst) (((List.range 30).map pttRd1).take k))) ∧
    pttReads (pttSent pttEx (pttStep pttEx {} pttRst) (((List.range 30).map pttRd1).take 20)) = 7 ∧
    pttReads (pttSent pttEx (pttStep pttEx {} pttRst) ((List.range 30).map pttRd1)) = 10 := by
  refine ⟨fun k i hi => ?_, fun k => ?_, by decide +kernel⟩
  · rw [List.getElem?_map] at hi
    obtain ⟨k', hk', rfl⟩ := Option.map_eq_some_iff.mp hi
    have hk : k < 30 ∧ k' = k := by
      obtain ⟨h1, h2⟩ := List.getElem?_eq_some_iff.mp hk'
      rw [List.getElem_range] at h2
      exact ⟨by simpa using h1, h2.symm⟩
    obtain ⟨hk, rfl⟩ := hk
    refine ⟨rfl, rfl, ?_, fun p _ hv _ => ?_⟩
    · show pttLim k' = _
      unfold pttLim; split <;> rfl
    have hp : p = 2 := by
      have : (p == 2 && decide (k' < 10)) = true := hv
      simp only [Bool.and_eq_true, beq_iff_eq] at this
      exact this.1
    subst hp
    have : ∀ k < 30, TlpHdrOk (0x00000001 <<< 96 + k) ∧ fcClass ((0x00000001 <<< 96 + k) / 2 ^ 120) = .np := by
      unfold TlpHdrOk; decide +kernel
    exact ⟨(this k' hk).1, fun _ => (this k' hk).2, fun _ => rfl⟩
  · unfold pttLim; split <;> split <;> omega

/-- Cycle `k` of a history with credits enough: a write of two words on port 3 and a read request on port 2; the P-Tile is
not ready in cycle 15. -/
def pttWr (k : Nat) : PttIn :=
  { valid := fun p => (p == 3 && (k == 8 || k == 9)) || (p == 2 && k == 8)
    seg := fun p => if p = 3 then { data := k, hdr := 0x60000005 <<< 96, seq := 7, sop := k == 8, eop := k == 9 }
      else { data := 99, hdr := 0x00000001 <<< 96, seq := 8 }
    ready := k != 15, limit := 100, idx := k % 8 }

example : (∀ i ∈ (List.range 20).map pttWr, i.rst = false) ∧
    (pttSent pttEx (pttStep pttEx {} pttRst) ((List.range 20).map pttWr)).map (fun g => (g.data, g.sop, g.eop)) =
      [(0, true, true), (8, true, false), (9, false, true)] ∧
    (pttAccepted pttEx 3 (pttStep pttEx {} pttRst) ((List.range 20).map pttWr)).map (·.data) = [8, 9] := by
  refine ⟨?_, by decide +kernel⟩
  intro i hi
  obtain ⟨k, -, rfl⟩ := List.mem_map.mp hi
  rfl

/-- The hypotheses of the gap theorems and of `C113_check_partial` are met. -/
example : (∃ n < 20, ((pttSent pttEx (pttStep pttEx {} pttRst) ((List.range n).map pttWr)).getLast?.map (·.eop)) = some false) ∧
    (∃ n < 20, (pttRun pttEx (pttStep pttEx {} pttRst) ((List.range n).map pttWr)).mux.seqV 3 = true) ∧
    (∃ n < 16, (txmTaken txmEx (txmStep txmEx {} txmR) (txmHist.take n)).getLast?.map (·.eop) = some false) := by
  decide +kernel

/-- Cycle `k` of a history as `pttWr`, in which each class of credits gets a limit of 2000, once. -/
def pttQu (k : Nat) : PttIn := { pttWr k with limit := 2000, idx := if k < 8 then k else 7, ready := true }

/-- A counter with a limit of 2000 that is filled up in every cycle. -/
def PttFull (c : PtileFc) : Prop := c.cap = 2000 ∧ c.inc = 2000 ∧ 1000 ≤ c.av

theorem pttFull_step (w : Nat) (c : PtileFc) (i : PtileIn) (h : PttFull c) (hr : i.rst = false) (hs : i.sel = false)
    (hd : i.dec ≤ 511) : PttFull (ptileStep w c i) := by
  obtain ⟨h1, h2, h3⟩ := h
  have hm : i.dec % 2 ^ w ≤ 511 := Nat.le_trans (Nat.mod_le _ _) hd
  unfold ptileStep
  rw [hr, hs]
  refine ⟨h1, h2, ?_⟩
  show 1000 ≤ ptileAv c (i.dec % 2 ^ w)
  unfold ptileAv
  simp only
  split
  · omega
  · split <;> omega

/-- All credits counted in a cycle fit nine bits. -/
theorem ptt_fc_small (i : FcIn) : (fcStep 1 i).ph ≤ 511 ∧ (fcStep 1 i).nph ≤ 511 ∧ (fcStep 1 i).cplh ≤ 511 ∧
    (fcStep 1 i).pd ≤ 511 ∧ (fcStep 1 i).cpld ≤ 511 := by
  unfold fcStep
  split
  · simp
  · simp only [List.range_one, List.foldl_cons, List.foldl_nil]
    unfold fcSeg
    split
    · split <;> simp only [Nat.zero_add] <;> omega
    · simp

theorem pttDrains_full (f : TffCfg) (n k : Nat) (hk : 10 ≤ k) (s : Ptt)
    (hb : s.mux.fc.ph ≤ 511 ∧ s.mux.fc.nph ≤ 511 ∧ s.mux.fc.cplh ≤ 511 ∧ s.mux.fc.pd ≤ 511 ∧ s.mux.fc.cpld ≤ 511)
    (h : PttFull s.ph ∧ PttFull s.nph ∧ PttFull s.cplh ∧ PttFull s.pd ∧ PttFull s.cpld) :
    PttDrains f 0 s ((List.range' k n).map pttQu) := by
  induction n generalizing k s with
  | zero => trivial
  | succ n ih =>
    rw [List.range'_succ, List.map_cons]
    obtain ⟨h1, h2, h3, h4, h5⟩ := h
    obtain ⟨b1, b2, b3, b4, b5⟩ := hb
    have hx : (pttQu k).idx = 7 := by
      show (if k < 8 then k else 7) = 7
      rw [if_neg (by omega)]
    have hsel : ∀ j, j < 7 → ((pttQu k).idx == j) = false := by
      intro j hj; rw [hx]; simp; omega
    refine ⟨⟨?_, rfl, rfl, rfl, fun p _ => ?_⟩, ih (k + 1) (by omega) _
      (ptt_fc_small (txmFcIn s.mux (pttMuxIn s (pttQu k)))) ?_⟩
    · obtain ⟨-, -, a1⟩ := h1
      obtain ⟨-, -, a2⟩ := h2
      obtain ⟨-, -, a3⟩ := h3
      obtain ⟨-, -, a4⟩ := h4
      obtain ⟨-, -, a5⟩ := h5
      have e : 2 * (128 * 2 ^ min 0 5 / 16) = 16 := by decide
      unfold PttCredit
      rw [e]
      omega
    · show ((p == 3 && (k == 8 || k == 9)) || (p == 2 && k == 8)) = false
      have e1 : (k == 8) = false := by simp; omega
      have e2 : (k == 9) = false := by simp; omega
      rw [e1, e2]; simp
    · exact ⟨pttFull_step 12 _ _ h1 rfl (hsel 0 (by omega)) b1, pttFull_step 12 _ _ h2 rfl (hsel 1 (by omega)) b2,
        pttFull_step 12 _ _ h3 rfl (hsel 2 (by omega)) b3, pttFull_step 16 _ _ h4 rfl (hsel 4 (by omega)) b4,
        pttFull_step 16 _ _ h5 rfl (hsel 6 (by omega)) b5⟩

/-- The hypotheses of `C114_drain_partial` are met: a write of two words and a read request are offered in cycles 8 and 9, and
quiet cycles follow, as many as one likes. -/
example (n : Nat) : TffOk pttEx ∧
    PttDrains pttEx 0 (pttRun pttEx (pttStep pttEx {} pttRst) ((List.range 10).map pttQu)) ((List.range' 10 n).map pttQu) ∧
    (pttAccepted pttEx 3 (pttStep pttEx {} pttRst) ((List.range 10).map pttQu)).map (·.data) = [8, 9] ∧
    (pttAccepted pttEx 2 (pttStep pttEx {} pttRst) ((List.range 10).map pttQu)).length = 1 := by
  refine ⟨⟨by decide, by decide⟩, pttDrains_full _ n 10 (by omega) _ (by decide +kernel) ?_, by decide +kernel⟩
  unfold PttFull
  decide +kernel

end Verif.Props
