import Verif.Proofs.TlpMuxDrain
import Verif.Proofs.TlpMuxStatus
/-! C86 to C88: the TLP multiplexer. -/
namespace Verif.Props
open Verif Verif.Model Verif.Spec Verif.Proofs

/-- **C86**, for at most two segments per word, or words without free lanes: after a reset, for every history: what the
receiver has taken is a merge `t` of the port streams that does not mix TLPs: the segment after one without an end flag
comes from the same port. Of each port, `t` holds a prefix of the accepted segments, in order and unchanged, and at most
three words of segments are still inside. Missing for the full claim: three or more segments per word with partly filled
words, where it is false (`C86_merge_fails`). -/
theorem C86_merge_partial (c : TmxCfg) (h0 : 0 < c.ports) (h1 : 0 < c.segs) (s : Tmx) (r : TmxIn) (hr : r.rst = true)
    (is : List TmxIn) (hi : ∀ i ∈ is, i.rst = false) (hw : TmxWords c is) :
    ∃ t : List (Nat × TlpSeg), tmxTaken c (tmxStep c s r) is = t.map (·.2) ∧ (∀ x ∈ t, x.1 < c.ports) ∧
      FramesWhole (fun x : TlpSeg => x.eop) t ∧
      ∀ p < c.ports, ∃ inside, tmxAccepted c p (tmxStep c s r) is = ofPort p t ++ inside ∧ inside.length ≤ 3 * c.segs := by
  obtain ⟨hI, hF⟩ := tmxInv_init c s r hr h0 h1
  obtain ⟨t, hT⟩ := tmxInv_run c h0 h1 is hi _ (hw.imp id fun h => ⟨hF, h⟩) _ _ _ hI
  simp only [List.nil_append] at hT
  have ho := hT.out
  obtain ⟨t1, t2, rfl, e1, e2⟩ := List.map_eq_append_iff.mp ho
  refine ⟨t1, e1.symm, fun x hx => hT.ports x (List.mem_append_left _ hx), ?_, ?_⟩
  · intro k a b ha hb
    have hk := (List.getElem?_eq_some_iff.mp ha).1
    have hk' := (List.getElem?_eq_some_iff.mp hb).1
    exact hT.whole k a b (by rw [List.getElem?_append_left hk]; exact ha) (by rw [List.getElem?_append_left hk']; exact hb)
  · intro p hp
    have hin := hT.inp p hp
    rw [ofPort_append', List.append_assoc] at hin
    refine ⟨_, hin, ?_⟩
    have hlen : t2.length ≤ 2 * c.segs := by
      have := congrArg List.length e2
      rw [List.length_map] at this
      rw [this]
      have hq := skidQ_length (tmxRun c (tmxStep c s r) is).skid
      have hl : ∀ l : List TmxWord, (l.flatMap (tmxItems c)).length ≤ l.length * c.segs := by
        intro l
        induction l with
        | nil => simp
        | cons w l ih =>
          rw [List.flatMap_cons, List.length_append, List.length_cons, Nat.succ_mul]
          have : (tmxItems c w).length ≤ c.segs := by
            unfold tmxItems
            rw [List.length_map]
            exact Nat.le_trans (List.length_filter_le _ _) (by simp)
          omega
      exact Nat.le_trans (hl _) (Nat.mul_le_mul_right _ hq)
    have h3 : (tmxPend c (tmxRun c (tmxStep c s r) is) p).length ≤ c.segs := by
      unfold tmxPend
      rw [List.length_map]
      refine Nat.le_trans (List.length_filter_le _ _) ?_
      rw [List.length_range']; omega
    have h2 : (ofPort p t2).length ≤ t2.length := by
      unfold ofPort
      rw [List.length_map]; exact List.length_filter_le _ _
    rw [List.length_append]; omega

/-- **C87**: in every reachable state a shown word stays, unchanged, until it is taken. -/
theorem C87_stable (c : TmxCfg) (s : Tmx) (i : TmxIn) (hr : i.rst = false) (h : i.ready = false) (hs : s.skid.outV = true) :
    (tmxStep c s i).skid.outV = true ∧ (tmxStep c s i).skid.out = s.skid.out ∧ tmxShown c (tmxStep c s i) = tmxShown c s := by
  have e : (tmxStep c s i).skid.outV = true ∧ (tmxStep c s i).skid.out = s.skid.out := by
    simp only [tmxStep, skidStep, hr, h, hs]
    cases s.skid.ready <;> simp [hs]
  exact ⟨e.1, e.2, by simp [tmxShown, e.1, e.2, hs]⟩

/-- **C87**, for at most two segments per word or words without free lanes, where the valid lanes of a word come first:
when the segments accepted so far on each port are whole TLPs, nothing more is offered, no port is paused and the receiver
is ready, everything comes out within one cycle per segment of all the input registers and two more. Missing for the full
claim: words that end within a TLP and have a free lane, or that have gaps, after which the multiplexer can hang
(`C87_hang`). -/
theorem C87_drain_partial (c : TmxCfg) (h0 : 0 < c.ports) (h1 : 0 < c.segs) (s : Tmx) (r : TmxIn) (hr : r.rst = true)
    (is qs : List TmxIn) (hi : ∀ i ∈ is, i.rst = false) (hw : TmxWords c is)
    (hp : ∀ i ∈ is, ∀ p < c.ports, TmxPacked c (i.word p))
    (hc : ∀ p < c.ports, Complete (fun x : TlpSeg => x.eop) (tmxAccepted c p (tmxStep c s r) is))
    (hq : ∀ i ∈ qs, TmxQuiet c i) (hl : c.ports * c.segs + 2 ≤ qs.length) :
    ∃ t : List (Nat × TlpSeg), tmxTaken c (tmxStep c s r) (is ++ qs) = t.map (·.2) ∧ (∀ x ∈ t, x.1 < c.ports) ∧
      FramesWhole (fun x : TlpSeg => x.eop) t ∧ ∀ p < c.ports, ofPort p t = tmxAccepted c p (tmxStep c s r) is := by
  obtain ⟨hI, hF⟩ := tmxInv_init c s r hr h0 h1
  have hrp : TmxRegPacked c (tmxStep c s r) := by
    intro p _ k j _ _ _ h; simp [tmxStep, hr] at h
  have hb : TmxBusy c (tmxStep c s r) [] := by intro h; simp [tmxStep, hr] at h
  obtain ⟨t, hT, hP, hB⟩ := tmx_inv_more c h0 h1 is hi _ (hw.imp id fun h => ⟨hF, h⟩) [] hp hrp hb _ _ hI
  simp only [List.nil_append] at hT hB
  obtain ⟨t', e1, e2, e3, e4⟩ := tmx_drain c h0 h1 qs hq _ t _ _ hT hP hB hc hl
  refine ⟨t', ?_, e2, e3, e4⟩
  rw [← e1]
  generalize tmxStep c s r = s'
  clear hi hw hp hc hI hF hrp hb hT hP hB e1 e4
  induction is generalizing s' with
  | nil => simp [tmxTaken, tmxRun]
  | cons i is ih => simp only [List.cons_append, tmxTaken, tmxRun, ih, List.append_assoc]

/-- **C88**, for words without free lanes: after a reset, for every history: the sequence numbers reported on
`sel_tlp_seq`, with their ports, are those of the first segments of the TLPs in the order in which the TLPs go out: one
report for each TLP, none else. `t` is the merged stream, of which the receiver has taken a prefix. Missing for the full
claim: words with free lanes, where it is false already with two segments per word (`C88_status_fails`). -/
theorem C88_status_partial (c : TmxCfg) (h0 : 0 < c.ports) (h1 : 0 < c.segs) (s : Tmx) (r : TmxIn) (hr : r.rst = true)
    (is : List TmxIn) (hi : ∀ i ∈ is, i.rst = false) (hf : ∀ i ∈ is, ∀ p < c.ports, TmxFull c (i.word p)) :
    ∃ (t : List (Nat × TlpSeg)) (inside : List TlpSeg), t.map (·.2) = tmxTaken c (tmxStep c s r) is ++ inside ∧
      inside.length ≤ 2 * c.segs ∧ (∀ x ∈ t, x.1 < c.ports) ∧ FramesWhole (fun x : TlpSeg => x.eop) t ∧
      (∀ p < c.ports, ofPort p t <+: tmxAccepted c p (tmxStep c s r) is) ∧
      tmxReported c (tmxStep c s r) is = (tmxStarts true t).map fun x => (x.1, x.2.seq) := by
  obtain ⟨hI, hF⟩ := tmxInv_init c s r hr h0 h1
  obtain ⟨t, hT, hR⟩ := tmx_report_run c h0 h1 is hi _ hF hf [] _ _ hI (by simp [tmxStep, hr, tmxEnd])
  simp only [List.nil_append] at hT hR
  refine ⟨t, _, hT.out, ?_, hT.ports, hT.whole, fun p hp => ⟨_, (hT.inp p hp).symm⟩, by simpa [tmxStarts] using hR⟩
  have hq := skidQ_length (tmxRun c (tmxStep c s r) is).skid
  have hl : ∀ l : List TmxWord, (l.flatMap (tmxItems c)).length ≤ l.length * c.segs := by
    intro l
    induction l with
    | nil => simp
    | cons w l ih =>
      rw [List.flatMap_cons, List.length_append, List.length_cons, Nat.succ_mul]
      have : (tmxItems c w).length ≤ c.segs := by
        unfold tmxItems
        rw [List.length_map]
        exact Nat.le_trans (List.length_filter_le _ _) (by simp)
      omega
  exact Nat.le_trans (hl _) (Nat.mul_le_mul_right _ hq)

/-! ### Concrete cases -/

/-- A segment with a number, for the examples. -/
def tmxS (n : Nat) (sop eop : Bool) : TlpSeg := { data := n, seq := n, sop := sop, eop := eop }

/-- A word with the given segments in its first lanes. -/
def tmxW (l : List TlpSeg) : TmxWord := { valid := fun k => decide (k < l.length), seg := fun k => l.getD k {} }

/-- A cycle in which port `p` offers the word `l[p]` and the receiver is ready. -/
def tmxC (l : List (List TlpSeg)) : TmxIn := { word := fun p => tmxW (l.getD p []), ready := true }

/-- A cycle with reset. -/
def tmxR : TmxIn := { rst := true, word := fun _ => {}, ready := true }

/-- Two ports, two segments per word: a TLP of three segments and one of a single segment on port 0, two TLPs on port 1. -/
def tmxEx : List TmxIn :=
  [tmxC [[tmxS 1 true false, tmxS 2 false false], [tmxS 21 true true, tmxS 22 true true]],
   tmxC [[tmxS 3 false true, tmxS 4 true true], []], tmxC [[tmxS 3 false true, tmxS 4 true true], []],
   tmxC [], tmxC [], tmxC [], tmxC []]

/-- The words of the example have no free lanes; everything accepted comes out, TLP by TLP, and the reported numbers are
those of the TLPs. -/
example : (∀ i ∈ tmxEx, i.rst = false) ∧ (∀ i ∈ tmxEx, ∀ p < 2, TmxFull ⟨2, 2, true, true⟩ (i.word p)) ∧
    (tmxAccepted ⟨2, 2, true, true⟩ 0 (tmxStep ⟨2, 2, true, true⟩ {} tmxR) tmxEx).map (·.data) = [1, 2, 3, 4] ∧
    (tmxAccepted ⟨2, 2, true, true⟩ 1 (tmxStep ⟨2, 2, true, true⟩ {} tmxR) tmxEx).map (·.data) = [21, 22] ∧
    (tmxTaken ⟨2, 2, true, true⟩ (tmxStep ⟨2, 2, true, true⟩ {} tmxR) tmxEx).map (·.data) = [21, 1, 2, 3, 22, 4] ∧
    tmxReported ⟨2, 2, true, true⟩ (tmxStep ⟨2, 2, true, true⟩ {} tmxR) tmxEx = [(1, 21), (0, 1), (1, 22), (0, 4)] := by
  refine ⟨?_, ?_, ?_⟩
  · decide +kernel
  · unfold TmxFull; decide +kernel
  · decide +kernel

/-- The hypotheses of the draining theorem: the words are packed, the TLPs complete, and eight quiet cycles follow. -/
example : TmxWords ⟨2, 2, true, true⟩ tmxEx ∧ (∀ i ∈ tmxEx, ∀ p < 2, TmxPacked ⟨2, 2, true, true⟩ (i.word p)) ∧
    (∀ p < 2, Complete (fun x : TlpSeg => x.eop)
      (tmxAccepted ⟨2, 2, true, true⟩ p (tmxStep ⟨2, 2, true, true⟩ {} tmxR) tmxEx)) ∧
    (∀ i ∈ List.replicate 8 (tmxC []), TmxQuiet ⟨2, 2, true, true⟩ i) := by
  refine ⟨Or.inl (by decide), ?_, ?_, ?_⟩
  · have h : ∀ i ∈ tmxEx, ∀ p < 2, TmxFull ⟨2, 2, true, true⟩ (i.word p) := by unfold TmxFull; decide +kernel
    intro i hi p hp k j hj hk hv
    rcases h i hi p hp with h | h
    · exact h j (Nat.lt_of_le_of_lt hj hk)
    · rw [h k hk] at hv; cases hv
  · have e : ∀ p < 2, ((tmxAccepted ⟨2, 2, true, true⟩ p (tmxStep ⟨2, 2, true, true⟩ {} tmxR) tmxEx).getLast?.map
        (·.eop)) = some true := by decide +kernel
    intro p hp w hw
    have := e p hp
    rw [hw] at this; simpa using this
  · unfold TmxQuiet; decide +kernel

/-- Two ports, three segments per word, with partly filled words: port 0 sends a TLP of the segments 11 and 12, port 1 the
single segments 100 and 101. -/
def tmxMix : List TmxIn :=
  [tmxC [], tmxC [[tmxS 1 true true, tmxS 2 true true, tmxS 3 true true], [tmxS 100 true true]], tmxC [],
   tmxC [[tmxS 5 true true, tmxS 6 true true], []],
   tmxC [[tmxS 11 true false, tmxS 12 false true, tmxS 13 true true], [tmxS 101 true true]], tmxC [], tmxC [], tmxC []]

/-- **C86 fails** for three segments per word: after a reset, with whole TLPs on both ports in words whose valid lanes come
first, the segment 101 of port 1 goes out between the two segments of a TLP of port 0. -/
theorem C86_merge_fails :
    (tmxAccepted ⟨2, 3, true, true⟩ 0 (tmxStep ⟨2, 3, true, true⟩ {} tmxR) tmxMix).map (fun x => (x.data, x.sop, x.eop)) =
      [(1, true, true), (2, true, true), (3, true, true), (5, true, true), (6, true, true), (11, true, false),
       (12, false, true), (13, true, true)] ∧
    (tmxAccepted ⟨2, 3, true, true⟩ 1 (tmxStep ⟨2, 3, true, true⟩ {} tmxR) tmxMix).map (fun x => (x.data, x.sop, x.eop)) =
      [(100, true, true), (101, true, true)] ∧
    (tmxTaken ⟨2, 3, true, true⟩ (tmxStep ⟨2, 3, true, true⟩ {} tmxR) tmxMix).map (·.data) =
      [100, 1, 2, 3, 5, 6, 11, 101, 12, 13] ∧
    ¬ ∃ t : List (Nat × TlpSeg), tmxTaken ⟨2, 3, true, true⟩ (tmxStep ⟨2, 3, true, true⟩ {} tmxR) tmxMix = t.map (·.2) ∧
      FramesWhole (fun x : TlpSeg => x.eop) t ∧ (∀ x ∈ t, x.1 < 2) ∧
      ∀ p < 2, ∃ inside, tmxAccepted ⟨2, 3, true, true⟩ p (tmxStep ⟨2, 3, true, true⟩ {} tmxR) tmxMix =
        ofPort p t ++ inside := by
  refine ⟨by decide +kernel, by decide +kernel, by decide +kernel, ?_⟩
  rintro ⟨t, h1, h2, h3, h4⟩
  have hd : t.map (fun x => (x.2.data, x.2.eop)) =
      [(100, true), (1, true), (2, true), (3, true), (5, true), (6, true), (11, false), (101, true), (12, true), (13, true)] := by
    have := congrArg (List.map fun x : TlpSeg => (x.data, x.eop)) h1
    rw [List.map_map] at this
    rw [show (fun x : Nat × TlpSeg => (x.2.data, x.2.eop)) = (fun x : TlpSeg => (x.data, x.eop)) ∘ (·.2) from rfl, ← this]
    decide +kernel
  -- the segment 11 is port 0's, the segment 101 port 1's
  have hlen : t.length = 10 := by have := congrArg List.length hd; simpa using this
  have hmem : ∀ k : Nat, ∀ x, t[k]? = some x → x.2 ∈ tmxAccepted ⟨2, 3, true, true⟩ x.1 (tmxStep ⟨2, 3, true, true⟩ {} tmxR) tmxMix := by
    intro k x hx
    have hxm := List.mem_of_getElem? hx
    obtain ⟨u, hu⟩ := h4 x.1 (h3 x hxm)
    rw [hu]
    exact List.mem_append_left _ (List.mem_map.mpr ⟨x, List.mem_filter.mpr ⟨hxm, by simp⟩, rfl⟩)
  have hA0 : ∀ y ∈ tmxAccepted ⟨2, 3, true, true⟩ 0 (tmxStep ⟨2, 3, true, true⟩ {} tmxR) tmxMix, y.data ≠ 101 := by
    decide +kernel
  have hA1 : ∀ y ∈ tmxAccepted ⟨2, 3, true, true⟩ 1 (tmxStep ⟨2, 3, true, true⟩ {} tmxR) tmxMix, y.data ≠ 11 := by
    decide +kernel
  have h6 : 6 < t.length := by omega
  have h7 : 7 < t.length := by omega
  have e6 : t[6]? = some t[6] := List.getElem?_eq_getElem h6
  have e7 : t[7]? = some t[7] := List.getElem?_eq_getElem h7
  have d6 : (t[6].2.data, t[6].2.eop) = (11, false) := by
    have := congrArg (fun l => l[6]?) hd
    simpa [List.getElem?_map, e6] using this
  have d7 : (t[7].2.data, t[7].2.eop) = (101, true) := by
    have := congrArg (fun l => l[7]?) hd
    simpa [List.getElem?_map, e7] using this
  have hp := h2 6 t[6] t[7] e6 e7 (by simpa using (Prod.mk.inj d6).2)
  have l6 := h3 t[6] (List.getElem_mem h6)
  have m6 := hmem 6 _ e6
  have m7 := hmem 7 _ e7
  rw [hp] at m7
  rcases (by omega : t[6].1 = 0 ∨ t[6].1 = 1) with h | h
  · rw [h] at m7; exact hA0 _ m7 (Prod.mk.inj d7).1
  · rw [h] at m6; exact hA1 _ m6 (Prod.mk.inj d6).1

/-- Two ports, two segments per word, with partly filled words. -/
def tmxSta : List TmxIn :=
  [tmxC [], tmxC [[tmxS 1 true true, tmxS 2 true true], [tmxS 100 true true]], tmxC [], tmxC [[tmxS 5 true true], []],
   tmxC [[tmxS 6 true false, tmxS 7 false true], []], tmxC [], tmxC [], tmxC []]

/-- **C88 fails** for two segments per word with partly filled words: the TLP that begins with segment 6 goes out, but is
never reported; a sequence number 0 that no TLP has is reported instead. -/
theorem C88_status_fails :
    (tmxTaken ⟨2, 2, true, true⟩ (tmxStep ⟨2, 2, true, true⟩ {} tmxR) tmxSta).map (fun x => (x.seq, x.sop)) =
      [(100, true), (1, true), (2, true), (5, true), (6, true), (7, false)] ∧
    tmxReported ⟨2, 2, true, true⟩ (tmxStep ⟨2, 2, true, true⟩ {} tmxR) tmxSta =
      [(1, 100), (0, 1), (0, 2), (0, 5), (0, 0)] := by
  decide +kernel

/-- Two ports, two segments per word: port 1 sends a TLP of one segment, port 0 the first segment of a TLP in a word with
a free lane. -/
def tmxHang : List TmxIn := [tmxC [], tmxC [[], [tmxS 100 true true]], tmxC [[tmxS 6 true false], []]]

/-- What keeps the multiplexer from going on. -/
def TmxStuck (s : Tmx) : Prop :=
  s.frame = false ∧ s.port = 1 ∧ s.off 0 = 0 ∧ (s.reg 0).valid 0 = true ∧ (s.reg 0).valid 1 = false ∧
    ((s.reg 0).seg 0).eop = false

theorem tmxStuck_step (s : Tmx) (i : TmxIn) (hr : i.rst = false) (hp : i.pause 0 = false) (h : TmxStuck s) :
    TmxStuck (tmxStep ⟨2, 2, true, true⟩ s i) ∧ tmxReady ⟨2, 2, true, true⟩ s i 0 = false ∧
      (tmxVar1 ⟨2, 2, true, true⟩ s i).n = 0 := by
  obtain ⟨h1, h2, h3, h4, h5, h6⟩ := h
  have hv : (tmxVar1 ⟨2, 2, true, true⟩ s i).frameN = s.frame ∧ (tmxVar1 ⟨2, 2, true, true⟩ s i).portN = s.port ∧
      (tmxVar1 ⟨2, 2, true, true⟩ s i).offN 0 = s.off 0 ∧ (tmxVar1 ⟨2, 2, true, true⟩ s i).n = 0 := by
    simp [tmxVar1, List.range_succ, tmxSeg, tmxArb, tmxVar0, tmxScan, tmxFirst, tmxNext, tmxFullV, tmxFull, h1, h2, h3, h4, h5,
      h6, hp]
  obtain ⟨v1, v2, v3, v4⟩ := hv
  have hrd : tmxReady ⟨2, 2, true, true⟩ s i 0 = false := by
    simp [tmxReady, tmxKeep, v3, h3, h4, List.range_succ]
  refine ⟨⟨?_, ?_, ?_, ?_, ?_, ?_⟩, hrd, v4⟩
  · simp [tmxStep, hr, v1, h1]
  · simp [tmxStep, hr, v2, h2]
  · simp [tmxStep, hr, tmxOff, v3, h3, hrd]
  · simp [tmxStep, hr, hrd, tmxKeep, v3, h3, h4]
  · simp [tmxStep, hr, hrd, tmxKeep, h5]
  · simp [tmxStep, hrd, h6]

/-- **C87 fails** for two segments per word: after a reset and three cycles the multiplexer hangs. Whatever is offered from
then on, on any port, and however long the receiver is ready: port 0, which is not paused, is never ready again, so that
its TLP is never finished, and nothing leaves the multiplexer any more but the segment of port 1 that is already on its
way. -/
theorem C87_hang (is : List TmxIn) (hi : ∀ i ∈ is, i.rst = false ∧ i.pause 0 = false) :
    tmxAccepted ⟨2, 2, true, true⟩ 0 (tmxStep ⟨2, 2, true, true⟩ {} tmxR) (tmxHang ++ is) = [tmxS 6 true false] ∧
    (tmxTaken ⟨2, 2, true, true⟩ (tmxStep ⟨2, 2, true, true⟩ {} tmxR) (tmxHang ++ is)) <+: [tmxS 100 true true] := by
  have hacc : ∀ (s : Tmx), TmxStuck s → tmxAccepted ⟨2, 2, true, true⟩ 0 s is = [] := by
    induction is with
    | nil => intro s _; rfl
    | cons i is ih =>
      intro s h
      have hx := hi i (List.mem_cons_self ..)
      obtain ⟨a, b, -⟩ := tmxStuck_step s i hx.1 hx.2 h
      rw [tmxAccepted, b, ih (fun j hj => hi j (List.mem_cons_of_mem _ hj)) _ a]; rfl
  have htk : ∀ (s : Tmx), TmxStuck s → SkidOk s.skid →
      tmxTaken ⟨2, 2, true, true⟩ s is <+: (skidQ s.skid).flatMap (tmxItems ⟨2, 2, true, true⟩) := by
    clear hacc
    induction is with
    | nil => intro s _ _; exact List.nil_prefix
    | cons i is ih =>
      intro s h hk
      have hx := hi i (List.mem_cons_self ..)
      obtain ⟨a, -, n0⟩ := tmxStuck_step s i hx.1 hx.2 h
      have hvin : (List.range 2).any (tmxOut ⟨2, 2, true, true⟩ s i).valid = false := by
        simp [tmxOut, n0, List.range_succ]
      obtain ⟨k1, k2⟩ := skid_step s.skid false (tmxOut ⟨2, 2, true, true⟩ s i) i.ready hk (by simp)
      have e : (tmxStep ⟨2, 2, true, true⟩ s i).skid = skidStep false s.skid false (tmxOut ⟨2, 2, true, true⟩ s i) i.ready := by
        simp only [tmxStep, hx.1, hvin]
      rw [← e] at k1 k2
      have := ih (fun j hj => hi j (List.mem_cons_of_mem _ hj)) _ a k1
      simp only [Bool.false_eq_true, if_false, List.append_nil] at k2
      rw [← k2, List.flatMap_append, tmxTaken]
      have e2 : (if i.ready = true then tmxShown ⟨2, 2, true, true⟩ s else []) =
          (if (s.skid.outV && i.ready) = true then [s.skid.out] else []).flatMap (tmxItems ⟨2, 2, true, true⟩) := by
        unfold tmxShown
        cases i.ready <;> cases s.skid.outV <;> simp
      rw [e2]
      exact (List.prefix_append_right_inj _).mpr this
  generalize hs : tmxStep ⟨2, 2, true, true⟩ {} tmxR = s0
  have split : ∀ (l : List TmxIn) (s : Tmx), tmxAccepted ⟨2, 2, true, true⟩ 0 s (l ++ is) =
      tmxAccepted ⟨2, 2, true, true⟩ 0 s l ++ tmxAccepted ⟨2, 2, true, true⟩ 0 (tmxRun ⟨2, 2, true, true⟩ s l) is ∧
      tmxTaken ⟨2, 2, true, true⟩ s (l ++ is) =
      tmxTaken ⟨2, 2, true, true⟩ s l ++ tmxTaken ⟨2, 2, true, true⟩ (tmxRun ⟨2, 2, true, true⟩ s l) is := by
    intro l
    induction l with
    | nil => intro s; simp [tmxAccepted, tmxTaken, tmxRun]
    | cons i l ih => intro s; simp only [List.cons_append, tmxAccepted, tmxTaken, tmxRun, ih, List.append_assoc, and_self]
  have hst : TmxStuck (tmxRun ⟨2, 2, true, true⟩ s0 tmxHang) := by
    rw [← hs]; unfold TmxStuck; decide +kernel
  have hok : SkidOk (tmxRun ⟨2, 2, true, true⟩ s0 tmxHang).skid := by
    rw [← hs]; unfold SkidOk; decide +kernel
  rw [(split tmxHang s0).1, (split tmxHang s0).2, hacc _ hst]
  refine ⟨by rw [← hs]; decide +kernel, ?_⟩
  have e1 : tmxTaken ⟨2, 2, true, true⟩ s0 tmxHang = [] := by rw [← hs]; decide +kernel
  have e2 : (skidQ (tmxRun ⟨2, 2, true, true⟩ s0 tmxHang).skid).flatMap (tmxItems ⟨2, 2, true, true⟩) = [tmxS 100 true true] := by
    rw [← hs]; decide +kernel
  rw [e1, List.nil_append, ← e2]
  exact htk _ hst hok

end Verif.Props
