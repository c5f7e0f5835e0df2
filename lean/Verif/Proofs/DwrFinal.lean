import Verif.Proofs.DwrCount
/-! Conclusions about histories of the DMA write interface with sequence numbers. -/
namespace Verif.Proofs
open Verif Verif.Model Verif.Spec

variable {c : DwrCfg} {mem : Nat → Nat → UInt8} {mps rid : Nat}

theorem dwr_numbers (s : Dwr) (r : DwrIn) (is : List DwrIn)
    (hr : r.rst = true) (his : ∀ i ∈ is, i.rst = false) (hin : ∀ i ∈ r :: is, i.mps = mps ∧ i.requesterId = rid)
    (hram : RamOk c mem (fun _ => []) (dwrStep c s r) is) :
    SeqNumbered c 0 (dwrSent c (dwrStep c s r) is) ∧
    (c.seqEn = true → SeqOk c ⟨0, []⟩ (dwrStep c s r) is →
      ((seqRun c ⟨0, []⟩ (dwrStep c s r) is).out.map (· % 2 ^ c.opW)).Nodup) := by
  constructor
  · have h := dwrInv_reset c mem rid s r hr
    rw [(hin r List.mem_cons_self).1] at h
    obtain ⟨g, h1, h2, h3⟩ := num_run is (dwrGhost0 s) _ h ⟨trivial, rfl⟩ hram
      (fun i hi => ⟨his i hi, (hin i (List.mem_cons_of_mem _ hi)).2, (hin i (List.mem_cons_of_mem _ hi)).1⟩)
    have h4 := h2.1
    rw [← h1.outs, h3] at h4
    simp only [dwrGhost0, List.nil_append] at h4
    exact numbered_prefix _ _ _ h4
  · intro hs hseq
    obtain ⟨g, hI, _, _, _, hq, _⟩ := dwr_seq_history (mps := mps) (rid := rid) mem hs s r is hr his hin hram hseq
    rw [List.Nodup, List.pairwise_map]
    refine List.Pairwise.imp_of_mem ?_ hq.nodup
    intro a b ha hb hne he
    have h1 := hq.win a ha
    have h2 := hq.win b hb
    have h3 := hI.size
    have h4 := hq.cnt
    exact hne (hI.inj h1.1 h2.1 (by omega) (by omega) he)

theorem dwr_inflight (hs : c.seqEn = true) (h0 : 1 ≤ c.txLimit) (hl : ∀ k, c.txLimit + 1 ≠ 2 ^ k)
    (s : Dwr) (r : DwrIn) (is : List DwrIn)
    (hr : r.rst = true) (his : ∀ i ∈ is, i.rst = false) (hin : ∀ i ∈ r :: is, i.mps = mps ∧ i.requesterId = rid)
    (hram : RamOk c mem (fun _ => []) (dwrStep c s r) is) (hseq : SeqOk c ⟨0, []⟩ (dwrStep c s r) is) :
    (dwrPresented c (dwrStep c s r) is).countP (·.sop) ≤ (is.map (·.seqs.length)).sum + c.txLimit + 1 := by
  obtain ⟨g, hI, _, ho, _, _, hn⟩ := dwr_seq_history (mps := mps) (rid := rid) mem hs s r is hr his hin hram hseq
  have hlt : c.txLimit + 1 < 2 ^ clog2 (c.txLimit + 1) := by
    have h1 := le_two_pow_clog2 (c.txLimit + 1)
    have h2 := hl (clog2 (c.txLimit + 1))
    omega
  have h3 := (hn h0 hlt).lim
  have hp : dwrPresented c (dwrStep c s r) is = g.P.map (·.2) := by
    unfold dwrPresented; rw [← ho]; exact hI.outs
  rw [hp, started_sop hI]
  omega

theorem dwr_ack (hc : DwrCfgOk c) (hs : c.seqEn = true) (hm : mps ≤ 4) (hrid : rid < 2 ^ 16) (s : Dwr) (r : DwrIn)
    (is : List DwrIn)
    (hr : r.rst = true) (his : ∀ i ∈ is, i.rst = false) (hin : ∀ i ∈ r :: is, i.mps = mps ∧ i.requesterId = rid)
    (hram : RamOk c mem (fun _ => []) (dwrStep c s r) is) (hseq : SeqOk c ⟨0, []⟩ (dwrStep c s r) is) :
    ∃ parts : WrDesc → List (List (Nat × UInt8)), ∃ n,
      (∀ d ∈ dwrAccepted c (dwrStep c s r) is, SplitOf c mem d (parts d)) ∧
      n ≤ (dwrAccepted c (dwrStep c s r) is).length ∧
      dwrStatusNow c (dwrStep c s r) is = ((dwrAccepted c (dwrStep c s r) is).take n).map (·.tag) ∧
      ((dwrAccepted c (dwrStep c s r) is).take n).flatMap parts <+:
        (frames (dwrSent c (dwrStep c s r) is)).map (frameWrites c) ∧
      ∀ k ∈ (seqRun c ⟨0, []⟩ (dwrStep c s r) is).out,
        (((dwrAccepted c (dwrStep c s r) is).take n).flatMap parts).length ≤ k := by
  obtain ⟨g, hI, ha, ho, hst, hq, _⟩ := dwr_seq_history (mps := mps) (rid := rid) mem hs s r is hr his hin hram hseq
  obtain ⟨h0, h1⟩ := mpsDw_bounds mps
  have hm' : mpsDw mps ≤ 512 := by
    unfold mpsDw
    rw [if_neg (by omega)]
    have := Nat.pow_le_pow_right (n := 2) (by omega) hm
    omega
  have hok := accepted_ok c (dwrStep c s r) is
  rw [← ha] at hok
  have hseg := hI.segs
  have hSeg : ∀ q ∈ g.D ++ g.A, SegOk c (mpsDw mps) q := by
    intro q hq
    have : q ∈ g.acc.flatMap (descSegs c (mpsDw mps)) := by
      rw [← hseg]; simp only [List.append_assoc] at *; simp only [List.mem_append] at *; rcases hq with h | h <;> simp [h]
    rw [List.mem_flatMap] at this
    obtain ⟨d, hd, hq⟩ := this
    exact (descSegs_tags hc h0 h1 (hok d hd)).1 q hq
  obtain ⟨f1, _, _⟩ := frames_all hc hm' hrid (g.D ++ g.A) hSeg g.B (fun r n h => (hI.tx1 r n h).2) g.P hI.beats hI.ok
  obtain ⟨n, n1, n2, n3⟩ := tags_split hc h0 h1 g.acc hok g.D _ (by rw [← hseg]; simp only [List.append_assoc]; rfl)
  have hlen : ((g.acc.take n).flatMap fun d => (descSegs c (mpsDw mps) d).map (segWrites c mem)).length ≤ g.D.length := by
    rw [← List.map_flatMap, List.length_map]
    exact n3.length_le
  refine ⟨fun d => (descSegs c (mpsDw mps) d).map (segWrites c mem), n, ?_, ?_, ?_, ?_, ?_⟩
  · rw [← ha]; exact fun d hd => descSegs_split hc h0 h1 (hok d hd)
  · rw [← ha]; exact n1
  · rw [← ha, ← n2]
    unfold dwrStatusNow
    rw [← hst]; exact hI.st
  · -- both are prefixes of the writes of the TLPs put on the interface
    have p1 : (g.acc.take n).flatMap (fun d => (descSegs c (mpsDw mps) d).map (segWrites c mem)) <+:
        (frames (g.P.map (·.2))).map (frameWrites c) := by
      rw [f1, ← List.map_flatMap, List.map_append]
      obtain ⟨t, ht⟩ := n3
      exact ⟨t.map (segWrites c mem) ++ g.A.map (segWrites c mem), by rw [← ht, List.map_append, List.append_assoc]⟩
    have p2 : (frames g.outs).map (frameWrites c) <+: (frames (g.P.map (·.2))).map (frameWrites c) := by
      rw [← hI.outs]; exact (framesAux_prefix [] _ _).map _
    rw [← ha, ← ho]
    refine List.prefix_of_prefix_length_le p1 p2 ?_
    refine Nat.le_trans hlen ?_
    rw [List.length_map, frames, frames_length]
    have h2 := hq.dle
    rw [seqRun_sent, ← ho] at h2
    simpa using h2
  · intro k hk
    rw [← ha]
    exact Nat.le_trans hlen (hq.win k hk).1

end Verif.Proofs
