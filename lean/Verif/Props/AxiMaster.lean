import Verif.Proofs.AxiMaster
import Verif.Props.AxiMasterWr
import Verif.Props.AxiMasterRd
import Verif.Props.TlpDemux
/-!
C92-C94: the AXI master for reads and writes. The histories start with a reset in any state.
-/
namespace Verif.Props
open Verif Verif.Model Verif.Spec Verif.Proofs

/-! ### C92: writes -/

/-- **C92** (partial: TLPs as `AxbWritesOk` says). At any time the bytes written by the AXI transfers done are the first of the bytes
that the memory writes accepted ask for, in order. -/
theorem C92_writes_partial (c : AxbCfg) (hc : AxwCfgOk c.wr) (s : Axb) (r : AxbIn) (hr : r.rst = true) (is : List AxbIn)
    (hn : ∀ i ∈ is, i.rst = false) (hw : AxbWritesOk c (axbTaken c (axbStep c s r) is)) :
    axiWrites (2 ^ c.tb) (axbAws c (axbStep c s r) is) (axbWs c (axbStep c s r) is) <+:
      (axwAll (axbTaken c (axbStep c s r) is)).flatMap (tlpWrites c.wr) := by
  rw [axbAws_eq, axbWs_eq]
  have h := axb_wr_words c s r hr is hn hw.1
  obtain ⟨ok, fit⟩ := axb_wr_ok c s r hr is hn hw
  have hn' := axbWrIns_norst c (axbStep c s r) is hn
  rw [axbShown] at h
  -- a cycle in which the interface is ready and no word is there
  let idle : AxwIn := { data := fun _ => 0, hdr := ⟨0, 0, 0, 0⟩, valid := false, sop := false, eop := false, awReady := true, wReady := true }
  obtain ⟨n, hl, hrd⟩ := C73_ready_partial c.wr hc s.wr (axbWrIn s r) hr (axbWrIns c (axbStep c s r) is) (List.replicate 48 idle) hn'
    (fun i hi => by rw [List.eq_of_mem_replicate hi]; exact ⟨rfl, rfl, rfl⟩) (by simp) ok fit
  generalize hT : axwTaken c.wr (axbStep c s r).wr (axbWrIns c (axbStep c s r) is) = T at *
  generalize hI : axbWrIns c (axbStep c s r) is = I at *
  have hs1 : axwStep c.wr s.wr (axbWrIn s r) = (axbStep c s r).wr := rfl
  rw [hs1] at hrd
  have htk : (List.replicate 48 idle).take n = List.replicate n idle := by
    rw [List.take_replicate]; rw [List.length_replicate] at hl; rw [Nat.min_eq_left hl]
  rw [htk] at hrd
  let last : AxwIn := if (axbRun c (axbStep c s r) is).dm.valid 1 then axbSegW ((axbRun c (axbStep c s r) is).dm.word 0) else idle
  have hlast : last.rst = false := by
    show AxwIn.rst (if _ then _ else _) = false
    split <;> rfl
  have hTE : axwTaken c.wr (axbStep c s r).wr (I ++ (List.replicate n idle ++ [last])) =
      T ++ (if (axbRun c (axbStep c s r) is).dm.valid 1 then [last] else []) := by
    rw [axwTaken_append, axwTaken_append, axwTaken_idle _ (List.replicate n idle) (fun i hi => by rw [List.eq_of_mem_replicate hi]),
      ← axwRun_append, axwTaken_cons, axwTakeNow, hrd, hT]
    have : last.valid = (axbRun c (axbStep c s r) is).dm.valid 1 := by
      show AxwIn.valid (if _ then _ else _) = _
      split <;> rename_i hv
      · rw [hv]; rfl
      · rw [Bool.eq_false_iff.2 hv]
    rw [this]
    cases (axbRun c (axbStep c s r) is).dm.valid 1 <;> simp [axwTaken, axwTrace]
  have hnorm : (axwTaken c.wr (axbStep c s r).wr (I ++ (List.replicate n idle ++ [last]))).map axbNorm = axbOf 1 (axbTaken c (axbStep c s r) is) := by
    rw [hTE, List.map_append, ← h]
    congr 1
    show List.map axbNorm (if _ then [(if _ then _ else _)] else []) = _
    cases (axbRun c (axbStep c s r) is).dm.valid 1 <;> rfl
  have hE := C70_memory_partial c.wr hc s.wr (axbWrIn s r) hr (I ++ (List.replicate n idle ++ [last])) (by
      intro i hi
      rcases List.mem_append.1 hi with hi | hi
      · exact hn' i hi
      rcases List.mem_append.1 hi with hi | hi
      · rw [List.eq_of_mem_replicate hi]
      · rw [List.mem_singleton.1 hi]; exact hlast)
    ((axbNorm_inOk _ _).1 (by rw [hs1, hnorm]; exact axbOf_inOk _ 1 _ hw.2.1))
    ((axbNorm_fits _ _).1 (by rw [hs1, hnorm]; exact axbOf_fits _ 1 _ hw.2.2))
  rw [hs1, (axb_wr_writes c.wr _ _ hnorm).1] at hE
  refine List.IsPrefix.trans ?_ hE
  rw [axwAws_append, axwWs_append]
  exact axiWrites_prefix _ _ _ _ _ (List.prefix_append _ _)

/-- **C92** (partial: TLPs as `AxbWritesOk` says). If the AXI write channels are ready, all bytes of the TLPs accepted completely are
written within 96 cycles, whatever is accepted then, and whatever the read side does. -/
theorem C92_done_partial (c : AxbCfg) (hc : AxwCfgOk c.wr) (s : Axb) (r : AxbIn) (hr : r.rst = true) (is js : List AxbIn)
    (hn : ∀ i ∈ is, i.rst = false) (hj : ∀ i ∈ js, i.rst = false ∧ i.wReady = true ∧ i.awReady = true) (hl : 96 ≤ js.length)
    (hw : AxbWritesOk c (axbTaken c (axbStep c s r) (is ++ js))) :
    (axwSplit (axbTaken c (axbStep c s r) is)).1.flatMap (tlpWrites c.wr) <+:
      axiWrites (2 ^ c.tb) (axbAws c (axbStep c s r) (is ++ js)) (axbWs c (axbStep c s r) (is ++ js)) := by
  have hs1 : axwStep c.wr s.wr (axbWrIn s r) = (axbStep c s r).wr := rfl
  have hnj : ∀ i ∈ is ++ js, i.rst = false := by
    intro i hi
    rcases List.mem_append.1 hi with hi | hi
    · exact hn i hi
    · exact (hj i hi).1
  have hwp : ∀ a b, is ++ js = a ++ b → AxbWritesOk c (axbTaken c (axbStep c s r) a) := by
    intro a b h
    rw [h, axbTaken_append] at hw
    exact axbWritesOk_prefix c _ _ hw
  have hnp : ∀ a b, is ++ js = a ++ b → ∀ i ∈ a, i.rst = false := fun a b h i hi => hnj i (by rw [h]; exact List.mem_append_left _ hi)
  obtain ⟨ok, fit⟩ := axb_wr_ok c s r hr is hn (hwp is js rfl)
  have hjs : ∀ (s1 : Axb) (l : List AxbIn), (∀ i ∈ l, i ∈ js) → ∀ i ∈ axbWrIns c s1 l, i.rst = false ∧ i.wReady = true ∧ i.awReady = true := by
    intro s1 l hl i hi
    obtain ⟨x, hx, rfl⟩ := List.mem_map.1 hi
    exact hj x.2 (hl _ (axbTrace_mem c l _ x hx))
  obtain ⟨n, h1, h2⟩ := C73_ready_partial c.wr hc s.wr (axbWrIn s r) hr (axbWrIns c (axbStep c s r) is)
    (axbWrIns c (axbRun c (axbStep c s r) is) (js.take 48)) (axbWrIns_norst _ _ _ hn) (hjs _ _ fun i hi => (List.take_subset _ _) hi)
    (by rw [axbWrIns_length, List.length_take]; omega) ok fit
  rw [axbWrIns_length, List.length_take] at h1
  rw [hs1, axbWrIns_take, ← axbWrIns_append, ← axbRun_wr, List.take_take, Nat.min_eq_left (by omega)] at h2
  -- then the demultiplexer is empty at the next cycle
  obtain ⟨j, rest, hrest⟩ : ∃ j rest, js.drop n = j :: rest := by
    cases hd : js.drop n with
    | nil => have := congrArg List.length hd; rw [List.length_drop, List.length_nil] at this; omega
    | cons j rest => exact ⟨j, rest, rfl⟩
  have hlr : 47 ≤ rest.length := by
    have := congrArg List.length hrest
    rw [List.length_drop, List.length_cons] at this; omega
  have hsplit : is ++ js = (is ++ js.take n) ++ (j :: rest) := by rw [← hrest, List.append_assoc, List.take_append_drop]
  have hsplit2 : is ++ js = ((is ++ js.take n) ++ [j]) ++ rest := by rw [hsplit]; simp
  have hwords := axb_wr_words c s r hr (is ++ js.take n) (hnp _ _ hsplit) (hwp _ _ hsplit).1
  have hT : (axwTaken c.wr (axbStep c s r).wr (axbWrIns c (axbStep c s r) ((is ++ js.take n) ++ [j]))).map axbNorm =
      axbOf 1 (axbTaken c (axbStep c s r) (is ++ js.take n)) := by
    rw [← hwords, axbWrIns_append, axwTaken_append, List.map_append, ← axbRun_wr]
    congr 1
    rw [axbWrIns_cons, axwTaken_cons, axwTakeNow, h2, axbShown]
    show List.map _ ((if (true && (axbRun c (axbStep c s r) (is ++ js.take n)).dm.valid 1) = true then _ else _) ++ []) = _
    cases (axbRun c (axbStep c s r) (is ++ js.take n)).dm.valid 1 <;> rfl
  have hok2 := axb_wr_ok c s r hr (is ++ js) hnj hw
  rw [hsplit2, axbWrIns_append] at hok2
  have hdone := C73_done_partial c.wr hc s.wr (axbWrIn s r) hr (axbWrIns c (axbStep c s r) ((is ++ js.take n) ++ [j]))
    (axbWrIns c (axbRun c (axbStep c s r) ((is ++ js.take n) ++ [j])) rest) (axbWrIns_norst _ _ _ (hnp _ _ hsplit2))
    (hjs _ _ fun i hi => (List.drop_subset n js) (by rw [hrest]; exact List.mem_cons_of_mem _ hi)) (by rw [axbWrIns_length]; exact hlr)
    hok2.1 hok2.2
  rw [hs1, (axb_wr_writes c.wr _ _ hT).2, ← axbWrIns_append, ← axbAws_eq, ← axbWs_eq, ← hsplit2] at hdone
  refine List.IsPrefix.trans ?_ hdone
  rw [axbTaken_append]
  exact flatMap_prefix _ (axwSplit_mono _ _)

/-- **C92** (partial: TLPs as `AxbWritesOk` says). No write burst is longer than the maximum. -/
theorem C92_length_partial (c : AxbCfg) (hc : AxwCfgOk c.wr) (s : Axb) (r : AxbIn) (hr : r.rst = true) (is : List AxbIn)
    (hn : ∀ i ∈ is, i.rst = false) (hw : AxbWritesOk c (axbTaken c (axbStep c s r) is)) :
    ∀ b ∈ axbAws c (axbStep c s r) is, b.2 + 1 ≤ c.burst := by
  intro b hb
  rw [axbAws_eq] at hb
  obtain ⟨ok, fit⟩ := axb_wr_ok c s r hr is hn hw
  exact (C71_legal_partial c.wr hc s.wr (axbWrIn s r) hr (axbWrIns c (axbStep c s r) is) (axbWrIns_norst c (axbStep c s r) is hn) ok fit b hb).1

/-! ### C93: reads -/

/-- **C93** (partial: TLPs as `AxbReadsOk` says). At any time the words of completions sent are the first of those that the memory reads
accepted need, in order: header fields, data read from AXI for the request, strobes and ends. -/
theorem C93_data_partial (c : AxbCfg) (hc : AxrCfgOk c.rd) (m cid : Nat) (hm : m < 8) (hcid : cid < 2 ^ 16) (mem : Nat → Nat → UInt8) (s : Axb)
    (r : AxbIn) (hr : r.rst = true) (is : List AxbIn) (hset : AxbSet m cid is) (hsl : AxbSlave c mem (axbStep c s r) is)
    (hw : AxbReadsOk c m (axbTaken c (axbStep c s r) is)) :
    (axbSent c (axbStep c s r) is).map (axrView (2 ^ c.tb)) <+: jobsWords (2 ^ c.tb) mem 0 (axbJobs c m cid (axbTaken c (axbStep c s r) is)) := by
  have h := C74_data_partial c.rd hc m cid hm hcid mem s.rd (axbRdIn s r) hr _ (axb_rd_hist c m cid mem s r hr is hset hsl hw)
  rw [axbSent_eq]
  refine List.IsPrefix.trans h ?_
  obtain ⟨t, ht⟩ := axb_rd_reqs c s r hr is (fun i hi => (hset i hi).1) hw.1
  unfold axbJobs
  rw [← axb_jobs_filter, ← ht, List.flatMap_append, axb_jobs_norm, jobsWords_append]
  exact List.prefix_append _ _

/-- **C93** (partial: TLPs as `AxbReadsOk` says). The bursts read are the first of those that the completions need, one for each
completion and in order. -/
theorem C93_bursts_partial (c : AxbCfg) (hc : AxrCfgOk c.rd) (m cid : Nat) (hm : m < 8) (hcid : cid < 2 ^ 16) (mem : Nat → Nat → UInt8) (s : Axb)
    (r : AxbIn) (hr : r.rst = true) (is : List AxbIn) (hset : AxbSet m cid is) (hsl : AxbSlave c mem (axbStep c s r) is)
    (hw : AxbReadsOk c m (axbTaken c (axbStep c s r) is)) :
    axbArs c (axbStep c s r) is <+: (axbJobs c m cid (axbTaken c (axbStep c s r) is)).filterMap (jobBurst (2 ^ c.tb)) := by
  have h := C75_bursts_partial c.rd hc m cid hm hcid mem s.rd (axbRdIn s r) hr _ (axb_rd_hist c m cid mem s r hr is hset hsl hw)
  rw [axbArs_eq]
  refine List.IsPrefix.trans ((List.prefix_append _ _).trans h) ?_
  obtain ⟨t, ht⟩ := axb_rd_reqs c s r hr is (fun i hi => (hset i hi).1) hw.1
  unfold axbJobs
  rw [← axb_jobs_filter, ← ht, List.flatMap_append, axb_jobs_norm, List.filterMap_append]
  exact List.prefix_append _ _

/-- **C93** (partial: TLPs as `AxbReadsOk` says). If completions and read addresses are accepted and data is there, within 4589 cycles as
many completions have been sent as the requests accepted before need, whatever is accepted then, and whatever the write side does. -/
theorem C93_done_partial (c : AxbCfg) (hc : AxrCfgOk c.rd) (m cid : Nat) (hm : m < 8) (hcid : cid < 2 ^ 16) (mem : Nat → Nat → UInt8) (s : Axb)
    (r : AxbIn) (hr : r.rst = true) (is js : List AxbIn) (hset : AxbSet m cid (is ++ js)) (hsl : AxbSlave c mem (axbStep c s r) (is ++ js))
    (hw : AxbReadsOk c m (axbTaken c (axbStep c s r) (is ++ js))) (hg : AxbGood c mem (axbStep c s r) is js) (hl : 4589 ≤ js.length) :
    (axbJobs c m cid (axbTaken c (axbStep c s r) is)).length ≤ ((axbSent c (axbStep c s r) (is ++ js)).filter (·.eop)).length := by
  have hs1 : axrStep c.rd s.rd (axbRdIn s r) = (axbStep c s r).rd := rfl
  have hist := axb_rd_hist c m cid mem s r hr (is ++ js) hset hsl hw
  have hgood := axb_rd_good c mem (axbStep c s r) is js hg
  rw [axbRdIns_append] at hist
  obtain ⟨n, h1, h2⟩ := C77_ready_partial c.rd hc m cid hm hcid mem s.rd (axbRdIn s r) hr (axbRdIns c (axbStep c s r) is)
    (axbRdIns c (axbRun c (axbStep c s r) is) (js.take 2294)) (by
      have : is ++ js = (is ++ js.take 2294) ++ js.drop 2294 := by rw [List.append_assoc, List.take_append_drop]
      rw [← axbRdIns_append, this, axbRdIns_append] at hist
      rw [← axbRdIns_append]
      exact axrHist_of_append hist)
    (axb_rd_good c mem (axbStep c s r) is (js.take 2294) (fun pre i hp hq => hg pre i hp (hq.trans
      ((List.prefix_append_right_inj is).2 (List.take_prefix _ _)))))
    (by rw [axbRdIns_length, List.length_take]; omega)
  rw [axbRdIns_length, List.length_take] at h1
  rw [hs1, axbRdIns_take, ← axbRdIns_append, ← axbRun_rd, List.take_take, Nat.min_eq_left (by omega)] at h2
  obtain ⟨j, rest, hrest⟩ : ∃ j rest, js.drop n = j :: rest := by
    cases hd : js.drop n with
    | nil => have := congrArg List.length hd; rw [List.length_drop, List.length_nil] at this; omega
    | cons j rest => exact ⟨j, rest, rfl⟩
  have hlr : 2294 ≤ rest.length := by
    have := congrArg List.length hrest
    rw [List.length_drop, List.length_cons] at this; omega
  have hsplit : is ++ js = (is ++ js.take n) ++ (j :: rest) := by rw [← hrest, List.append_assoc, List.take_append_drop]
  have hsplit2 : is ++ js = ((is ++ js.take n) ++ [j]) ++ rest := by rw [hsplit]; simp
  have hsop : AxbSop (axbTaken c (axbStep c s r) (is ++ js.take n)) := by
    have := hw.1
    rw [hsplit, axbTaken_append] at this
    exact axbSop_prefix _ _ this
  have hwords := axb_rd_words c s r hr (is ++ js.take n) (fun i hi => (hset i (by rw [hsplit]; exact List.mem_append_left _ hi)).1) hsop
  have hT : (axrReqs c.rd (axbStep c s r).rd (axbRdIns c (axbStep c s r) ((is ++ js.take n) ++ [j]))).map axbRdNorm =
      ((axbHeads (axbTaken c (axbStep c s r) (is ++ js.take n))).filter fun w => axbTo 0 [w]).map axbCut := by
    rw [← (axbOf_heads 0 _ hsop).1, ← hwords]
    unfold axrReqs
    rw [← axbRdNorm_heads]
    congr 1
    rw [axbRdIns_append, axbRdIns_cons, show axbRdIns c _ [] = [] from rfl, axrTaken_snoc, List.map_append, ← axbRun_rd]
    congr 1
    rw [h2, axbShown]
    show List.map _ (if (true && (axbRun c (axbStep c s r) (is ++ js.take n)).dm.valid 0) = true then _ else _) = _
    cases (axbRun c (axbStep c s r) (is ++ js.take n)).dm.valid 0 <;> rfl
  have hist2 := axb_rd_hist c m cid mem s r hr (is ++ js) hset hsl hw
  rw [hsplit2, axbRdIns_append] at hist2
  have hdone := C77_done_partial c.rd hc m cid hm hcid mem s.rd (axbRdIn s r) hr _ _ hist2
    (axb_rd_good c mem (axbStep c s r) _ rest (fun pre i hp hq => hg pre i (by
      refine List.IsPrefix.trans ?_ hp
      rw [List.append_assoc]; exact List.prefix_append _ _) (by rw [hsplit2]; exact hq)))
    (by rw [axbRdIns_length]; exact hlr)
  rw [hs1, ← axb_jobs_norm, hT, axb_jobs_filter, ← axbRdIns_append, ← axbSent_eq, ← hsplit2] at hdone
  refine Nat.le_trans ?_ hdone
  unfold axbJobs
  rw [axbTaken_append]
  refine (flatMap_prefix (fun w => axrJobs c.rd m cid w.hdr) (?_ : axbHeads _ <+: axbHeads _)).length_le
  exact axbHeads_prefix _ _

/-- **C93** (partial: TLPs as `AxbReadsOk` says). No read burst crosses a 4 KB boundary or has more than 256 transfers. If the maximum
burst length is a power of two, a burst that starts in the first DWORD of the bus has at most that length, and any other one transfer
more. -/
theorem C93_legal_partial (c : AxbCfg) (hc : AxrCfgOk c.rd) (m cid : Nat) (hm : m < 8) (hcid : cid < 2 ^ 16) (mem : Nat → Nat → UInt8) (s : Axb)
    (r : AxbIn) (hr : r.rst = true) (is : List AxbIn) (hset : AxbSet m cid is) (hsl : AxbSlave c mem (axbStep c s r) is)
    (hw : AxbReadsOk c m (axbTaken c (axbStep c s r) is)) :
    ∀ b ∈ axbArs c (axbStep c s r) is, (b.1 / 2 ^ c.tb * 2 ^ c.tb) % 4096 + (b.2 + 1) * 2 ^ c.tb ≤ 4096 ∧ b.2 + 1 ≤ 256 ∧
      (∀ k, c.burst = 2 ^ k → b.2 + 1 ≤ c.burst + 1 ∧ (b.1 % 2 ^ c.tb < 4 → b.2 + 1 ≤ c.burst)) := by
  intro b hb
  rw [axbArs_eq] at hb
  exact C75_legal_partial c.rd hc m cid hm hcid mem s.rd (axbRdIn s r) hr _ (axb_rd_hist c m cid mem s r hr is hset hsl hw) b hb

/-! ### C94: progress and order -/

/-- **C94** (partial: TLPs as `AxbWritesOk` and `AxbReadsOk` say). If the other sides are not waited for, the input is ready again within
2295 cycles. -/
theorem C94_ready_partial (c : AxbCfg) (hcw : AxwCfgOk c.wr) (hc : AxrCfgOk c.rd) (m cid : Nat) (hm : m < 8) (hcid : cid < 2 ^ 16)
    (mem : Nat → Nat → UInt8) (s : Axb) (r : AxbIn) (hr : r.rst = true) (is js : List AxbIn) (hset : AxbSet m cid (is ++ js))
    (hsl : AxbSlave c mem (axbStep c s r) (is ++ js)) (hw : AxbReadsOk c m (axbTaken c (axbStep c s r) (is ++ js)))
    (hww : AxbWritesOk c (axbTaken c (axbStep c s r) (is ++ js))) (hg : AxbGood c mem (axbStep c s r) is js)
    (hj : ∀ i ∈ js, i.wReady = true ∧ i.awReady = true) (hl : 2296 ≤ js.length) :
    ∃ n j, n ≤ 2295 ∧ js[n]? = some j ∧ axbReady (axbRun c (axbStep c s r) (is ++ js.take n)) j = true := by
  have hnj : ∀ i ∈ is ++ js, i.rst = false := fun i hi => (hset i hi).1
  have hnj2 : ∀ i ∈ js, i.rst = false := fun i hi => hnj i (List.mem_append_right _ hi)
  -- it is enough that the port at which there may be a word gets ready
  have key : ∀ p n, p < 2 → n ≤ 2294 → (axbRun c (axbStep c s r) is).dm.valid (1 - p) = false →
      (if p = 0 then (axbRun c (axbStep c s r) (is ++ js.take n)).rd.rxReady else (axbRun c (axbStep c s r) (is ++ js.take n)).wr.ready) = true →
      ∃ n j, n ≤ 2295 ∧ js[n]? = some j ∧ axbReady (axbRun c (axbStep c s r) (is ++ js.take n)) j = true := by
    intro p n hp hnl hv hrdy
    have hle : n + 1 < js.length := by omega
    have hrt : ∀ i ∈ js.take n, i.rst = false := fun i hi => hnj2 i (List.take_subset _ _ hi)
    rcases axb_keep c (axbRun c (axbStep c s r) is) (1 - p) (by omega) (js.take n) hrt hv with ⟨k, j, h1, h2, h3⟩ | hk
    · rw [List.length_take, Nat.min_eq_left (by omega)] at h1
      rw [List.take_take, Nat.min_eq_left (by omega), ← axbRun_append] at h3
      rw [List.getElem?_take, if_pos h1] at h2
      exact ⟨k, j, by omega, h2, h3⟩
    · rw [← axbRun_append] at hk
      have g1 : js[n]? = some js[n] := List.getElem?_eq_getElem (by omega)
      have g2 : js[n + 1]? = some js[n + 1] := List.getElem?_eq_getElem hle
      have hstep : axbRun c (axbStep c s r) (is ++ js.take (n + 1)) = axbStep c (axbRun c (axbStep c s r) (is ++ js.take n)) js[n] := by
        rw [List.take_succ_eq_append_getElem (by omega), ← List.append_assoc, axbRun_append]; rfl
      rcases C79_progress axbTdm (axbRun c (axbStep c s r) (is ++ js.take n)).dm (axbDmIn (axbRun c (axbStep c s r) (is ++ js.take n)) js[n])
          (axbDmIn (axbRun c (axbStep c s r) (is ++ js.take (n + 1))) js[n + 1]) (hnj2 _ (List.getElem_mem _)) rfl (by
            intro q hq hne
            have hqv : q ≠ 1 - p := by
              rintro rfl
              apply hne; rw [axbShown, hk]; rfl
            have hqp : q = p := by
              have : q < 2 := hq
              omega
            subst hqp
            exact hrdy) with h | h
      · exact ⟨n, js[n], by omega, g1, h⟩
      · exact ⟨n + 1, js[n + 1], by omega, g2, by unfold axbReady; rw [hstep] at h ⊢; exact h⟩
  have hww1 : AxbWritesOk c (axbTaken c (axbStep c s r) is) := by
    rw [axbTaken_append] at hww; exact axbWritesOk_prefix c _ _ hww
  rcases axb_onehot c s r hr is (fun i hi => hnj i (List.mem_append_left _ hi)) with hv | hv
  · -- the write side
    obtain ⟨ok, fit⟩ := axb_wr_ok c s r hr is (fun i hi => hnj i (List.mem_append_left _ hi)) hww1
    obtain ⟨n, h1, h2⟩ := C73_ready_partial c.wr hcw s.wr (axbWrIn s r) hr (axbWrIns c (axbStep c s r) is)
      (axbWrIns c (axbRun c (axbStep c s r) is) (js.take 48)) (axbWrIns_norst _ _ _ fun i hi => hnj i (List.mem_append_left _ hi)) (by
        intro i hi
        obtain ⟨x, hx, rfl⟩ := List.mem_map.1 hi
        have hx := List.take_subset _ _ (axbTrace_mem c _ _ x hx)
        exact ⟨hnj2 _ hx, hj _ hx⟩)
      (by rw [axbWrIns_length, List.length_take]; omega) ok fit
    rw [axbWrIns_length, List.length_take] at h1
    rw [show axwStep c.wr s.wr (axbWrIn s r) = (axbStep c s r).wr from rfl, axbWrIns_take, ← axbWrIns_append, ← axbRun_wr, List.take_take,
      Nat.min_eq_left (by omega)] at h2
    exact key 1 n (by decide) (by omega) hv h2
  · -- the read side
    have hist := axb_rd_hist c m cid mem s r hr (is ++ js) hset hsl hw
    obtain ⟨n, h1, h2⟩ := C77_ready_partial c.rd hc m cid hm hcid mem s.rd (axbRdIn s r) hr (axbRdIns c (axbStep c s r) is)
      (axbRdIns c (axbRun c (axbStep c s r) is) (js.take 2294)) (by
        have : is ++ js = (is ++ js.take 2294) ++ js.drop 2294 := by rw [List.append_assoc, List.take_append_drop]
        rw [this, axbRdIns_append] at hist
        rw [← axbRdIns_append]
        exact axrHist_of_append hist)
      (axb_rd_good c mem (axbStep c s r) is (js.take 2294) (fun pre i hp hq => hg pre i hp (hq.trans
        ((List.prefix_append_right_inj is).2 (List.take_prefix _ _)))))
      (by rw [axbRdIns_length, List.length_take]; omega)
    rw [axbRdIns_length, List.length_take] at h1
    rw [show axrStep c.rd s.rd (axbRdIn s r) = (axbStep c s r).rd from rfl, axbRdIns_take, ← axbRdIns_append, ← axbRun_rd, List.take_take,
      Nat.min_eq_left (by omega)] at h2
    exact key 0 n (by decide) (by omega) hv h2

/-- **C94** (partial: 96 cycles between the write and the read, in which the AXI write channels are ready). The bytes of memory writes
accepted have been written when a read starts later than that, and at any later time. -/
theorem C94_order_partial (c : AxbCfg) (hc : AxwCfgOk c.wr) (s : Axb) (r : AxbIn) (hr : r.rst = true) (is js ks : List AxbIn)
    (hn : ∀ i ∈ is, i.rst = false) (hj : ∀ i ∈ js, i.rst = false ∧ i.wReady = true ∧ i.awReady = true) (hl : 96 ≤ js.length)
    (hw : AxbWritesOk c (axbTaken c (axbStep c s r) (is ++ js))) :
    (axwSplit (axbTaken c (axbStep c s r) is)).1.flatMap (tlpWrites c.wr) <+:
      axiWrites (2 ^ c.tb) (axbAws c (axbStep c s r) (is ++ js ++ ks)) (axbWs c (axbStep c s r) (is ++ js ++ ks)) := by
  refine (C92_done_partial c hc s r hr is js hn hj hl hw).trans ?_
  rw [axbAws_eq, axbWs_eq, axbAws_eq, axbWs_eq, axbWrIns_append c _ ks, axwAws_append, axwWs_append]
  exact axiWrites_prefix _ _ _ _ _ (List.prefix_append _ _)

/-! ### Concrete cases -/

/-- A 64-bit bus and bursts of 16 transfers. -/
def axbExC : AxbCfg := { tb := 3, addrW := 32, burst := 16, force64 := false }

theorem axbExC_wr : AxwCfgOk axbExC.wr := ⟨by decide, by decide, by decide⟩
theorem axbExC_rd : AxrCfgOk axbExC.rd := ⟨by decide, by decide, by decide, by decide⟩

/-- The inputs in one cycle: a word at the TLP input, which of the other interfaces are ready (completions, write address, write data,
read address), and data from the read channel, that of a burst at an address. -/
def axbEx (h : TlpHdr) (d : Nat) (valid sop eop tx aw w ar : Bool) (beat : Option (Nat × Nat)) : AxbIn :=
  { data := d, hdr := ((h.dw0 * 2 ^ 32 + h.dw1) * 2 ^ 32 + h.dw2) * 2 ^ 32 + h.dw3, valid := valid, sop := sop, eop := eop, txReady := tx,
    awReady := aw, wReady := w, arReady := ar, rData := fun k => (beat.map fun x => axrExMem x.1 (x.2 + k)).getD 0xee, rValid := beat.isSome,
    cid := 0x1234, mps := 0 }

/-- A reset. -/
def axbExRst : AxbIn := { axbEx ⟨0, 0, 0, 0⟩ 0 true true true true true true true none with rst := true }

/-- A state in the middle of transfers. -/
def axbExState : Axb :=
  { dm := { sel := 1, drop := true, frame := true, valid := fun _ => true }, rd := axrExState, wr := axwExState, pm := ⟨3, true⟩ }

/-- The state after the reset. -/
def axbEx0 : Axb := axbStep axbExC axbExState axbExRst

/-- A cycle without word. -/
def axbExI (beat : Option (Nat × Nat)) : AxbIn := axbEx ⟨0, 0, 0, 0⟩ 0 false false false true true true true beat

/-- A write of two words, a read of three DWORDs and one of one DWORD. -/
def axbExIs : List AxbIn :=
  [axbEx axwExW 0x1716151413121110 true true false true true true true none, axbEx axwExW 0x2726252423222120 true false true true true true true none,
   axbEx axrExR 0 true true true true true true true none, axbEx axrExR 0 true true true true true true true none,
   axbEx axrExR1 0 true true true true true true true none, axbExI none, axbExI none, axbExI none, axbExI (some (0, 256)), axbExI (some (0, 264)),
   axbExI none, axbExI none, axbExI (some (1, 512)), axbExI none, axbExI none, axbExI none]

/-- A check of the hypotheses of the theorems. -/
def axbHistB (c : AxbCfg) (m cid : Nat) (mem : Nat → Nat → UInt8) (s : Axb) (is : List AxbIn) : Bool :=
  (is.all fun i => !i.rst && i.mps == m && i.cid == cid) &&
  ((List.range (is.length + 1)).all fun n =>
    ((axbRs c s (is.take n)).map fun d => (List.range (2 ^ c.tb)).map d).isPrefixOf (burstData (2 ^ c.tb) mem 0 (axbArs c s (is.take n)))) &&
  ((axwAll (axbTaken c s is)).all fun g => (List.range g.length).all fun k => (g[k]?.any (·.sop)) == (k == 0)) &&
  ((axbHeads (axbTaken c s is)).all fun w => !tlpIsPrefix w.hdr && (tlpIsWrite w.hdr || (!tlpIsMsg w.hdr && !tlpIsUr w.hdr &&
    (!tlpIsRead w.hdr || (w.eop && decide (axrTlpAddr c.rd w.hdr % 4096 + 4 * hdrLen w.hdr ≤ 4096 ∧
      (4 * hdrLen w.hdr ≤ axrMax c.rd m → axrTlpAddr c.rd w.hdr % 2 ^ c.tb + 4 * hdrLen w.hdr ≤ 256 * 2 ^ c.tb)))))))

theorem axbHistB_spec (c : AxbCfg) (m cid : Nat) (mem : Nat → Nat → UInt8) (s : Axb) (is : List AxbIn) (h : axbHistB c m cid mem s is = true) :
    AxbSet m cid is ∧ AxbSlave c mem s is ∧ AxbReadsOk c m (axbTaken c s is) := by
  unfold axbHistB at h
  simp only [Bool.and_eq_true] at h
  obtain ⟨⟨⟨h1, h2⟩, h3⟩, h4⟩ := h
  rw [List.all_eq_true] at h1 h2 h3 h4
  refine ⟨?_, ?_, ?_, ?_⟩
  · intro i hi
    have := h1 i hi
    simp only [Bool.and_eq_true, Bool.not_eq_true', beq_iff_eq] at this
    exact ⟨this.1.1, this.1.2, this.2⟩
  · intro pre hp
    have e := List.prefix_iff_eq_take.1 hp
    have := h2 pre.length (List.mem_range.2 (by have := hp.length_le; omega))
    rw [← e] at this
    exact List.isPrefixOf_iff_prefix.1 this
  · intro g hg k w hk
    have := List.all_eq_true.1 (h3 g hg) k (List.mem_range.2 (tdm_get_lt hk))
    rw [hk, Option.any_some, beq_iff_eq] at this
    rw [this, beq_iff_eq]
  · intro w hw
    have := h4 w hw
    simp only [Bool.and_eq_true, Bool.not_eq_true', Bool.or_eq_true, decide_eq_true_eq] at this
    refine ⟨this.1, fun hwr => ?_⟩
    rcases this.2 with h | h
    · rw [hwr] at h; cases h
    · refine ⟨h.1.1, h.1.2, fun hr => ?_⟩
      rcases h.2 with h | h
      · rw [hr] at h; cases h
      · exact h

theorem axbEx_hist : AxbSet 0 0x1234 axbExIs ∧ AxbSlave axbExC axrExMem axbEx0 axbExIs ∧ AxbReadsOk axbExC 0 (axbTaken axbExC axbEx0 axbExIs) :=
  axbHistB_spec _ _ _ _ _ _ (by decide +kernel)

theorem axbEx_writes : AxbWritesOk axbExC (axbTaken axbExC axbEx0 axbExIs) := ⟨axbEx_hist.2.2.1, by decide +kernel, by decide +kernel⟩

/-- The write and the reads are accepted, the bytes are written, and the completions are sent. -/
example : (axwAll (axbTaken axbExC axbEx0 axbExIs)).map (·.length) = [2, 1, 1] ∧
    axiWrites 8 (axbAws axbExC axbEx0 axbExIs) (axbWs axbExC axbEx0 axbExIs) =
      [(0x105, 0x11), (0x106, 0x12), (0x107, 0x13), (0x108, 0x14), (0x109, 0x15), (0x10a, 0x16), (0x10b, 0x17), (0x10c, 0x20), (0x10d, 0x21)] ∧
    axbArs axbExC axbEx0 axbExIs = [(0x105, 1), (0x200, 0)] ∧
    (axbSent axbExC axbEx0 axbExIs).map (fun w => ((cplRec w.hdr).tag, (axrView 8 w).2.1)) =
      [(1, [some 4, some 5, some 6, some 7, some 8, some 9, some 10, some 11]), (1, [some 12, some 13, some 14, some 15, none, none, none, none]),
       (3, [some 16, some 17, some 18, some 19, none, none, none, none])] := ⟨by decide +kernel, by decide +kernel, by decide +kernel, by decide +kernel⟩

/-- After a history with all data read, in a state in which nothing is going on, cycles without word meet the hypotheses of the
theorems about progress. -/
theorem axbRest_ext (c : AxbCfg) (m cid : Nat) (mem : Nat → Nat → UInt8) (s : Axb) (is : List AxbIn) (hset : AxbSet m cid is)
    (hsl : AxbSlave c mem s is) (he : AxrRest (axbRun c s is).rd) (h0 : (axbRun c s is).dm.valid 0 = false) (h1 : (axbRun c s is).dm.valid 1 = false)
    (hd : (axbRs c s is).length = (burstData (2 ^ c.tb) mem 0 (axbArs c s is)).length) (i : AxbIn) (hr : i.rst = false)
    (hm : i.mps = m) (hc : i.cid = cid) (hv : i.valid = false) (ht : i.txReady = true) (ha : i.arReady = true) (n : Nat) :
    AxbSet m cid (is ++ List.replicate n i) ∧ AxbSlave c mem s (is ++ List.replicate n i) ∧ AxbGood c mem s is (List.replicate n i) ∧
    axbTaken c s (is ++ List.replicate n i) = axbTaken c s is := by
  have key : ∀ k, AxrRest (axbRun c s (is ++ List.replicate k i)).rd ∧ (axbRun c s (is ++ List.replicate k i)).dm.valid 0 = false ∧
      (axbRun c s (is ++ List.replicate k i)).dm.valid 1 = false ∧
      axbRs c s (is ++ List.replicate k i) = axbRs c s is ∧ axbArs c s (is ++ List.replicate k i) = axbArs c s is ∧
      axbTaken c s (is ++ List.replicate k i) = axbTaken c s is := by
    intro k
    induction k with
    | zero => simp only [List.replicate_zero, List.append_nil]; exact ⟨he, h0, h1, trivial, trivial, trivial⟩
    | succ k ih =>
      obtain ⟨g1, g2, g3, g4, g5, g6⟩ := ih
      have hdm : ∀ p, p < 2 → (axbRun c s (is ++ List.replicate k i)).dm.valid p = false →
          (axbStep c (axbRun c s (is ++ List.replicate k i)) i).dm.valid p = false := by
        intro p hp hvp
        have e := (tdm_step axbTdm (axbRun c s (is ++ List.replicate k i)).dm (axbDmIn (axbRun c s (is ++ List.replicate k i)) i) hr).2 p hp
        rw [axbItems, hv, axbShown _ p, hvp] at e
        simp only [Bool.false_eq_true, if_false, ite_self, tdmRoute, List.append_nil] at e
        have e := (List.append_eq_nil_iff.1 e).2
        rw [axbShown] at e
        show (tdmStep axbTdm _ _).valid p = false
        cases hx : (tdmStep axbTdm (axbRun c s (is ++ List.replicate k i)).dm (axbDmIn (axbRun c s (is ++ List.replicate k i)) i)).valid p with
        | false => rfl
        | true => rw [hx] at e; cases e
      rw [List.replicate_succ', ← List.append_assoc, axbRun_append]
      refine ⟨axrRest_step c.rd _ g1 _ hr g2, hdm 0 (by decide) g2, hdm 1 (by decide) g3, ?_, ?_, ?_⟩
      · rw [← g4]; unfold axbRs; rw [axbTrace_append, List.filterMap_append]
        simp [axbTrace, g1.rReady]
      · rw [← g5]; unfold axbArs; rw [axbTrace_append, List.filterMap_append]
        simp [axbTrace, g1.arV]
      · rw [axbTaken_append, g6]
        simp [axbTaken, axbTrace, hv]
  have split : ∀ pre, pre <+: is ++ List.replicate n i → pre <+: is ∨ ∃ k, pre = is ++ List.replicate k i := by
    intro pre hp
    rcases List.prefix_or_prefix_of_prefix hp (List.prefix_append is _) with h | ⟨t, rfl⟩
    · exact Or.inl h
    · refine Or.inr ⟨t.length, ?_⟩
      have ht := (List.prefix_append_right_inj is).1 hp
      have h1 := List.prefix_iff_eq_take.1 ht
      have h2 := ht.length_le
      rw [List.take_replicate] at h1
      rw [List.length_replicate] at h2
      rw [Nat.min_eq_left h2] at h1
      rw [← h1]
  refine ⟨?_, ?_, ?_, (key n).2.2.2.2.2⟩
  · intro x hx
    rcases List.mem_append.1 hx with hx | hx
    · exact hset x hx
    · rw [List.eq_of_mem_replicate hx]; exact ⟨hr, hm, hc⟩
  · intro pre hp
    rcases split pre hp with h | ⟨k, rfl⟩
    · exact hsl pre h
    · obtain ⟨_, _, _, g4, g5, _⟩ := key k
      rw [g4, g5]; exact hsl is List.prefix_rfl
  · intro pre j hp hq
    obtain ⟨u, rfl⟩ := hp
    have hk : u ++ [j] <+: List.replicate n i := by
      rw [List.append_assoc] at hq; exact (List.prefix_append_right_inj is).1 hq
    have e1 := List.prefix_iff_eq_take.1 hk
    rw [List.take_replicate] at e1
    have hj : j = i := List.eq_of_mem_replicate (n := min (u ++ [j]).length n) (by rw [← e1]; simp)
    have hu : u = List.replicate u.length i := by
      rw [List.eq_replicate_iff]
      refine ⟨rfl, fun b hb => ?_⟩
      have hb : b ∈ u ++ [j] := List.mem_append_left _ hb
      rw [e1] at hb
      exact List.eq_of_mem_replicate hb
    refine ⟨by rw [hj, ht], by rw [hj, ha], fun hlt => ?_⟩
    obtain ⟨_, _, _, g4, g5, _⟩ := key u.length
    rw [← hu] at g4 g5
    rw [g4, g5] at hlt; omega

/-- The hypotheses of the theorems about progress hold for the example and more cycles. -/
example (n : Nat) : AxbSet 0 0x1234 (axbExIs ++ List.replicate n (axbExI none)) ∧
    AxbSlave axbExC axrExMem axbEx0 (axbExIs ++ List.replicate n (axbExI none)) ∧
    AxbGood axbExC axrExMem axbEx0 axbExIs (List.replicate n (axbExI none)) ∧
    AxbReadsOk axbExC 0 (axbTaken axbExC axbEx0 (axbExIs ++ List.replicate n (axbExI none))) ∧
    AxbWritesOk axbExC (axbTaken axbExC axbEx0 (axbExIs ++ List.replicate n (axbExI none))) ∧
    ∀ i ∈ List.replicate n (axbExI none), i.rst = false ∧ i.wReady = true ∧ i.awReady = true := by
  obtain ⟨g1, g2, g3, g4⟩ := axbRest_ext axbExC 0 0x1234 axrExMem axbEx0 axbExIs axbEx_hist.1 axbEx_hist.2.1
    ⟨by decide +kernel, by decide +kernel, by decide +kernel, by decide +kernel, by decide +kernel⟩ (by decide +kernel) (by decide +kernel)
    (by decide +kernel) (axbExI none) rfl rfl rfl rfl rfl rfl n
  refine ⟨g1, g2, g3, by rw [g4]; exact axbEx_hist.2.2, by rw [g4]; exact axbEx_writes, ?_⟩
  intro i hi
  rw [List.eq_of_mem_replicate hi]
  exact ⟨rfl, rfl, rfl⟩

/-! ### Order and blocking -/

/-- A write of one DWORD to 0x200, and then a read of it; the write channels are not ready. -/
def axbExPass : List AxbIn :=
  [axbEx ⟨0x40000001, 0x0f, 0x200, 0⟩ 0xdeadbeef true true true true false false true none, axbEx axrExR1 0 true true true true false false true none,
   axbEx axrExR1 0 false false false true false false true none, axbEx axrExR1 0 false false false true false false true none,
   axbEx axrExR1 0 false false false true false false true none, axbEx axrExR1 0 false false false true false false true none]

/-- **C94** fails: a read overtakes a write to the same address that was accepted before it, when the AXI write channels are not ready. -/
theorem C94_order_fails : ¬ ∀ (c : AxbCfg) (m cid : Nat) (mem : Nat → Nat → UInt8) (s : Axb) (r : AxbIn) (is : List AxbIn), AxwCfgOk c.wr →
    AxrCfgOk c.rd → m < 8 → cid < 2 ^ 16 → r.rst = true → AxbSet m cid is → AxbSlave c mem (axbStep c s r) is →
    AxbReadsOk c m (axbTaken c (axbStep c s r) is) → AxbWritesOk c (axbTaken c (axbStep c s r) is) → AxbOrder c m cid (axbStep c s r) is := by
  intro h
  have hh := axbHistB_spec axbExC 0 0x1234 axrExMem axbEx0 axbExPass (by decide +kernel)
  have := h axbExC 0 0x1234 axrExMem axbExState axbExRst axbExPass axbExC_wr axbExC_rd (by decide) (by decide) rfl hh.1 hh.2.1 hh.2.2
    ⟨hh.2.2.1, by decide +kernel, by decide +kernel⟩ ((axbTaken axbExC axbEx0 axbExPass).take 1) ((axbTaken axbExC axbEx0 axbExPass).drop 1)
    (List.take_append_drop _ _).symm (by decide +kernel)
  exact absurd this (by decide +kernel)

/-- Four reads, when completions are not accepted. -/
def axbExFull : List AxbIn :=
  [axbEx axrExR 0 true true true false true true true none, axbEx axrExR1 0 true true true false true true true none,
   axbEx axrExR1 0 false false false false true true true none, axbEx axrExR1 0 false false false false true true true none,
   axbEx axrExR1 0 false false false false true true true none, axbEx axrExR1 0 false false false false true true true none,
   axbEx axrExR1 0 false false false false true true true (some (0, 256)), axbEx axrExR1 0 false false false false true true true (some (0, 264)),
   axbEx axrExR1 0 false false false false true true true none, axbEx axrExR1 0 true true true false true true true none,
   axbEx axrExR1 0 true true true false true true true none, axbEx axrExR1 0 false false false false true true true none,
   axbEx axrExR1 0 false false false false true true true none, axbEx axrExR1 0 false false false false true true true none]

/-- The completion side waits for a completion to be accepted, with a request behind it and another one in the demultiplexer. -/
structure AxbStuck (e : Axb) : Prop where
  st : e.rd.st = .idle
  ts : e.rd.ts = .header
  cmdV : e.rd.cmdV = true
  rx : e.rd.rxReady = false
  ready : e.rd.out.ready = false
  outV : e.rd.out.outV = true
  tempV : e.rd.out.tempV = true
  dm : e.dm.valid 0 = true

theorem axbStuck_ready (e : Axb) (h : AxbStuck e) (i : AxbIn) : axbReady e i = false := by
  cases hx : axbReady e i with
  | false => rfl
  | true =>
    exfalso
    rcases ((C79_ready axbTdm e.dm (axbDmIn e i)).1 hx).2 with hx | hx
    · have := hx 0 (by decide)
      rw [axbShown, h.dm] at this; cases this
    · have : e.rd.rxReady = true := hx 0 (by decide)
      rw [h.rx] at this; cases this

theorem axbStuck_step (c : AxbCfg) (e : Axb) (h : AxbStuck e) (i : AxbIn) (hr : i.rst = false) (ht : i.txReady = false) : AxbStuck (axbStep c e i) := by
  have hh : axrHead e.rd (axbRdIn e i) = false := by unfold axrHead; rw [h.rx]; simp
  have hgo : axrGo e.rd (axbRdIn e i) = false := by unfold axrGo; rw [h.ready]; simp
  have hf : axrFire e.rd (axbRdIn e i) = false := by unfold axrFire; rw [hgo]; rfl
  have hen : axrEnd e.rd (axbRdIn e i) = false := by unfold axrEnd; rw [hf, h.ts]; rfl
  have hl : axrLoad e.rd (axbRdIn e i) = false := by unfold axrLoad; rw [hen, h.ts]; rfl
  have hsk : ∀ w, let k := skidStep false e.rd.out (axrFire e.rd (axbRdIn e i) || (e.rd.ts == .cpl && e.rd.out.ready)) w i.txReady
      k.ready = false ∧ k.outV = true ∧ k.tempV = true := by
    intro w
    rw [hf, h.ts, ht]
    unfold skidStep
    simp [h.ready, h.outV, h.tempV]
  have hst := axrStep_norst c.rd e.rd (axbRdIn e i) hr
  have hd : (axbStep c e i).dm.valid 0 = true := by
    have := C79_stable axbTdm e.dm (axbDmIn e i) hr 0 (by decide) h.rx (by rw [axbShown, h.dm]; simp)
    rw [axbShown, axbShown, h.dm] at this
    show (tdmStep axbTdm e.dm (axbDmIn e i)).valid 0 = true
    cases hx : (tdmStep axbTdm e.dm (axbDmIn e i)).valid 0 with
    | true => rfl
    | false => rw [hx] at this; cases this
  refine ⟨?_, ?_, ?_, ?_, ?_, ?_, ?_, hd⟩ <;> show _ = _ <;> (rw [show (axbStep c e i).rd = axrStep c.rd e.rd (axbRdIn e i) from rfl, hst])
  · show axrStNext e.rd (axbRdIn e i) = .idle
    unfold axrStNext; rw [h.st, hh]; rfl
  · show axrTsNext e.rd (axbRdIn e i) = .header
    unfold axrTsNext; rw [h.ts, hf]; rfl
  · show ((axrHead e.rd (axbRdIn e i) && axrIsUr (axbRdIn e i).hdr) || axrIssue e.rd || (e.rd.cmdV && !axrLoad e.rd (axbRdIn e i))) = true
    rw [hl, h.cmdV]; simp
  · show axrRxNext e.rd (axbRdIn e i) = false
    unfold axrRxNext axrRxSpace; rw [h.st, hh, h.cmdV]; simp
  · exact (hsk _).1
  · exact (hsk _).2.1
  · exact (hsk _).2.2

/-- **C94** fails: as long as completions are not accepted, four reads keep all later memory writes from being accepted, although all AXI
channels are ready; PCIe requires that posted requests can pass reads. -/
theorem C94_block_fails : AxbSet 0 0x1234 axbExFull ∧ AxbSlave axbExC axrExMem axbEx0 axbExFull ∧
    AxbReadsOk axbExC 0 (axbTaken axbExC axbEx0 axbExFull) ∧ (axbHeads (axbTaken axbExC axbEx0 axbExFull)).map (fun w => tlpIsRead w.hdr) = [true, true, true, true] ∧
    ∀ js : List AxbIn, (∀ i ∈ js, i.rst = false ∧ i.txReady = false) → ∀ i, axbReady (axbRun axbExC axbEx0 (axbExFull ++ js)) i = false := by
  have hh := axbHistB_spec axbExC 0 0x1234 axrExMem axbEx0 axbExFull (by decide +kernel)
  refine ⟨hh.1, hh.2.1, hh.2.2, by decide +kernel, ?_⟩
  have key : ∀ js : List AxbIn, (∀ i ∈ js, i.rst = false ∧ i.txReady = false) → AxbStuck (axbRun axbExC axbEx0 (axbExFull ++ js)) := by
    refine tdm_snoc_ind ?_ ?_
    · intro _
      exact ⟨by decide +kernel, by decide +kernel, by decide +kernel, by decide +kernel, by decide +kernel, by decide +kernel, by decide +kernel,
        by decide +kernel⟩
    · intro js i ih hj
      obtain ⟨h1, h2⟩ := hj i (by simp)
      rw [← List.append_assoc, axbRun_append]
      exact axbStuck_step _ _ (ih fun x hx => hj x (by simp [hx])) i h1 h2
  exact fun js hj i => axbStuck_ready _ (key js hj) i

end Verif.Props
