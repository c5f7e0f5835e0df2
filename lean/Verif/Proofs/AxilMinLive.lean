import Verif.Proofs.AxilMin
/-! The minimal AXI lite master: progress. -/
namespace Verif.Proofs
open Verif Verif.Model Verif.Spec

/-- The cycles for the current response. -/
def axmStage (s : Axm) : Nat :=
  if s.rdV then
    match s.st with
    | .idle => 2
    | .read => if s.rReady then 1 else 2
    | .write => if s.bReady then 1 else 2
    | .cpl => 1
  else 3

/-- The cycles until `n` responses are finished, when `d` are. -/
def axmDist (n d : Nat) (s : Axm) : Nat := if n ≤ d then 0 else 2 * (n - d - 1) + axmStage s

theorem axm_dist_step {c : AxmCfg} {P : Nat → Prop} {s : Axm} {reqs : List AxmIn} {aws : List Nat} {ws : List (Nat × Nat)} {ars rs : List Nat}
    {nb : Nat} {sent : List (TlpHdr × Nat × Nat)} {done : List (AxmResp × Nat × Nat)} (h : AxmInv c P s reqs aws ws ars rs nb sent done)
    (i : AxmIn) (hi : i.rst = false) (ht : i.txReady = true) (hr : i.rValid = true) (hb : i.bValid = true) (n : Nat)
    (hn : n ≤ (reqs.filterMap (axmRsp c)).length) :
    axmDist n (done.length + (axmDone s i).toNat) (axmStep c s i) ≤ axmDist n done.length s - 1 := by
  have hs : axmStep c s i = axmNext c s i := by unfold axmStep; rw [hi]; rfl
  rw [hs]
  have hl := congrArg List.length h.resp
  simp only [List.length_append, List.length_map, ringList_length] at hl
  have e1 : (axmNext c s i).rdV = (axmFetch s i || (s.rdV && !axmDone s i)) := rfl
  have e2 : (axmNext c s i).st = axmStNext s i := rfl
  have e3 : (axmNext c s i).rReady =
    (((s.st == .idle && s.rdV && s.rd.read) || (s.st == .read && !(s.rReady && i.rValid))) && (!s.txV || i.txReady)) := rfl
  have e4 : (axmNext c s i).bReady =
    ((s.st == .idle && s.rdV && !s.rd.read && s.rd.write) || (s.st == .write && !(s.bReady && i.bValid))) := rfl
  have hE : ringEmpty s.fifo = decide (ringCount 5 s.fifo = 0) := ring_empty 5 _ h.ring
  have hF : axmFetch s i = (!(s.rdV && !axmDone s i) && !decide (ringCount 5 s.fifo = 0)) := by unfold axmFetch; rw [hE]
  unfold axmDist axmStage
  rw [e1, e2, e3, e4, hF]
  generalize (List.filterMap (axmRsp c) reqs).length = L at *
  generalize ringCount 5 s.fifo = k at *
  by_cases h0 : n ≤ done.length
  · rw [if_pos (by omega), if_pos h0]; exact Nat.le_refl _
  rw [if_neg h0]
  cases hv : s.rdV with
  | false =>
    have hst : s.st = .idle := by
      cases hc : s.st with
      | idle => rfl
      | _ => exact absurd (h.st (by rw [hc]; decide)) (by rw [hv]; decide)
    rw [hv] at hl
    simp only [Bool.false_eq_true, if_false, List.length_nil] at hl
    have hk : k ≠ 0 := by omega
    have hD : axmDone s i = false := by simp [axmDone, axmRTake, axmBTake, axmCTake, hst]
    have hN : axmStNext s i = .idle := by simp [axmStNext, hst, hv]
    rw [hD, hN]
    simp [hk, h0]
  | true =>
    rw [hv] at hl
    simp only [if_true, List.length_cons, List.length_nil] at hl
    have hfin : axmDone s i = true → axmStNext s i = .idle →
        (if n ≤ done.length + (axmDone s i).toNat then 0 else
          2 * (n - (done.length + (axmDone s i).toNat) - 1) +
            if (!(true && !axmDone s i) && !decide (k = 0) || true && !axmDone s i) = true then 2 else 3) ≤ 2 * (n - done.length - 1) := by
      intro hD _
      rw [hD]
      by_cases hk : k = 0
      · have : n ≤ done.length + 1 := by omega
        simp [this]
      · simp [hk]; split <;> omega
    cases hc : s.st with
    | idle =>
      have hD : axmDone s i = false := by simp [axmDone, axmRTake, axmBTake, axmCTake, hc]
      have hN : axmStNext s i = if s.rd.read then .read else if s.rd.write then .write else .cpl := by simp [axmStNext, hc, hv]
      rw [hD, hN]
      cases hrd : s.rd.read <;> cases hwr : s.rd.write <;> simp [ht, hr, hb, h0]
    | read =>
      cases hrd : s.rReady
      · have hD : axmDone s i = false := by simp [axmDone, axmRTake, axmBTake, axmCTake, hc, hrd]
        have hN : axmStNext s i = .read := by simp [axmStNext, hc, hD]
        rw [hD, hN]
        simp [ht, hr, h0]
      · have hD : axmDone s i = true := by simp [axmDone, axmRTake, axmBTake, axmCTake, hc, hrd, hr]
        have hN : axmStNext s i = .idle := by simp [axmStNext, hc, hD]
        have := hfin hD hN
        rw [hN]
        simpa using this
    | write =>
      cases hrd : s.bReady
      · have hD : axmDone s i = false := by simp [axmDone, axmRTake, axmBTake, axmCTake, hc, hrd]
        have hN : axmStNext s i = .write := by simp [axmStNext, hc, hD]
        rw [hD, hN]
        simp [hb, h0]
      · have hD : axmDone s i = true := by simp [axmDone, axmRTake, axmBTake, axmCTake, hc, hrd, hb]
        have hN : axmStNext s i = .idle := by simp [axmStNext, hc, hD]
        have := hfin hD hN
        rw [hN]
        simpa using this
    | cpl =>
      have hD : axmDone s i = true := by simp [axmDone, axmRTake, axmBTake, axmCTake, hc, ht]
      have hN : axmStNext s i = .idle := by simp [axmStNext, hc, hD]
      have := hfin hD hN
      rw [hN]
      simpa using this

/-- At most 38 cycles are needed for what has been received. -/
theorem axm_dist_bound {c : AxmCfg} {P : Nat → Prop} {s : Axm} {reqs : List AxmIn} {aws : List Nat} {ws : List (Nat × Nat)} {ars rs : List Nat}
    {nb : Nat} {sent : List (TlpHdr × Nat × Nat)} {done : List (AxmResp × Nat × Nat)} (h : AxmInv c P s reqs aws ws ars rs nb sent done) :
    axmDist (reqs.filterMap (axmRsp c)).length done.length s ≤ 38 := by
  have hl := congrArg List.length h.resp
  simp only [List.length_append, List.length_map, ringList_length] at hl
  have hc := h.cnt
  unfold axmDist axmStage
  generalize (List.filterMap (axmRsp c) reqs).length = L at *
  generalize ringCount 5 s.fifo = k at *
  cases hv : s.rdV <;> rw [hv] at hl
  · simp only [Bool.false_eq_true, if_false, List.length_nil] at hl ⊢; split <;> omega
  · simp only [if_true, List.length_cons, List.length_nil] at hl ⊢
    split
    · omega
    · split
      · omega
      · split <;> omega
      · split <;> omega
      · omega

theorem axm_dist_run {c : AxmCfg} {P : Nat → Prop} (n : Nat) (is : List AxmIn) : ∀ {s : Axm} {reqs : List AxmIn} {aws : List Nat}
    {ws : List (Nat × Nat)} {ars rs : List Nat} {nb : Nat} {sent : List (TlpHdr × Nat × Nat)} {done : List (AxmResp × Nat × Nat)},
    AxmInv c P s reqs aws ws ars rs nb sent done → n ≤ (reqs.filterMap (axmRsp c)).length → (∀ i ∈ is, AxmGood i) → (∀ i ∈ is, P i.cid) →
    ∃ done', AxmInv c P (axmRun c s is) (reqs ++ axmHeadsFrom c s is) (aws ++ axmAws c s is) (ws ++ axmWs c s is)
      (ars ++ axmArs c s is) (rs ++ axmRs c s is) (nb + axmBs c s is) (sent ++ axmSent c s is) done' ∧
      axmDist n done'.length (axmRun c s is) ≤ axmDist n done.length s - is.length := by
  induction is with
  | nil =>
    intro s reqs aws ws ars rs nb sent done h _ _ _
    exact ⟨done, by simpa [axmRun, axmHeadsFrom, axmAws, axmWs, axmArs, axmRs, axmBs, axmSent, axmTrace] using h, Nat.le_refl _⟩
  | cons i is ih =>
    intro s reqs aws ws ars rs nb sent done h hn h1 h2
    have h1 := List.forall_mem_cons.mp h1
    have h2 := List.forall_mem_cons.mp h2
    obtain ⟨g1, g2, g3, g4, -, -, -⟩ := h1.1
    have hd := axm_dist_step h i g1 g2 g3 g4 n hn
    obtain ⟨done', h', hd'⟩ := ih (axm_inv_step h i g1 h2.1) (by rw [List.filterMap_append, List.length_append]; omega) h1.2 h2.2
    refine ⟨done', ?_, ?_⟩
    · have e1 : axmHeadsFrom c s (i :: is) = (if axmHead s i then [i] else []) ++ axmHeadsFrom c (axmStep c s i) is := by
        simp only [axmHeadsFrom, axmTrace, List.filterMap_cons]; cases axmHead s i <;> rfl
      have e2 : axmAws c s (i :: is) = (if s.awV && i.awReady then [s.addr] else []) ++ axmAws c (axmStep c s i) is := by
        simp only [axmAws, axmTrace, List.filterMap_cons]; cases s.awV && i.awReady <;> rfl
      have e3 : axmWs c s (i :: is) = (if s.wV && i.wReady then [(s.wdata, s.wstrb)] else []) ++ axmWs c (axmStep c s i) is := by
        simp only [axmWs, axmTrace, List.filterMap_cons]; cases s.wV && i.wReady <;> rfl
      have e4 : axmArs c s (i :: is) = (if s.arV && i.arReady then [s.addr] else []) ++ axmArs c (axmStep c s i) is := by
        simp only [axmArs, axmTrace, List.filterMap_cons]; cases s.arV && i.arReady <;> rfl
      have e5 : axmRs c s (i :: is) = (if s.rReady && i.rValid then [i.rData] else []) ++ axmRs c (axmStep c s i) is := by
        simp only [axmRs, axmTrace, List.filterMap_cons]; cases s.rReady && i.rValid <;> rfl
      have e6 : axmBs c s (i :: is) = (s.bReady && i.bValid).toNat + axmBs c (axmStep c s i) is := by
        simp only [axmBs, axmTrace, List.countP_cons]; cases s.bReady && i.bValid <;> simp <;> omega
      have e7 : axmSent c s (i :: is) = (if s.txV && i.txReady then [(s.tx, s.txStrb, s.txData)] else []) ++ axmSent c (axmStep c s i) is := by
        simp only [axmSent, axmTrace, List.filterMap_cons]; cases s.txV && i.txReady <;> rfl
      rw [e1, e2, e3, e4, e5, e6, e7]
      simp only [← List.append_assoc, ← Nat.add_assoc]
      exact h'
    · have hlen : (done ++ if axmDone s i then [(s.rd, i.rData, i.cid)] else []).length = done.length + (axmDone s i).toNat := by
        cases axmDone s i <;> simp
      rw [hlen] at hd'
      show axmDist n done'.length (axmRun c (axmStep c s i) is) ≤ _
      rw [List.length_cons]
      omega

theorem axmSent_append (c : AxmCfg) (s : Axm) (is js : List AxmIn) :
    axmSent c s (is ++ js) = axmSent c s is ++ axmSent c (axmRun c s is) js := by
  unfold axmSent; rw [axmTrace_append, List.filterMap_append]

/-- The number of responses with completions. -/
theorem outs_count (done : List (AxmResp × Nat × Nat)) :
    (done.filterMap axmOutOf).length = (done.map (·.1)).countP (fun x => x.read || !x.write) := by
  induction done with
  | nil => rfl
  | cons x xs ih =>
    rw [List.filterMap_cons, List.map_cons, List.countP_cons, ← ih]
    unfold axmOutOf
    cases x.1.read <;> cases x.1.write <;> simp

theorem need_count (c : AxmCfg) (reqs : List AxmIn) (hk : ∀ i ∈ reqs, AxReqOk i.rxHdr) :
    (reqs.filterMap (axmRsp c)).countP (fun x => x.read || !x.write) =
      reqs.countP (fun i => axNeed i.rxHdr != .write && axNeed i.rxHdr != .nothing) := by
  induction reqs with
  | nil => rfl
  | cons i is ih =>
    have hk := List.forall_mem_cons.mp hk
    have hn := axNeed_kind i.rxHdr hk.1
    rw [List.countP_cons, ← ih hk.2, List.filterMap_cons]
    cases hx : axmKind i.rxHdr <;> rw [hx] at hn <;> simp only at hn <;> rw [hn] <;>
      simp [axmRsp, axmHasResp, axmRespOf, hx]

theorem axm_completed (c : AxmCfg) (s : Axm) (r : AxmIn) (is1 is2 : List AxmIn) (hr : r.rst = true) (h1 : ∀ i ∈ is1, i.rst = false)
    (h2 : ∀ i ∈ is2, AxmGood i) (hlen : 39 ≤ is2.length) (hk : ∀ i ∈ axmReqs c (axmStep c s r) is1, AxReqOk i.rxHdr) :
    (axmReqs c (axmStep c s r) is1).countP (fun i => axNeed i.rxHdr != .write && axNeed i.rxHdr != .nothing) ≤
      (axmSent c (axmStep c s r) (is1 ++ is2)).length := by
  obtain ⟨done1, g1⟩ := axm_inv (c := c) (P := fun _ => True) s r is1 hr h1 (fun _ _ => trivial)
  rw [← need_count c _ hk]
  rw [axmSent_append]
  generalize axmReqs c (axmStep c s r) is1 = reqs at *
  generalize axmRun c (axmStep c s r) is1 = e at *
  generalize axmSent c (axmStep c s r) is1 = sent at *
  generalize axmAws c (axmStep c s r) is1 = aws at *
  generalize axmWs c (axmStep c s r) is1 = ws at *
  generalize axmArs c (axmStep c s r) is1 = ars at *
  generalize axmRs c (axmStep c s r) is1 = rs at *
  generalize axmBs c (axmStep c s r) is1 = nb at *
  obtain ⟨i, js, rfl⟩ : ∃ i js, is2 = js ++ [i] := by
    refine ⟨is2.getLast (by intro hn; rw [hn] at hlen; simp at hlen), is2.dropLast, ?_⟩
    exact (List.dropLast_concat_getLast _).symm
  have hg := h2 i (by simp)
  have hd := axm_dist_bound g1
  obtain ⟨done2, g2, hd2⟩ := axm_dist_run _ js g1 (Nat.le_refl _) (fun j hj => h2 j (by simp [hj])) (fun _ _ => trivial)
  simp only [List.length_append, List.length_cons, List.length_nil] at hlen
  have hz : axmDist (reqs.filterMap (axmRsp c)).length done2.length (axmRun c e js) = 0 := by omega
  have hle : (reqs.filterMap (axmRsp c)).length ≤ done2.length := by
    unfold axmDist axmStage at hz
    split at hz
    · assumption
    · exfalso
      split at hz
      · split at hz
        · omega
        · split at hz <;> omega
        · split at hz <;> omega
        · omega
      · omega
  rw [axmSent_append]
  have hs : axmSent c (axmRun c e js) [i] = if (axmRun c e js).txV then [((axmRun c e js).tx, (axmRun c e js).txStrb, (axmRun c e js).txData)] else [] := by
    simp only [axmSent, axmTrace, List.filterMap_cons, List.filterMap_nil, hg.2.1, Bool.and_true]; cases (axmRun c e js).txV <;> rfl
  have ho := g2.out
  rw [hs, ← List.append_assoc, ho, outs_count]
  have hp : reqs.filterMap (axmRsp c) <+: done2.map (·.1) := by
    have q1 : done2.map (·.1) <+: (reqs ++ axmHeadsFrom c e js).filterMap (axmRsp c) := by
      rw [← g2.resp, List.append_assoc]; exact List.prefix_append _ _
    have q2 : reqs.filterMap (axmRsp c) <+: (reqs ++ axmHeadsFrom c e js).filterMap (axmRsp c) := by
      rw [List.filterMap_append]; exact List.prefix_append _ _
    exact List.prefix_of_prefix_length_le q2 q1 (by rw [List.length_map]; exact hle)
  obtain ⟨t, hp⟩ := hp
  rw [← hp, List.countP_append]
  omega

/-! ### Ready again -/

theorem axm_heads_none {c : AxmCfg} (is : List AxmIn) : ∀ s : Axm, (∀ k ≤ is.length, (axmRun c s (is.take k)).rxReady = false) → axmHeadsFrom c s is = [] := by
  induction is with
  | nil => intro s _; rfl
  | cons i is ih =>
    intro s h
    have h0 : s.rxReady = false := h 0 (by simp)
    have : axmHeadsFrom c s (i :: is) = (if axmHead s i then [i] else []) ++ axmHeadsFrom c (axmStep c s i) is := by
      simp only [axmHeadsFrom, axmTrace, List.filterMap_cons]; cases axmHead s i <;> rfl
    rw [this, ih _ (fun k hk => h (k + 1) (by rw [List.length_cons]; omega))]
    simp [axmHead, h0]

theorem axm_ready (c : AxmCfg) (s : Axm) (r : AxmIn) (is1 is2 : List AxmIn) (hr : r.rst = true) (h1 : ∀ i ∈ is1, i.rst = false)
    (h2 : ∀ i ∈ is2, AxmGood i) (hlen : 40 ≤ is2.length) :
    ∃ k ≤ 40, (axmRun c (axmStep c s r) (is1 ++ is2.take k)).rxReady = true := by
  obtain ⟨done1, g1⟩ := axm_inv (c := c) (P := fun _ => True) s r is1 hr h1 (fun _ _ => trivial)
  have hrun : ∀ k, axmRun c (axmStep c s r) (is1 ++ is2.take k) = axmRun c (axmRun c (axmStep c s r) is1) (is2.take k) := fun k => axmRun_append c _ _ _
  simp only [hrun]
  generalize axmReqs c (axmStep c s r) is1 = reqs at *
  generalize axmRun c (axmStep c s r) is1 = e at *
  generalize axmSent c (axmStep c s r) is1 = sent at *
  generalize axmAws c (axmStep c s r) is1 = aws at *
  generalize axmWs c (axmStep c s r) is1 = ws at *
  generalize axmArs c (axmStep c s r) is1 = ars at *
  generalize axmRs c (axmStep c s r) is1 = rs at *
  generalize axmBs c (axmStep c s r) is1 = nb at *
  clear hrun h1 hr
  by_cases hx : ∃ k ≤ 40, (axmRun c e (is2.take k)).rxReady = true
  · exact hx
  exfalso
  have hno : ∀ k ≤ 40, (axmRun c e (is2.take k)).rxReady = false := by
    intro k hk
    cases hv : (axmRun c e (is2.take k)).rxReady with
    | false => rfl
    | true => exact absurd ⟨k, hk, hv⟩ hx
  obtain ⟨js, i1, i2, ks, hj, hjl⟩ : ∃ js i1 i2 ks, is2 = js ++ i1 :: i2 :: ks ∧ js.length = 38 := by
    refine ⟨is2.take 38, is2[38], is2[39], is2.drop 40, ?_, by rw [List.length_take]; omega⟩
    have := List.take_append_drop 38 is2
    rw [List.drop_eq_getElem_cons (by omega), List.drop_eq_getElem_cons (by omega)] at this
    exact this.symm
  have hd := axm_dist_bound g1
  have hgood := h2
  rw [hj] at hgood
  obtain ⟨done2, g2, hd2⟩ := axm_dist_run _ js g1 (Nat.le_refl _) (fun j hj => hgood j (by simp [hj])) (fun _ _ => trivial)
  have ht : ∀ k ≤ 38, is2.take k = js.take k := fun k hk => by
    rw [hj, List.take_append_of_le_length (by omega)]
  have hheads : axmHeadsFrom c e js = [] := axm_heads_none js e (fun k hk => by rw [← ht k (by omega)]; exact hno k (by omega))
  rw [hheads, List.append_nil] at g2
  have hz : axmDist (reqs.filterMap (axmRsp c)).length done2.length (axmRun c e js) = 0 := by omega
  have hle : (reqs.filterMap (axmRsp c)).length ≤ done2.length := by
    unfold axmDist axmStage at hz
    split at hz
    · assumption
    · exfalso
      split at hz
      · split at hz
        · omega
        · split at hz <;> omega
        · split at hz <;> omega
        · omega
      · omega
  have hl := congrArg List.length g2.resp
  simp only [List.length_append, List.length_map, ringList_length] at hl
  have hk0 : ringCount 5 (axmRun c e js).fifo = 0 := by omega
  have t38 : is2.take 38 = js := by rw [ht 38 (by omega), ← hjl, List.take_length]
  have t39 : is2.take 39 = js ++ [i1] := by
    rw [hj, List.take_append, hjl, List.take_of_length_le (by omega)]; rfl
  have t40 : is2.take 40 = js ++ [i1] ++ [i2] := by
    rw [hj, List.take_append, hjl, List.take_of_length_le (by omega), List.append_assoc]; rfl
  have q1 := hno 38 (by omega)
  have q2 := hno 39 (by omega)
  have q3 := hno 40 (by omega)
  rw [t38] at q1
  rw [t39, axmRun_append] at q2
  rw [t40, axmRun_append, axmRun_append] at q3
  generalize axmRun c e js = f at *
  have hi1 := hgood i1 (by simp)
  have hi2 := hgood i2 (by simp)
  have s1 : axmRun c f [i1] = axmNext c f i1 := by
    show axmStep c f i1 = _
    unfold axmStep; rw [hi1.1]; rfl
  rw [s1] at q2 q3
  have s2 : ∀ f', axmRun c f' [i2] = axmNext c f' i2 := by
    intro f'
    show axmStep c f' i2 = _
    unfold axmStep; rw [hi2.1]; rfl
  rw [s2] at q3
  have hhalf : (axmNext c f i1).half = false := by
    show decide (ringCount 5 f.fifo ≥ 2 ^ 4) = false
    rw [hk0]; rfl
  have hsp : axmSpace (axmNext c f i1) i2 = true := by
    unfold axmSpace; rw [hhalf, hi2.2.2.2.2.1, hi2.2.2.2.2.2.1, hi2.2.2.2.2.2.2]; simp
  have hq3 : axmReadyNext (axmNext c f i1) i2 = false := q3
  have hhd : axmHead (axmNext c f i1) i2 = false := by unfold axmHead; rw [q2]; simp
  unfold axmReadyNext at hq3
  rw [hhd, hsp, q2] at hq3
  cases hw : (axmNext c f i1).wait <;> rw [hw] at hq3 <;> simp at hq3

end Verif.Proofs
