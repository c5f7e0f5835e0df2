import Verif.Proofs.DrdOps
/-! The statuses of the PCIe DMA read interface. -/
namespace Verif.Proofs
open Verif Verif.Model Verif.Spec

theorem op_reset {c : DrdCfg} {opOf : Nat → Nat} (s : Drd) (r : DrdIn) (hr : r.rst = true) :
    OpInv c opOf (drdStep c s r) (pendEnv (drdStep c s r) rdEnv0) 0 [] := by
  have h3 : (drdStep c s r).txV = false := by unfold drdStep; rw [hr]; rfl
  have h4 : (drdStep c s r).init = ⟨0, false, true, true⟩ := by unfold drdStep; rw [hr]; rfl
  have h9 : (drdStep c s r).opTagV = false := by unfold drdStep; rw [hr]; rfl
  have h10 : (drdStep c s r).opFifo = ringReset (drdNext c s r).opFifo := by unfold drdStep; rw [hr]; rfl
  generalize drdStep c s r = s0 at *
  have hp : pendEnv s0 rdEnv0 = rdEnv0 := by unfold pendEnv; rw [h3]; rfl
  have hN : opN c s0.init = 0 := by rw [h4]; rfl
  obtain ⟨f1, f2, _⟩ := ring_reset c.opW (drdNext c s r).opFifo
  rw [← h10] at f1 f2
  rw [hp]
  refine ⟨⟨?_, ?_, ?_, ?_, ?_, ?_, ?_, ?_⟩, fun _ => rfl, f1, ?_, ?_, ?_, ?_, ?_, ?_, ?_, ?_, ?_, ?_, ?_, ?_⟩
  · simp [rdEnv0]
  · simp [rdEnv0]
  · simp [rdEnv0]
  · intro a v b h; simp [rdEnv0] at h
  · intro a v b h; simp [rdEnv0] at h
  · intro m hm; simp [rdEnv0] at hm
  · intro a v b x h; simp [rdEnv0] at h
  · simp [rdEnv0]
  · intro t; rw [f2, h9, hN]; simp
  · simp
  · simp [rdEnv0]
  · simp [rdEnv0]
  · simp [rdEnv0]
  · rw [hN]; simp
  · simp
  · simp
  · simp
  · simp [rdEnv0]
  · simp [rdEnv0]
  · simp [rdEnv0]

/-- The commands for a segment that entries stand for. -/
theorem parts_count {c : DrdCfg} {opOf : Nat → Nat} {k : Nat} (hk : k < c.segs) :
    ∀ {l : List DrdEntry} {m : List RdEvent}, Rel2 (EntryRel c opOf) l m → l.countP (·.mask k) = (drdSegParts c k m).length := by
  intro l
  induction l with
  | nil => intro m h; cases m <;> simp_all [Rel2, drdSegParts]
  | cons a l ih =>
    intro m h
    cases m with
    | nil => simp [Rel2] at h
    | cons b m =>
      rw [List.countP_cons, ih h.2, h.1.mask k hk]
      unfold drdSegParts
      rw [List.map_cons, List.filter_cons]
      cases (!(b.writes.filter (drdInSeg c k)).isEmpty) <;> simp

theorem drdStatuses_cons (c : DrdCfg) (s : Drd) (i : DrdIn) (is : List DrdIn) :
    drdStatuses c s (i :: is) = drdStatus s ++ drdStatuses c (drdStep c s i) is := by
  unfold drdStatuses
  rw [drdTrace, List.flatMap_cons, List.append_assoc]; rfl

theorem out_length {c : DrdCfg} {opOf : Nat → Nat} {s : Drd} {f : RdEnv} (h : DrdInv c opOf s f) : f.out.length ≤ 2 ^ c.tagW := by
  have hn : (f.out.map (·.tag)).Nodup := List.nodup_iff_count.2 h.nodup
  have := nodup_length_le _ (List.range (2 ^ c.tagW)) hn (fun t ht => by
    obtain ⟨r, hr, rfl⟩ := List.mem_map.1 ht
    exact List.mem_range.2 (h.tag_lt hr).2)
  simpa using this

/-- One cycle. -/
theorem status_step {c : DrdCfg} (hc : DrdCfgOk c) (hw : 5 ≤ c.tagW) {m rid : Nat} (hm : 32 ≤ m ∧ m ≤ 512) {opOf : Nat → Nat} {s : Drd}
    {i : DrdIn} {e : RdEnv} {n : Nat} {pend : Nat → Nat} {A : List Nat} (h : EnvInv c m rid opOf s e) (hs : EnvStep c opOf s i e)
    (hr : i.rst = false) (hrid : i.requesterId < 2 ^ 16) (hacc : (s.req.ready && i.valid) = true → opOf e.count = s.opTag)
    (hp : PathInv c opOf s e.evs n pend) (ho : OpInv c opOf s (pendEnv s e) n A)
    (hram : ∀ k < c.segs, i.done k = true → 0 < pend k) :
    PathInv c opOf (drdStep c s i) (e.step c s i).evs (n + (drdPop c s).toNat) (drdPendNext s i pend) ∧
    (∃ A', OpInv c opOf (drdStep c s i) (pendEnv (drdStep c s i) (e.step c s i)) (n + (drdPop c s).toNat) A') ∧
    drdStatus (drdStep c s i) = (((e.step c s i).evs.take (n + (drdPop c s).toNat)).drop n).filterMap (·.status) := by
  obtain ⟨E, e1, e2⟩ := hs.evs
  have hn := drdStep_eq c s i hr
  have hpe := hs.pend
  rw [hn] at e2 hpe ⊢
  obtain ⟨p1, p2⟩ := path_step hp hr hram e2
  obtain ⟨s1, s2, s3, s4, s5⟩ := pendEnv_same s e
  have hacc' : (s.req.ready && i.valid) = true → opOf (pendEnv s e).count = s.opTag := by rw [s4]; exact hacc
  obtain ⟨q1, q2⟩ := req_ev hc h.inv (reqFacts hm h.req hrid) hacc'
  obtain ⟨t1, t2⟩ := envBeat_same c s i (pendEnv s e)
  have hlen : (e.evs.drop n).length ≤ 32 := by
    rw [← rel2_length hp.ents]
    have := hp.full.1
    unfold drdEntries
    rw [List.length_append, List.length_append, ringList_length]
    have a1 : ((if s.curV then [s.cur] else []) : List DrdEntry).length ≤ 1 := by split <;> simp
    have a2 : ((if s.rx.stWr then [drdEntryOf s.rx] else []) : List DrdEntry).length = s.rx.stWr.toNat := by
      cases s.rx.stWr <;> rfl
    omega
  have hpop : drdPop c s = true → ∃ v l, (pendEnv s e).evs.drop n = v :: l ∧ EntryRel c opOf s.cur v ∧ drdOpDone c s = v.status.isSome := by
    intro hpp
    obtain ⟨v, l, g1, g2⟩ := p2 hpp
    rw [← s3] at g1
    refine ⟨v, l, g1, g2, op_done ho hpp g1 g2 ?_⟩
    have b1 : outN (pendEnv s e).out v.num ≤ (pendEnv s e).out.length := List.countP_le_length
    have b2 := out_length h.inv
    rw [s3]
    have b3 : 2 ^ 5 ≤ 2 ^ c.tagW := Nat.pow_le_pow_right (by omega) hw
    have b4 : 2 ^ (c.tagW + 1) = 2 * 2 ^ c.tagW := by rw [Nat.pow_succ, Nat.mul_comm]
    simp only [Nat.reducePow] at b3
    omega
  refine ⟨by rw [e1]; exact p1, ?_, ?_⟩
  · rw [hpe]
    exact op_step ho h.inv q1 q2 t1 t2 hs.beat (by rw [s3]; exact hp.le) hpop
  · have hst : drdStatus (drdNext c s i) = if drdOpDone c s then [(s.ops.tag s.cur.op, drdStError s)] else [] := rfl
    rw [hst]
    by_cases hpp : drdPop c s = true
    · obtain ⟨v, l, g1, g2, g3⟩ := hpop hpp
      rw [hpp, Bool.toNat_true, e1, ← s3]
      have hsp : (pendEnv s e).evs = (pendEnv s e).evs.take n ++ v :: l := by rw [← g1, List.take_append_drop]
      have hl : n ≤ (pendEnv s e).evs.length := by rw [s3]; exact hp.le
      have htk : (((pendEnv s e).evs ++ E).take (n + 1)).drop n = [v] := by
        rw [List.drop_take, List.drop_append_of_le_length hl, g1, show n + 1 - n = 1 by omega]; rfl
      rw [htk, g3]
      cases hv : v.status with
      | none => simp [hv]
      | some x => rw [← op_status ho g1 g2 hv]; simp [hv]
    · have hpp : drdPop c s = false := by simpa using hpp
      have : drdOpDone c s = false := by unfold drdOpDone; rw [hpp]; rfl
      rw [this, hpp, Bool.toNat_false, Nat.add_zero, List.drop_take]; simp

theorem drdPend_count {c : DrdCfg} {s : Drd} {i : DrdIn} {pend : Nat → Nat} (hram : ∀ k < c.segs, i.done k = true → 0 < pend k) {k : Nat}
    (hk : k < c.segs) (is : List DrdIn) :
    pend k + (drdTakenCmds c k s (i :: is)).length + drdDoneCount k is =
      drdPendNext s i pend k + (drdTakenCmds c k (drdStep c s i) is).length + drdDoneCount k (i :: is) := by
  have h1 := hram k hk
  rw [drdTaken_cons]
  unfold drdPendNext drdDoneCount
  rw [List.countP_cons, List.length_append]
  have e1 : ((if (s.out k).valid && i.cmdReady k then [(s.out k).out] else []) : List DrdCmd).length = ((s.out k).valid && i.cmdReady k).toNat := by
    cases (s.out k).valid && i.cmdReady k <;> rfl
  rw [e1]
  cases hd : i.done k with
  | true =>
    have := h1 hd
    simp only [Bool.toNat_true, if_true]; omega
  | false => simp only [Bool.toNat_false, Bool.false_eq_true, if_false]; omega

/-- Statuses. -/
theorem drd_status {c : DrdCfg} (hc : DrdCfgOk c) (hw : 5 ≤ c.tagW) {rid mrrs : Nat} (hmm : mrrs ≤ 4) (hrid : rid < 2 ^ 16) (is : List DrdIn) (s : Drd)
    (r1 r2 : DrdIn) (h1 : r1.rst = true) (h2 : r2.rst = true) (hi : r2.mrrs = mrrs)
    (hh : DrdHist c mrrs rid rdEnv0 (drdStep c (drdStep c s r1) r2) is)
    (hram : DrdRamOk c (fun _ => 0) (drdStep c (drdStep c s r1) r2) is) :
    ∃ opOf n pend A, n ≤ (rdEnv0.run c (drdStep c (drdStep c s r1) r2) is).evs.length ∧
      drdStatuses c (drdStep c (drdStep c s r1) r2) is =
        ((rdEnv0.run c (drdStep c (drdStep c s r1) r2) is).evs.take n).filterMap (·.status) ∧
      PathInv c opOf (drdRun c (drdStep c (drdStep c s r1) r2) is) (rdEnv0.run c (drdStep c (drdStep c s r1) r2) is).evs n pend ∧
      OpInv c opOf (drdRun c (drdStep c (drdStep c s r1) r2) is)
        (pendEnv (drdRun c (drdStep c (drdStep c s r1) r2) is) (rdEnv0.run c (drdStep c (drdStep c s r1) r2) is)) n A ∧
      (∀ k < c.segs, (drdTakenCmds c k (drdStep c (drdStep c s r1) r2) is).length = pend k + drdDoneCount k is) ∧
      EnvInv c (32 * 2 ^ mrrs) rid opOf (drdRun c (drdStep c (drdStep c s r1) r2) is) (rdEnv0.run c (drdStep c (drdStep c s r1) r2) is) := by
  have key := env_history (P := fun opOf s e is => (∀ i ∈ is, i.requesterId = rid) → ∀ n pend A, PathInv c opOf s e.evs n pend →
      OpInv c opOf s (pendEnv s e) n A → DrdRamOk c pend s is →
      ∃ n' pend' A', n ≤ n' ∧ drdStatuses c s is = drdStatus s ++ (((e.run c s is).evs.take n').drop n).filterMap (·.status) ∧
        (∃ E, (e.run c s is).evs = e.evs ++ E) ∧
        PathInv c opOf (drdRun c s is) (e.run c s is).evs n' pend' ∧
        OpInv c opOf (drdRun c s is) (pendEnv (drdRun c s is) (e.run c s is)) n' A' ∧
        (∀ k < c.segs, pend k + (drdTakenCmds c k s is).length = pend' k + drdDoneCount k is) ∧
        EnvInv c (32 * 2 ^ mrrs) rid opOf (drdRun c s is) (e.run c s is))
    hc hmm hrid is (drdStep c s r1) r2 h2 hi hh
    (fun opOf s e h _ n pend A hp ho _ => by
      refine ⟨n, pend, A, Nat.le_refl _, ?_, ⟨[], by simp [RdEnv.run]⟩, hp, ho, ?_, h⟩
      · rw [List.drop_take]; simp [drdStatuses, drdTrace, drdRun]
      · intro k _; simp [drdTakenCmds, drdTrace, drdDoneCount])
    (fun opOf s e i is h h' hs hr _ hacc ih hq n pend A hp ho hram => by
      obtain ⟨g1, g2⟩ := hram
      have hm : 32 ≤ 32 * 2 ^ mrrs ∧ 32 * 2 ^ mrrs ≤ 512 := by
        obtain ⟨m1, m2, _⟩ := mrrs_vals hmm
        have h5 : (if mrrs > 5 then 5 else mrrs) = mrrs := if_neg (by omega)
        rw [h5] at m1 m2
        exact ⟨m1, m2⟩
      obtain ⟨a1, ⟨A1, a2⟩, a3⟩ := status_step hc hw hm h hs hr (by rw [hq i (by simp)]; exact hrid) hacc hp ho g1
      obtain ⟨n', pend', A', b1, b2, ⟨E, b3⟩, b4, b5, b6, b7⟩ := ih (fun x hx => hq x (by simp [hx])) _ _ _ a1 a2 g2
      obtain ⟨E1, c1, -⟩ := hs.evs
      refine ⟨n', pend', A', by omega, ?_, ⟨E1 ++ E, ?_⟩, b4, b5, ?_, b7⟩
      · rw [drdStatuses_cons, b2, a3]
        simp only [RdEnv.run]
        rw [b3]
        generalize (drdPop c s).toNat = q at *
        have hl := a1.le
        generalize (RdEnv.step c s i e).evs = L at *
        have e1 : (L.take (n + q)).drop n = ((L ++ E).take (n + q)).drop n := by
          rw [List.take_append_of_le_length hl]
        rw [e1, ← List.filterMap_append]
        congr 2
        rw [List.drop_take, List.drop_take, List.drop_take, ← List.drop_drop]
        generalize (L ++ E).drop n = M
        rw [show n' - n = (n + q - n) + (n' - (n + q)) by omega, List.take_add]
        congr 1
        rw [show n + q - n = q by omega]
      · simp only [RdEnv.run]; rw [b3, c1, List.append_assoc]
      · intro k hk
        have := b6 k hk
        have := drdPend_count (s := s) (c := c) (i := i) g1 hk is
        omega)
  obtain ⟨opOf, -, hp⟩ := key
  obtain ⟨p1, p2⟩ := path_reset (c := c) (opOf := opOf) s r1 r2 h1 h2
  obtain ⟨n', pend', A', q1, q2, q3, q4, q5, q6, q7⟩ := hp (fun i hi => (hh.inp i hi).2) 0 (fun _ => 0) [] p1
    (op_reset (drdStep c s r1) r2 h2) hram
  have hst : drdStatus (drdStep c (drdStep c s r1) r2) = [] := by
    unfold drdStatus
    have : (drdStep c (drdStep c s r1) r2).stV = false := by
      generalize drdStep c s r1 = s1; unfold drdStep; rw [h2]; rfl
    rw [this]; rfl
  refine ⟨opOf, n', pend', A', q4.le, ?_, q4, q5, ?_, q7⟩
  · rw [q2, hst]; simp
  · intro k hk; have := q6 k hk; omega

/-- The writes that belong to the statuses given are done. -/
theorem status_done {c : DrdCfg} {opOf : Nat → Nat} {s : Drd} {evs : List RdEvent} {n : Nat} {pend : Nat → Nat} {taken done k : Nat}
    (hk : k < c.segs) (hp : PathInv c opOf s evs n pend) (ht : taken = pend k + done)
    (hw : taken + (drdPath c s k).length = (drdSegParts c k evs).length) :
    (drdSegParts c k (evs.take n)).length ≤ done := by
  have h1 := hp.acct k hk
  rw [parts_count hk hp.ents] at h1
  have h2 : drdSegParts c k evs = drdSegParts c k (evs.take n) ++ drdSegParts c k (evs.drop n) := by
    rw [← segParts_append, List.take_append_drop]
  have h3 := congrArg List.length h2
  rw [List.length_append] at h3
  omega

end Verif.Proofs
