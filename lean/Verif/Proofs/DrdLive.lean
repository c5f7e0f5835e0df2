import Verif.Proofs.DrdStatus
/-! Statuses of the PCIe DMA read interface are given in bounded time. -/
namespace Verif.Proofs
open Verif Verif.Model Verif.Spec

theorem entries_len {c : DrdCfg} {opOf : Nat → Nat} {s : Drd} {evs : List RdEvent} {n : Nat} {pend : Nat → Nat}
    (hp : PathInv c opOf s evs n pend) : (drdEntries s).length ≤ 32 := by
  have := hp.full.1
  unfold drdEntries
  rw [List.length_append, List.length_append, ringList_length]
  have a1 : ((if s.curV then [s.cur] else []) : List DrdEntry).length ≤ 1 := by split <;> simp
  have a2 : ((if s.rx.stWr then [drdEntryOf s.rx] else []) : List DrdEntry).length = s.rx.stWr.toNat := by
    cases s.rx.stWr <;> rfl
  omega

theorem segParts_one {c : DrdCfg} {opOf : Nat → Nat} {x : DrdEntry} {v : RdEvent} (h : EntryRel c opOf x v) {k : Nat} (hk : k < c.segs) :
    (drdSegParts c k [v]).length = (x.mask k).toNat := by
  rw [h.mask k hk]
  unfold drdSegParts
  cases hh : (v.writes.filter (drdInSeg c k)).isEmpty <;> simp [hh]

/-- The count of writes done, in a cycle. -/
theorem done_step {c : DrdCfg} {opOf : Nat → Nat} {s : Drd} {i : DrdIn} {evs : List RdEvent} {n : Nat} {pend : Nat → Nat}
    (hp : PathInv c opOf s evs n pend) (hr : i.rst = false) (hram : ∀ k < c.segs, i.done k = true → 0 < pend k)
    (hpop : drdPop c s = true → ∃ v l, evs.drop n = v :: l ∧ EntryRel c opOf s.cur v) {k : Nat} (hk : k < c.segs) :
    (drdSegParts c k (evs.take (n + (drdPop c s).toNat))).length + (drdNext c s i).doneC k =
      (drdSegParts c k (evs.take n)).length + s.doneC k + (i.done k).toNat := by
  have hacct := hp.acct k hk
  have hl := entries_len hp
  have hcl : (drdEntries s).countP (·.mask k) ≤ (drdEntries s).length := List.countP_le_length
  obtain ⟨f1, -⟩ := done_flow (c := c) (i := i) hr hk (hp.doneR k hk) (fun hd => by have := hram k hk hd; omega)
  have f2 : (drdSegParts c k (evs.take (n + (drdPop c s).toNat))).length = (drdSegParts c k (evs.take n)).length + (drdAck c s k).toNat := by
    unfold drdAck
    by_cases hpp : drdPop c s = true
    · obtain ⟨v, l, g1, g2⟩ := hpop hpp
      have : evs.take (n + 1) = evs.take n ++ [v] := by
        rw [List.take_add_one]
        congr 1
        have : evs[n]? = some v := by
          have := congrArg List.head? g1
          rw [List.head?_drop] at this; exact this
        rw [this]; rfl
      rw [hpp, Bool.toNat_true, this, segParts_append, List.length_append, segParts_one g2 hk]; rfl
    · have hpp : drdPop c s = false := by simpa using hpp
      rw [hpp]; rfl
  omega

/-- Cycles until the first entry is in its register. -/
def drdBubble (s : Drd) : Nat := if s.curV then 0 else if ringCount 5 s.fifo = 0 then 2 else 1

theorem bubble_le (s : Drd) : drdBubble s ≤ 2 := by unfold drdBubble; split <;> (try split) <;> omega

/-- An entry whose writes are done is dealt with. -/
theorem pop_live {c : DrdCfg} {opOf : Nat → Nat} {s : Drd} {i : DrdIn} {evs : List RdEvent} {n : Nat} {pend : Nat → Nat} {N : Nat}
    (hp : PathInv c opOf s evs n pend) (hop : s.init.op = false) (hn : n < N) (hN : N ≤ evs.length)
    (hd : ∀ k < c.segs, (drdSegParts c k (evs.take N)).length ≤ (drdSegParts c k (evs.take n)).length + s.doneC k) :
    (drdPop c s = true) ∨ (drdPop c s = false ∧ drdBubble (drdNext c s i) < drdBubble s) := by
  have hne : evs.drop n ≠ [] := by
    intro h0
    have := congrArg List.length h0
    rw [List.length_drop] at this
    simp at this; omega
  have hents := hp.ents
  by_cases hcv : s.curV = true
  · left
    obtain ⟨v, l, hvl⟩ := List.exists_cons_of_ne_nil hne
    have hE : drdEntries s = s.cur :: (ringList 5 s.fifo ++ (if s.rx.stWr then [drdEntryOf s.rx] else [])) := by
      unfold drdEntries; rw [if_pos hcv]; simp
    rw [hE, hvl] at hents
    have hrel := hents.1
    unfold drdPop DrdCfg.allSegs
    rw [hop, hcv]
    simp only [Bool.not_false, Bool.and_self, Bool.true_and, List.all_eq_true, List.mem_range]
    intro k hk
    cases hm : s.cur.mask k with
    | false => rfl
    | true =>
      have h1 := hd k hk
      have hsp : evs.take N = evs.take n ++ v :: l.take (N - n - 1) := by
        rw [show N = n + (N - n) by omega, List.take_add, hvl, show N - n = (N - n - 1) + 1 by omega, List.take_succ_cons]
        simp
      have : 0 < s.doneC k := by
        rw [hsp, segParts_append, List.length_append, show v :: l.take (N - n - 1) = [v] ++ l.take (N - n - 1) from rfl,
          segParts_append, List.length_append, segParts_one hrel hk, hm, Bool.toNat_true] at h1
        omega
      rw [hp.doneR k hk]
      simp [this]
  · right
    have hcv : s.curV = false := by simpa using hcv
    have hpf : drdPop c s = false := by unfold drdPop; rw [hcv]; simp
    refine ⟨hpf, ?_⟩
    have hv : (drdNext c s i).curV = (drdStRd c s || (s.curV && !drdPop c s)) := rfl
    have hrd : drdStRd c s = !ringEmpty s.fifo := by unfold drdStRd; rw [hcv]; simp
    rw [ring_empty 5 _ hp.fifo] at hrd
    by_cases h0 : ringCount 5 s.fifo = 0
    · have hb : drdBubble s = 2 := by unfold drdBubble; rw [hcv, if_pos h0]; rfl
      have hwr : s.rx.stWr = true := by
        cases hw : s.rx.stWr with
        | true => rfl
        | false =>
          have : drdEntries s = [] := by
            have : ringList 5 s.fifo = [] := by
              apply List.eq_nil_of_length_eq_zero; rw [ringList_length]; exact h0
            unfold drdEntries; rw [hcv, hw, this]; rfl
          rw [this] at hents
          have := rel2_length hents
          exact absurd (List.eq_nil_of_length_eq_zero this.symm) hne
      have hrd' : drdStRd c s = false := by rw [hrd, h0]; rfl
      have hf : (drdNext c s i).fifo = ringMove 5 s.fifo s.rx.stWr (drdEntryOf s.rx) (drdStRd c s) := rfl
      rw [hwr, hrd'] at hf
      have hc1 : ringCount 5 (drdNext c s i).fifo = 1 := by
        rw [hf]
        have := (ring_push 5 s.fifo (drdEntryOf s.rx) hp.fifo (by omega)).2.1
        rw [h0] at this
        exact this
      rw [hb]
      unfold drdBubble
      split
      · omega
      · rw [hc1]; simp
    · have hb : drdBubble s = 1 := by unfold drdBubble; rw [hcv, if_neg h0]; rfl
      have : drdStRd c s = true := by rw [hrd]; simp [h0]
      rw [hb]
      unfold drdBubble
      rw [hv, this]; simp

/-- Statuses are given in bounded time. -/
theorem drd_live {c : DrdCfg} (hc : DrdCfgOk c) (hw : 5 ≤ c.tagW) {rid mrrs : Nat} (hmm : mrrs ≤ 4) (hrid : rid < 2 ^ 16) (is : List DrdIn) (s : Drd)
    (r1 r2 : DrdIn) (h1 : r1.rst = true) (h2 : r2.rst = true) (hi : r2.mrrs = mrrs)
    (hh : DrdHist c mrrs rid rdEnv0 (drdStep c (drdStep c s r1) r2) is)
    (hram : DrdRamOk c (fun _ => 0) (drdStep c (drdStep c s r1) r2) is) :
    ∃ n, drdStatuses c (drdStep c (drdStep c s r1) r2) is =
        ((rdEnv0.run c (drdStep c (drdStep c s r1) r2) is).evs.take n).filterMap (·.status) ∧
      ∀ j ≤ is.length,
        (∀ k < c.segs, (drdSegParts c k (rdEnv0.run c (drdStep c (drdStep c s r1) r2) (is.take j)).evs).length ≤ drdDoneCount k (is.take j)) →
        98 ≤ is.length - j → (rdEnv0.run c (drdStep c (drdStep c s r1) r2) (is.take j)).evs.length ≤ n := by
  have key := env_history (P := fun opOf s e is => (∀ i ∈ is, i.requesterId = rid) → ∀ (n : Nat) (pend : Nat → Nat) (A : List Nat) (D : Nat → Nat), PathInv c opOf s e.evs n pend →
      OpInv c opOf s (pendEnv s e) n A → DrdRamOk c pend s is →
      (∀ k < c.segs, (drdSegParts c k (e.evs.take n)).length + s.doneC k = D k) →
      ∃ n', n ≤ n' ∧ drdStatuses c s is = drdStatus s ++ (((e.run c s is).evs.take n').drop n).filterMap (·.status) ∧
        (∃ E, (e.run c s is).evs = e.evs ++ E) ∧
        (∀ N ≤ e.evs.length, (∀ k < c.segs, (drdSegParts c k (e.evs.take N)).length ≤ D k) →
          3 * (N - n) + drdBubble s ≤ is.length → N ≤ n') ∧
        ∀ j ≤ is.length,
          (∀ k < c.segs, (drdSegParts c k (e.run c s (is.take j)).evs).length ≤ D k + drdDoneCount k (is.take j)) →
          98 ≤ is.length - j → (e.run c s (is.take j)).evs.length ≤ n')
    hc hmm hrid is (drdStep c s r1) r2 h2 hi hh
    (fun opOf s e h _ n pend A D hp ho _ hD => by
      have hj : ∀ N ≤ e.evs.length, (∀ k < c.segs, (drdSegParts c k (e.evs.take N)).length ≤ D k) → 3 * (N - n) + drdBubble s ≤ 0 → N ≤ n := by
        intro N _ _ h0; omega
      refine ⟨n, Nat.le_refl _, ?_, ⟨[], by simp [RdEnv.run]⟩, hj, ?_⟩
      · rw [List.drop_take]; simp [drdStatuses, drdTrace, drdRun]
      · intro j _ _ h0; simp at h0)
    (fun opOf s e i is h h' hs hr _ hacc ih hq n pend A D hp ho hram hD => by
      obtain ⟨g1, g2⟩ := hram
      have hm : 32 ≤ 32 * 2 ^ mrrs ∧ 32 * 2 ^ mrrs ≤ 512 := by
        obtain ⟨m1, m2, _⟩ := mrrs_vals hmm
        have h5 : (if mrrs > 5 then 5 else mrrs) = mrrs := if_neg (by omega)
        rw [h5] at m1 m2
        exact ⟨m1, m2⟩
      obtain ⟨a1, ⟨A1, a2⟩, a3⟩ := status_step hc hw hm h hs hr (by rw [hq i (by simp)]; exact hrid) hacc hp ho g1
      obtain ⟨E1, c1, c2⟩ := hs.evs
      have hnx := drdStep_eq c s i hr
      rw [hnx] at c2
      obtain ⟨-, hpop⟩ := path_step hp hr g1 c2
      have hcl : n + (drdPop c s).toNat ≤ e.evs.length := by
        by_cases hpp : drdPop c s = true
        · obtain ⟨v, l, h1, -⟩ := hpop hpp
          have := congrArg List.length h1
          rw [List.length_drop, List.length_cons] at this
          rw [hpp, Bool.toNat_true]; omega
        · have : drdPop c s = false := by simpa using hpp
          rw [this]; exact hp.le
      have hD' : ∀ k < c.segs, (drdSegParts c k ((e.step c s i).evs.take (n + (drdPop c s).toNat))).length + (drdStep c s i).doneC k =
          D k + (i.done k).toNat := by
        intro k hk
        rw [c1, List.take_append_of_le_length hcl, hnx, done_step hp hr g1 hpop hk, hD k hk]
      obtain ⟨n', b1, b2, ⟨E, b3⟩, b4, b5⟩ := ih (fun x hx => hq x (by simp [hx])) _ _ _ (fun k => D k + (i.done k).toNat) a1 a2 g2 hD'
      have hL : ∀ N ≤ e.evs.length, (∀ k < c.segs, (drdSegParts c k (e.evs.take N)).length ≤ D k) →
          3 * (N - n) + drdBubble s ≤ (i :: is).length → N ≤ n' := by
        intro N hN hNd hlen
        by_cases hnN : n < N
        · have hop : s.init.op = false := by
            rw [Bool.eq_false_iff]; intro hT
            have hd0 := ((init_step h.inv.init).2.2.2.2.2.1 hT).1
            have h0 := ho.zero hd0
            obtain ⟨v, l, hvl⟩ := List.exists_cons_of_ne_nil (show e.evs ≠ [] by intro h0; rw [h0] at hN; simp at hN; omega)
            have := ho.ev.evlt v (by rw [(pendEnv_same s e).2.2.1, hvl]; simp)
            omega
          have hl := pop_live (i := i) hp hop hnN hN (fun k hk => by rw [hD k hk]; exact hNd k hk)
          have hbb := bubble_le (drdNext c s i)
          rw [List.length_cons] at hlen
          refine b4 N (by rw [c1, List.length_append]; omega) (fun k hk => ?_) ?_
          · rw [c1, List.take_append_of_le_length hN]
            have := hNd k hk
            omega
          · rw [hnx]
            rcases hl with hl | ⟨hl, hl'⟩
            · rw [hl, Bool.toNat_true]; omega
            · rw [hl, Bool.toNat_false]; omega
        · omega
      refine ⟨n', by omega, ?_, ⟨E1 ++ E, ?_⟩, hL, ?_⟩
      · rw [drdStatuses_cons, b2, a3]
        simp only [RdEnv.run]
        rw [b3]
        generalize (drdPop c s).toNat = q at *
        have hl := a1.le
        generalize (RdEnv.step c s i e).evs = L at *
        have e1 : (L.take (n + q)).drop n = ((L ++ E).take (n + q)).drop n := by
          rw [List.take_append_of_le_length hl]
        rw [e1, ← List.filterMap_append]
        congr 2
        rw [List.drop_take, List.drop_take, List.drop_take, ← List.drop_drop]
        generalize (L ++ E).drop n = M
        rw [show n' - n = (n + q - n) + (n' - (n + q)) by omega, List.take_add]
        congr 1
        rw [show n + q - n = q by omega]
      · simp only [RdEnv.run]; rw [b3, c1, List.append_assoc]
      · intro j hj hjd hjl
        cases j with
        | zero =>
          rw [List.take_zero] at hjd ⊢
          simp only [RdEnv.run] at hjd ⊢
          have hents := rel2_length hp.ents
          have hl := entries_len hp
          rw [List.length_drop] at hents
          have := bubble_le s
          refine hL e.evs.length (Nat.le_refl _) (fun k hk => ?_) (by omega)
          rw [List.take_length]
          have := hjd k hk
          simpa [drdDoneCount] using this
        | succ j =>
          rw [List.take_succ_cons] at hjd ⊢
          simp only [RdEnv.run] at hjd ⊢
          rw [List.length_cons] at hj hjl
          refine b5 j (by omega) (fun k hk => ?_) (by omega)
          have := hjd k hk
          unfold drdDoneCount at this ⊢
          rw [List.countP_cons] at this
          cases hdk : i.done k <;> rw [hdk] at this <;> simp at this ⊢ <;> omega)
  obtain ⟨opOf, -, hp⟩ := key
  obtain ⟨p1, p2⟩ := path_reset (c := c) (opOf := opOf) s r1 r2 h1 h2
  have hdc : ∀ k, (drdStep c (drdStep c s r1) r2).doneC k = 0 := by
    intro k; generalize drdStep c s r1 = s1; unfold drdStep; rw [h2]
    show (drdNext c s1 r2).doneC k = 0
    have : (drdNext c s1 r2).doneC k = if r2.rst then 0
      else if decide (s1.doneC k < 2 ^ 5) && r2.done k && !drdAck c s1 k then s1.doneC k + 1
      else if decide (s1.doneC k > 0) && !r2.done k && drdAck c s1 k then s1.doneC k - 1
      else s1.doneC k := rfl
    rw [this, h2]; rfl
  obtain ⟨n', q1, q2, q3, q4, q5⟩ := hp (fun i hi => (hh.inp i hi).2) 0 (fun _ => 0) [] (fun _ => 0) p1
    (op_reset (drdStep c s r1) r2 h2) hram (fun k _ => by rw [hdc]; simp [rdEnv0, drdSegParts])
  have hst : drdStatus (drdStep c (drdStep c s r1) r2) = [] := by
    unfold drdStatus
    have : (drdStep c (drdStep c s r1) r2).stV = false := by
      generalize drdStep c s r1 = s1; unfold drdStep; rw [h2]; rfl
    rw [this]; rfl
  refine ⟨n', by rw [q2, hst]; simp, fun j hj hjd hjl => q5 j hj (fun k hk => ?_) hjl⟩
  have := hjd k hk
  omega

end Verif.Proofs
