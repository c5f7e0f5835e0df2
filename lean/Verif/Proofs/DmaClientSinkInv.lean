import Verif.Proofs.DmaClientSinkCur
import Verif.Proofs.OutFifo
/-! Invariant of the AXI stream DMA sink. -/
namespace Verif.Proofs
open Verif Verif.Model Verif.Spec

/-! ### The parts of a clock edge -/

theorem sinkActive_same (c : SrcCfg) (s : Sink) (i : SinkIn) (n : Sink) :
    ∃ a v, sinkActiveStep c s i n = { n with active := a, av := v } := by
  unfold sinkActiveStep
  repeat' split
  · exact ⟨_, _, rfl⟩
  · exact ⟨_, _, rfl⟩
  · exact ⟨n.active, _, rfl⟩

theorem sinkStep_eq (c : SrcCfg) (s : Sink) (i : SinkIn) (hr : i.rst = false) :
    sinkStep c s i = sinkOutStep c s i (sinkActiveStep c s i (sinkStatusStep c s i (sinkFsm c s i))) := by
  unfold sinkStep; simp [hr]

theorem sinkStep_fsm (c : SrcCfg) (s : Sink) (i : SinkIn) (hr : i.rst = false) :
    (sinkStep c s i).st = (sinkFsm c s i).st ∧ (sinkStep c s i).addr = (sinkFsm c s i).addr ∧
    (sinkStep c s i).keepMask = (sinkFsm c s i).keepMask ∧ (sinkStep c s i).off = (sinkFsm c s i).off ∧
    (sinkStep c s i).length = (sinkFsm c s i).length ∧ (sinkStep c s i).count = (sinkFsm c s i).count ∧
    (sinkStep c s i).lastC = (sinkFsm c s i).lastC ∧ (sinkStep c s i).tag = (sinkFsm c s i).tag ∧
    (sinkStep c s i).ready = (sinkFsm c s i).ready ∧ (sinkStep c s i).tready = (sinkFsm c s i).tready := by
  rw [sinkStep_eq c s i hr]
  obtain ⟨a, v, e⟩ := sinkActive_same c s i (sinkStatusStep c s i (sinkFsm c s i))
  rw [e]
  exact ⟨rfl, rfl, rfl, rfl, rfl, rfl, rfl, rfl, rfl, rfl⟩

theorem sinkStep_status (c : SrcCfg) (s : Sink) (i : SinkIn) (hr : i.rst = false) :
    (sinkStep c s i).fifo = (if sinkPop c s then ringPop 5 else id)
      (if sinkTake s i then ringPush 5 s.fifo (sinkEntry c s i) else s.fifo) ∧
    (sinkStep c s i).half = decide (ringCount 5 s.fifo ≥ 16) ∧ (sinkStep c s i).stV = sinkDec c s ∧
    (sinkStep c s i).stLen = (ringHead 5 s.fifo).len ∧ (sinkStep c s i).stTag = (ringHead 5 s.fifo).tag ∧
    (sinkStep c s i).stIds = (ringHead 5 s.fifo).ids := by
  rw [sinkStep_eq c s i hr]
  obtain ⟨a, v, e⟩ := sinkActive_same c s i (sinkStatusStep c s i (sinkFsm c s i))
  rw [e]
  refine ⟨?_, rfl, rfl, rfl, rfl, rfl⟩
  show (if sinkPop c s then ringPop 5 (if sinkTake s i then _ else _) else _) = _
  cases sinkPop c s <;> rfl

theorem sinkStep_out (c : SrcCfg) (s : Sink) (i : SinkIn) (hr : i.rst = false) (k : Nat) :
    (sinkStep c s i).out k =
      outFifoStep 5 false (s.out k) (sinkTake s i && sinkMask c s i k) (sinkCmd c s i k) (i.cmdReady k) ∧
    (sinkStep c s i).doneC k =
      (if decide (s.doneC k < 2 ^ 5) && i.done k && !sinkAck c s k then s.doneC k + 1
      else if decide (s.doneC k > 0) && !i.done k && sinkAck c s k then s.doneC k - 1
      else s.doneC k) ∧
    (sinkStep c s i).doneR k =
      (if decide (s.doneC k < 2 ^ 5) && i.done k && !sinkAck c s k then true
      else if decide (s.doneC k > 0) && !i.done k && sinkAck c s k then decide (s.doneC k > 1)
      else s.doneR k) := by
  rw [sinkStep_eq c s i hr]
  unfold sinkOutStep
  simp only [hr, Bool.false_eq_true, if_false]
  exact ⟨trivial, trivial, trivial⟩

theorem sinkFsm_active (c : SrcCfg) (s : Sink) (i : SinkIn) : (sinkFsm c s i).active = s.active := by
  unfold sinkFsm; repeat' split
  all_goals rfl

theorem sinkStep_active (c : SrcCfg) (s : Sink) (i : SinkIn) (hr : i.rst = false) (h1 : sinkAccept s i = true → s.active < 32)
    (h2 : sinkDec c s = true → 0 < s.active) (h3 : s.active ≤ 32) :
    (sinkStep c s i).active + (sinkDec c s).toNat = s.active + (sinkAccept s i).toNat ∧
    (sinkStep c s i).av = decide ((sinkStep c s i).active < 32) := by
  rw [sinkStep_eq c s i hr]
  have e : ∀ n, (sinkOutStep c s i n).active = n.active ∧ (sinkOutStep c s i n).av = n.av := fun n => ⟨rfl, rfl⟩
  rw [(e _).1, (e _).2]
  unfold sinkActiveStep
  cases ha : sinkAccept s i <;> cases hd : sinkDec c s <;> rw [ha] at h1 <;> rw [hd] at h2
  · simp only [Bool.and_false, Bool.false_and, Bool.false_eq_true, if_false, Bool.not_false, Bool.and_true]
    exact ⟨by show (sinkFsm c s i).active + _ = _; rw [sinkFsm_active], by
      show _ = decide ((sinkFsm c s i).active < 32); rw [sinkFsm_active]⟩
  · have := h2 rfl
    simp only [Bool.and_false, Bool.false_and, Bool.false_eq_true, if_false, Bool.not_false, Bool.and_true, gt_iff_lt, this,
      decide_true, if_true]
    refine ⟨by simp; omega, ?_⟩
    have : s.active - 1 < 32 := by omega
    simp [this]
  · have := h1 rfl
    simp only [show s.active < 2 ^ 5 from this, decide_true, Bool.not_false, Bool.and_true, if_true]
    refine ⟨by simp, ?_⟩
    rw [decide_eq_decide]; omega
  · simp only [Bool.not_true, Bool.and_false, Bool.false_and, Bool.false_eq_true, if_false]
    exact ⟨by show (sinkFsm c s i).active + _ = _; rw [sinkFsm_active], by
      show _ = decide ((sinkFsm c s i).active < 32); rw [sinkFsm_active]⟩

theorem sinkAt_congr {c : SrcCfg} {s t : Sink} {d : SinkDesc} {j : Nat} (h : SinkAt c s d j) (e1 : t.addr = s.addr)
    (e2 : t.keepMask = s.keepMask) (e3 : t.off = s.off) (e4 : t.length = s.length) (e5 : t.count = s.count)
    (e6 : t.lastC = s.lastC) (e7 : t.tag = s.tag) : SinkAt c t d j :=
  ⟨h.lt, h.len, h.daddr, e1 ▸ h.addr, e5 ▸ h.count, e3 ▸ h.off, e4 ▸ h.length, e7 ▸ h.tag, by rw [e6, e5]; exact h.lastC,
    by rw [e2, e5, e3]; exact h.keep⟩

theorem sinkCur_step {c : SrcCfg} {s : Sink} {i : SinkIn} (hr : i.rst = false) {ds : List SinkDesc} {j : Nat}
    (h : SinkCur c (sinkFsm c s i) ds j) : SinkCur c (sinkStep c s i) ds j := by
  obtain ⟨e0, e1, e2, e3, e4, e5, e6, e7, -⟩ := sinkStep_fsm c s i hr
  unfold SinkCur at h ⊢
  rw [e0]
  match hst : (sinkFsm c s i).st with
  | .idle => rw [hst] at h; exact h
  | .drop => rw [hst] at h; exact h
  | .write =>
    rw [hst] at h
    obtain ⟨d, hd, h⟩ := h
    exact ⟨d, hd, sinkAt_congr h e1 e2 e3 e4 e5 e6 e7⟩

/-! ### The invariant -/

/-- A word can be taken for writing. -/
def sinkT (s : Sink) : Bool := s.st == .write && s.tready

/-- A FIFO of 32 entries, filled only while `t` holds, which follows the flag with a delay. -/
def Gate (n : Nat) (half t : Bool) : Prop := n ≤ 18 ∧ (half = false → n ≤ 16) ∧ (t = true → n ≤ 17)

theorem gate_step {n n' : Nat} {half t t' push : Bool} (h : Gate n half t) (hp : push = true → t = true)
    (hn : n' ≤ n + push.toNat) (ht : t' = true → half = false) : Gate n' (decide (n ≥ 16)) t' := by
  obtain ⟨h1, h2, h3⟩ := h
  have hb := Bool.toNat_le push
  refine ⟨?_, ?_, ?_⟩
  · cases push with
    | false => simp at hn; omega
    | true => have := h3 (hp rfl); omega
  · intro hf; rw [decide_eq_false_iff_not] at hf; omega
  · intro hh; have := h2 (ht hh); omega

/-- `pend` are the numbers of writes that the RAM has taken and not reported. -/
structure SinkInv (c : SrcCfg) (s : Sink) (pend : Nat → Nat) : Prop where
  fifo : RingOk 5 s.fifo
  gate : Gate (ringCount 5 s.fifo) s.half (sinkT s)
  out : ∀ k < c.segs, RingOk 5 (s.out k).ring
  outGate : ∀ k < c.segs, Gate (ringCount 5 (s.out k).ring) (s.out k).half (sinkT s)
  acct : ∀ k < c.segs, s.doneC k + pend k + (outQ 5 (s.out k)).length = (ringList 5 s.fifo).countP (·.mask k)
  doneR : ∀ k < c.segs, s.doneR k = decide (0 < s.doneC k)
  ready : s.ready = true → s.st = .idle
  tready : s.tready = true → s.st ≠ .idle
  active : s.active = (s.st == .write).toNat + (ringList 5 s.fifo).countP (·.last)
  le : s.active ≤ 32
  av : s.av = decide (s.active < 32)
  room : s.ready = true → s.active < 32

theorem sinkTake_t {s : Sink} {i : SinkIn} (h : sinkTake s i = true) : sinkT s = true := by
  simp only [sinkTake, Bool.and_eq_true] at h
  simp only [sinkT, Bool.and_eq_true]; exact h.1

theorem sinkFsm_t {c : SrcCfg} {s : Sink} {i : SinkIn} (h : sinkT (sinkFsm c s i) = true) : sinkSpace c s = true := by
  unfold sinkT sinkFsm at h
  match hst : s.st with
  | .idle =>
    simp only [hst] at h
    cases ha : sinkAccept s i <;> simp_all
  | .write =>
    simp only [hst] at h
    cases ha : sinkTake s i
    · simp only [ha, Bool.false_eq_true, if_false, hst] at h
      simpa using h
    · simp only [ha, if_true] at h
      cases hl : i.last <;> cases hc : s.lastC <;> simp_all
  | .drop =>
    simp only [hst] at h
    split at h <;> simp_all

theorem sinkFsm_flags {c : SrcCfg} {s : Sink} {i : SinkIn} :
    ((sinkFsm c s i).ready = true → (sinkFsm c s i).st = .idle ∧ s.av = true ∧ sinkAccept s i = false) ∧
    ((sinkFsm c s i).tready = true → (sinkFsm c s i).st ≠ .idle) ∧
    (((sinkFsm c s i).st == .write).toNat + (sinkTake s i && (sinkEntry c s i).last).toNat =
      (s.st == .write).toNat + (sinkAccept s i).toNat) := by
  unfold sinkFsm
  match hst : s.st with
  | .idle =>
    have ht : sinkTake s i = false := by simp [sinkTake, hst]
    cases ha : sinkAccept s i <;> simp [ht]
  | .write =>
    have ha : sinkAccept s i = false := by simp [sinkAccept, hst]
    cases ht : sinkTake s i
    · simp [ha, hst]
    · simp only [ha, if_true, sinkEntry]
      cases hl : i.last <;> cases hc : s.lastC <;> simp
  | .drop =>
    have ha : sinkAccept s i = false := by simp [sinkAccept, hst]
    have ht : sinkTake s i = false := by simp [sinkTake, hst]
    simp only [ha, ht]
    split
    · simp; rfl
    · simp [hst]

/-- The status FIFO. -/
theorem sinkFifo_step {c : SrcCfg} {s : Sink} {pend : Nat → Nat} (h : SinkInv c s pend) (i : SinkIn) (hr : i.rst = false) :
    RingOk 5 (sinkStep c s i).fifo ∧
    ringCount 5 (sinkStep c s i).fifo + (sinkPop c s).toNat = ringCount 5 s.fifo + (sinkTake s i).toNat ∧
    ringList 5 s.fifo ++ (if sinkTake s i then [sinkEntry c s i] else []) =
      (if sinkPop c s then [ringHead 5 s.fifo] else []) ++ ringList 5 (sinkStep c s i).fifo := by
  rw [(sinkStep_status c s i hr).1]
  have hlt : ringCount 5 s.fifo < 2 ^ 5 := by have := h.gate.1; omega
  have hpush := ring_push 5 s.fifo (sinkEntry c s i) h.fifo hlt
  cases hpop : sinkPop c s with
  | false =>
    cases sinkTake s i with
    | false => simpa using h.fifo
    | true =>
      simp only [Bool.false_eq_true, if_false, if_true, id]
      exact ⟨hpush.1, by simp [hpush.2.1], by simp [hpush.2.2]⟩
  | true =>
    have hpos : 0 < ringCount 5 s.fifo := by
      simp only [sinkPop, Bool.and_eq_true, ring_empty 5 _ h.fifo, Bool.not_eq_true', decide_eq_false_iff_not] at hpop
      omega
    have hp0 := ring_pop 5 s.fifo h.fifo hpos
    cases sinkTake s i with
    | false =>
      simp only [Bool.false_eq_true, if_false, if_true]
      exact ⟨hp0.1, by simpa using hp0.2.1, by simpa using hp0.2.2⟩
    | true =>
      have hp := ring_pop 5 _ hpush.1 (by omega)
      simp only [if_true]
      refine ⟨hp.1, ?_, ?_⟩
      · simp only [Bool.toNat_true]; rw [← hpush.2.1]; exact hp.2.1
      · have e : ringHead 5 (ringPush 5 s.fifo (sinkEntry c s i)) = ringHead 5 s.fifo := by
          have h1 := hp0.2.2
          have h2 := hp.2.2
          rw [hpush.2.2, h1, List.cons_append] at h2
          exact (List.cons.inj h2).1.symm
        rw [← hpush.2.2, hp.2.2, e]; rfl

theorem countP_one {α : Type} (p : α → Bool) (b : Bool) (x : α) :
    (if b then [x] else []).countP p = (b && p x).toNat := by
  cases b <;> cases hp : p x <;> simp [hp]

/-- The completion counter of a segment. -/
theorem sinkDone_step {c : SrcCfg} {s : Sink} {pend : Nat → Nat} (h : SinkInv c s pend) (i : SinkIn) (hr : i.rst = false)
    {k : Nat} (hk : k < c.segs) :
    (sinkStep c s i).doneC k + (sinkAck c s k).toNat = s.doneC k + (i.done k).toNat ∧
    (sinkStep c s i).doneR k = decide (0 < (sinkStep c s i).doneC k) := by
  obtain ⟨-, e1, e2⟩ := sinkStep_out c s i hr k
  have hle : s.doneC k < 2 ^ 5 := by
    have h1 := h.acct k hk
    have h2 := List.countP_le_length (p := fun x : SinkEntry => x.mask k) (l := ringList 5 s.fifo)
    rw [ringList_length] at h2
    have := h.gate.1
    omega
  have hack : sinkAck c s k = true → 0 < s.doneC k := by
    intro ha
    simp only [sinkAck, sinkPop, Bool.and_eq_true, List.all_eq_true, List.mem_range] at ha
    have := ha.1.2 k hk
    rw [ha.2, h.doneR k hk] at this
    simpa using this
  have hd := h.doneR k hk
  rw [e1, e2]
  cases ha : sinkAck c s k <;> cases hdn : i.done k
  · simp only [Bool.and_false, Bool.false_and, Bool.false_eq_true, if_false]; exact ⟨trivial, hd⟩
  · simp [hle]
  · have := hack ha
    simp only [Bool.and_false, Bool.false_and, Bool.false_eq_true, if_false, Bool.not_false, Bool.and_true, gt_iff_lt, this,
      decide_true, if_true]
    refine ⟨by simp; omega, ?_⟩
    rw [decide_eq_decide]; omega
  · simp only [Bool.and_false, Bool.not_true, Bool.false_and, Bool.false_eq_true, if_false]; exact ⟨trivial, hd⟩

theorem sinkInv_step {c : SrcCfg} {s : Sink} {pend : Nat → Nat} (h : SinkInv c s pend) {i : SinkIn} (hr : i.rst = false)
    (hram : ∀ k < c.segs, i.done k = true → 0 < pend k) : SinkInv c (sinkStep c s i) (sinkPendNext s i pend) := by
  obtain ⟨e0, -, -, -, -, -, -, -, e8, e9⟩ := sinkStep_fsm c s i hr
  obtain ⟨-, f1, -⟩ := sinkStep_status c s i hr
  obtain ⟨g1, g2, g3⟩ := sinkFsm_flags (c := c) (s := s) (i := i)
  obtain ⟨q1, q2, q3⟩ := sinkFifo_step h i hr
  have ht : sinkT (sinkStep c s i) = sinkT (sinkFsm c s i) := by unfold sinkT; rw [e0, e9]
  have hacc : sinkAccept s i = true → s.active < 32 := by
    intro ha; simp only [sinkAccept, Bool.and_eq_true] at ha; exact h.room ha.1.2
  have hcount := congrArg (List.countP (·.last)) q3
  simp only [List.countP_append, countP_one] at hcount
  have hdec : sinkDec c s = true → 0 < s.active := by
    intro hd
    rw [h.active]
    simp only [sinkDec, Bool.and_eq_true] at hd
    have hpos : 0 < ringCount 5 s.fifo := by
      have := hd.1
      simp only [sinkPop, Bool.and_eq_true, ring_empty 5 _ h.fifo, Bool.not_eq_true', decide_eq_false_iff_not] at this
      omega
    rw [(ring_pop 5 s.fifo h.fifo hpos).2.2, List.countP_cons_of_pos (by exact hd.2)]
    omega
  obtain ⟨a1, a2⟩ := sinkStep_active c s i hr hacc hdec h.le
  have hactive : (sinkStep c s i).active =
      ((sinkStep c s i).st == .write).toNat + (ringList 5 (sinkStep c s i).fifo).countP (·.last) := by
    rw [e0]
    have := h.active
    have hd : (sinkPop c s && (ringHead 5 s.fifo).last) = sinkDec c s := rfl
    rw [hd] at hcount
    omega
  refine ⟨q1, ?_, ?_, ?_, ?_, ?_, ?_, ?_, hactive, ?_, a2, ?_⟩
  · rw [f1, ht]
    refine gate_step h.gate (push := sinkTake s i) sinkTake_t (by omega) fun hh => ?_
    have := sinkFsm_t hh
    simp only [sinkSpace, Bool.and_eq_true, Bool.not_eq_true'] at this; exact this.2
  · intro k hk
    obtain ⟨r, -, hr', hok, -⟩ := outFifo_ring_lt 5 (s.out k) (sinkTake s i && sinkMask c s i k) (sinkCmd c s i k) (i.cmdReady k)
      (h.out k hk) (by have := (h.outGate k hk).1; omega)
    rw [(sinkStep_out c s i hr k).1, hr']; exact hok
  · intro k hk
    obtain ⟨r, -, hr', -, hcnt, -⟩ := outFifo_ring_lt 5 (s.out k) (sinkTake s i && sinkMask c s i k) (sinkCmd c s i k) (i.cmdReady k)
      (h.out k hk) (by have := (h.outGate k hk).1; omega)
    rw [(sinkStep_out c s i hr k).1, hr', ht]
    refine gate_step (h.outGate k hk) (push := sinkTake s i && sinkMask c s i k) ?_ (by omega) fun hh => ?_
    · intro hp; simp only [Bool.and_eq_true] at hp; exact sinkTake_t hp.1
    · have := sinkFsm_t hh
      simp only [sinkSpace, Bool.and_eq_true, List.all_eq_true, List.mem_range, Bool.not_eq_true'] at this
      exact this.1 k hk
  · intro k hk
    have hd := (sinkDone_step h i hr hk).1
    have hq := congrArg List.length (outFifo_queue 5 (s.out k) (sinkTake s i && sinkMask c s i k) (sinkCmd c s i k) (i.cmdReady k)
      (h.out k hk) (by have := (h.outGate k hk).1; omega))
    rw [← (sinkStep_out c s i hr k).1] at hq
    have hml : ∀ (b : Bool) (x : SinkCmd), (if b then [x] else []).length = b.toNat := by intro b x; cases b <;> rfl
    rw [List.length_append, List.length_append, hml, hml] at hq
    have hm := congrArg (List.countP (·.mask k)) q3
    simp only [List.countP_append, countP_one] at hm
    have e1 : (sinkEntry c s i).mask k = sinkMask c s i k := rfl
    have e2 : (sinkPop c s && (ringHead 5 s.fifo).mask k) = sinkAck c s k := rfl
    rw [e1, e2] at hm
    have hacct := h.acct k hk
    unfold sinkPendNext
    have hp : (i.done k).toNat ≤ pend k := by
      cases hdn : i.done k with
      | false => exact Nat.zero_le _
      | true => exact hram k hk hdn
    omega
  · intro k hk; exact (sinkDone_step h i hr hk).2
  · intro hh; rw [e8] at hh; rw [e0]; exact (g1 hh).1
  · intro hh; rw [e9] at hh; rw [e0]; exact g2 hh
  · have hle := h.le
    cases ha : sinkAccept s i with
    | false => rw [ha] at a1; simp at a1; omega
    | true => have := hacc ha; rw [ha] at a1; simp at a1; omega
  · intro hh
    rw [e8] at hh
    obtain ⟨-, k1, k2⟩ := g1 hh
    rw [k2] at a1
    rw [h.av, decide_eq_true_eq] at k1
    simp at a1
    omega

theorem sinkInv_reset {c : SrcCfg} (s : Sink) (r : SinkIn) (h : r.rst = true) :
    SinkInv c (sinkStep c s r) (fun _ => 0) ∧ SinkCur c (sinkStep c s r) [] 0 ∧ (∀ k, outQ 5 ((sinkStep c s r).out k) = []) ∧
    ringList 5 (sinkStep c s r).fifo = [] ∧ (sinkStep c s r).stV = false ∧ ∀ k, (sinkStep c s r).doneC k = 0 := by
  have hst : (sinkStep c s r).st = .idle := by unfold sinkStep; simp [h]
  have hf : ∃ f, (sinkStep c s r).fifo = ringReset f := by unfold sinkStep; simp only [h, if_true]; exact ⟨_, rfl⟩
  obtain ⟨f, hf⟩ := hf
  have ho : ∀ k, (sinkStep c s r).out k =
      outFifoStep 5 true (s.out k) (sinkTake s r && sinkMask c s r k) (sinkCmd c s r k) (r.cmdReady k) := by
    intro k; unfold sinkStep sinkOutStep; simp only [h, if_true]
  have hd : ∀ k, (sinkStep c s r).doneC k = 0 ∧ (sinkStep c s r).doneR k = false := by
    intro k; unfold sinkStep sinkOutStep; simp only [h, if_true]; exact ⟨trivial, trivial⟩
  have hm : (sinkStep c s r).ready = false ∧ (sinkStep c s r).tready = false ∧ (sinkStep c s r).stV = false ∧
      (sinkStep c s r).active = 0 ∧ (sinkStep c s r).av = true := by
    unfold sinkStep; simp only [h, if_true]; exact ⟨trivial, trivial, trivial, trivial, trivial⟩
  obtain ⟨m1, m2, m3, m4, m5⟩ := hm
  have hr := ring_reset 5 f
  have hq := fun k => outFifo_rst 5 (s.out k) (sinkTake s r && sinkMask c s r k) (sinkCmd c s r k) (r.cmdReady k)
  refine ⟨⟨?_, ?_, ?_, ?_, ?_, ?_, ?_, ?_, ?_, ?_, ?_, ?_⟩, ?_, ?_, ?_, m3, fun k => (hd k).1⟩
  · rw [hf]; exact hr.1
  · rw [hf, hr.2.2]; exact ⟨by omega, fun _ => by omega, fun _ => by omega⟩
  · intro k _; rw [ho]; exact (hq k).1.ring
  · intro k _
    have hz : ringCount 5 ((sinkStep c s r).out k).ring = 0 := by
      have := congrArg List.length (hq k).2
      rw [← ho k] at this
      unfold outQ at this
      rw [List.length_append, ringList_length, List.length_nil] at this
      omega
    rw [hz]; exact ⟨by omega, fun _ => by omega, fun _ => by omega⟩
  · intro k _; rw [(hd k).1, ho, (hq k).2, hf, hr.2.1]; rfl
  · intro k _; rw [(hd k).1, (hd k).2]; rfl
  · intro hh; rw [m1] at hh; cases hh
  · intro hh; rw [m2] at hh; cases hh
  · rw [m4, hst, hf, hr.2.1]; rfl
  · rw [m4]; omega
  · rw [m4, m5]; rfl
  · intro hh; rw [m1] at hh; cases hh
  · unfold SinkCur; rw [hst]; exact ⟨rfl, rfl⟩
  · intro k; rw [ho]; exact (hq k).2
  · rw [hf]; exact hr.2.1

end Verif.Proofs
