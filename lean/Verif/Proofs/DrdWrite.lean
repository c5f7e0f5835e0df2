import Verif.Proofs.NarrowFifo
import Verif.Proofs.DrdCoreRun
import Verif.Proofs.DmaClientSinkInv
/-! From the completion state machine to the RAM and to the status FIFO of the PCIe DMA read interface. -/
namespace Verif.Proofs
open Verif Verif.Model Verif.Spec

/-- A transfer with data can be taken. -/
def drdT (s : Drd) : Bool := s.rx.ready && s.rx.st != .waitEnd

/-- The command of a segment in the stage after the state machine. -/
def stageCmd (c : DrdCfg) (s : Drd) (k : Nat) : List DrdCmd :=
  if s.rx.dataV && s.rx.mask k then [drdPipeCmd c (drdPipeStep c s) k] else []

/-- The command of a segment in the write pipeline stage. -/
def pipeCmd (c : DrdCfg) (s : Drd) (k : Nat) : List DrdCmd := if s.pipe.valid k then [drdPipeCmd c s.pipe k] else []

/-- The commands of a segment that have not been taken. -/
def drdPath (c : DrdCfg) (s : Drd) (k : Nat) : List DrdCmd := nOutQ 5 (s.out k) ++ pipeCmd c s k ++ stageCmd c s k

/-- The entries that have not been dealt with. -/
def drdEntries (s : Drd) : List DrdEntry :=
  (if s.curV then [s.cur] else []) ++ ringList 5 s.fifo ++ (if s.rx.stWr then [drdEntryOf s.rx] else [])

/-- A FIFO that is filled only while `t` holds, which follows the flag with a delay. -/
def GateB (b n : Nat) (half t : Bool) : Prop := n ≤ b + 2 ∧ (half = false → n ≤ b) ∧ (t = true → n ≤ b + 1)

theorem gateB_step {b n n' : Nat} {half half' t t' push : Bool} (h : GateB b n half t) (hp : push = true → t = true)
    (hn : n' ≤ n + push.toNat) (ht : t' = true → half = false) (hh : half' = false → n' ≤ b) : GateB b n' half' t' := by
  obtain ⟨h1, h2, h3⟩ := h
  have hb := Bool.toNat_le push
  refine ⟨?_, hh, ?_⟩
  · cases push with
    | false => simp at hn; omega
    | true => have := h3 (hp rfl); omega
  · intro hh; have := h2 (ht hh); omega

/-- Lists of related elements. -/
def Rel2 {α β : Type} (R : α → β → Prop) : List α → List β → Prop
  | [], [] => True
  | a :: l, b :: m => R a b ∧ Rel2 R l m
  | _, _ => False

theorem rel2_length {α β : Type} {R : α → β → Prop} {l : List α} {m : List β} (h : Rel2 R l m) : l.length = m.length := by
  induction l generalizing m with
  | nil => cases m <;> simp_all [Rel2]
  | cons a l ih =>
    cases m with
    | nil => simp [Rel2] at h
    | cons b m => simp [ih h.2]

theorem rel2_append {α β : Type} {R : α → β → Prop} {l l' : List α} {m m' : List β} (h : Rel2 R l m) (h' : Rel2 R l' m') :
    Rel2 R (l ++ l') (m ++ m') := by
  induction l generalizing m with
  | nil => cases m <;> simp_all [Rel2]
  | cons a l ih =>
    cases m with
    | nil => simp [Rel2] at h
    | cons b m => exact ⟨h.1, ih h.2⟩

/-- An entry of the status FIFO and an event. -/
structure EntryRel (c : DrdCfg) (opOf : Nat → Nat) (x : DrdEntry) (v : RdEvent) : Prop where
  op : x.op = opOf v.num
  fin : x.finish = v.finish
  err : x.error = v.error
  mask : ∀ k < c.segs, x.mask k = !(v.writes.filter (drdInSeg c k)).isEmpty

/-- The invariant. -/
structure PathInv (c : DrdCfg) (opOf : Nat → Nat) (s : Drd) (evs : List RdEvent) (n : Nat) (pend : Nat → Nat) : Prop where
  ring : ∀ k < c.segs, NOk 5 (s.out k).ring
  gate : ∀ k < c.segs, GateB 18 (nringCount 5 (s.out k).ring + (s.pipe.valid k).toNat + (s.rx.dataV && s.rx.mask k).toNat)
    (s.out k).half (drdT s)
  fifo : RingOk 5 s.fifo
  full : GateB 29 (ringCount 5 s.fifo + s.rx.stWr.toNat) s.full (drdT s)
  le : n ≤ evs.length
  ents : Rel2 (EntryRel c opOf) (drdEntries s) (evs.drop n)
  acct : ∀ k < c.segs, s.doneC k + pend k + (drdPath c s k).length = (drdEntries s).countP (·.mask k)
  doneR : ∀ k < c.segs, s.doneR k = decide (0 < s.doneC k)

theorem drdRx_flags (c : DrdCfg) (s : Drd) (i : DrdIn) :
    ((drdRxStep c s i).stWr = true → drdT s = true) ∧ ((drdRxStep c s i).dataV = true → drdT s = true) ∧
    ((drdRxStep c s i).ready = true → (drdRxStep c s i).st ≠ .waitEnd → drdSpace c s = true) := by
  have hT : ∀ x, s.rx.st = x → x ≠ .waitEnd → drdBeat s i = true → drdT s = true := by
    intro x hx hne hb
    unfold drdT
    unfold drdBeat at hb
    simp only [Bool.and_eq_true] at hb
    rw [hb.1, hx]
    cases x <;> simp_all
  unfold drdRxStep
  cases hst : s.rx.st with
  | idle =>
    dsimp only
    by_cases hh : drdHead s i = true
    · have hb : drdBeat s i = true := by unfold drdHead at hh; simp only [Bool.and_eq_true] at hh; exact hh.1.2
      have := hT _ hst (by simp) hb
      rw [if_pos hh]
      refine ⟨fun _ => this, fun _ => this, ?_⟩
      split
      · dsimp only; cases i.rxEop <;> simp
      · split
        · dsimp only; cases i.rxEop <;> simp
        · split
          · dsimp only; cases i.rxEop <;> simp
          · dsimp only; exact fun h _ => h
    · rw [if_neg hh]
      refine ⟨by simp [drdRxIdle], by simp [drdRxIdle], fun h _ => h⟩
  | write =>
    dsimp only
    by_cases hb : drdBeat s i = true
    · have := hT _ hst (by simp) hb
      rw [if_pos hb]
      exact ⟨fun _ => this, fun _ => this, fun h _ => h⟩
    · rw [if_neg hb]
      refine ⟨by simp [drdRxIdle], by simp [drdRxIdle], fun h _ => h⟩
  | waitEnd =>
    dsimp only
    split
    · refine ⟨by simp [drdRxIdle], by simp [drdRxIdle], fun h _ => h⟩
    · refine ⟨by simp [drdRxIdle], by simp [drdRxIdle], ?_⟩
      intro _ h; exact absurd hst (by simpa [drdRxIdle] using h)

/-- The entries dealt with and left after a cycle. -/
theorem entries_flow {c : DrdCfg} {s : Drd} {i : DrdIn} (h : RingOk 5 s.fifo) (hg : ringCount 5 s.fifo + s.rx.stWr.toNat ≤ 31) :
    RingOk 5 (drdNext c s i).fifo ∧ ringCount 5 (drdNext c s i).fifo ≤ ringCount 5 s.fifo + s.rx.stWr.toNat ∧
    (if drdPop c s then [s.cur] else []) ++ drdEntries (drdNext c s i) =
      drdEntries s ++ (if (drdNext c s i).rx.stWr then [drdEntryOf (drdNext c s i).rx] else []) := by
  have hrd : drdStRd c s = true → 0 < ringCount 5 s.fifo := by
    intro hr
    unfold drdStRd at hr
    rw [ring_empty 5 _ h] at hr
    simp only [Bool.and_eq_true, Bool.not_eq_true', decide_eq_false_iff_not] at hr
    omega
  have hwe : s.rx.stWr = true → ringCount 5 s.fifo < 2 ^ 5 := by intro hw; rw [hw] at hg; simp at hg; omega
  obtain ⟨h1, h2⟩ := ringMove_list (x := drdEntryOf s.rx) (rd := drdStRd c s) h hwe hrd
  have hf : (drdNext c s i).fifo = ringMove 5 s.fifo s.rx.stWr (drdEntryOf s.rx) (drdStRd c s) := rfl
  have hc : (drdNext c s i).cur = if drdStRd c s then ringHead 5 s.fifo else s.cur := rfl
  have hv : (drdNext c s i).curV = (drdStRd c s || (s.curV && !drdPop c s)) := rfl
  refine ⟨by rw [hf]; exact h1, ?_, ?_⟩
  · rw [hf, ← ringList_length, ← ringList_length]
    have := congrArg List.length h2
    rw [List.length_append, List.length_append] at this
    have e : (if s.rx.stWr then [drdEntryOf s.rx] else []).length = s.rx.stWr.toNat := by cases s.rx.stWr <;> rfl
    omega
  · unfold drdEntries
    rw [hf, hc, hv]
    have hpc : drdPop c s = true → s.curV = true := by
      intro hp; unfold drdPop at hp; simp only [Bool.and_eq_true] at hp; exact hp.1.2
    have e : ∀ (a b d x : List DrdEntry), a ++ (b ++ d) = x → a ++ (b ++ d ++ (if (drdNext c s i).rx.stWr then
        [drdEntryOf (drdNext c s i).rx] else [])) = x ++ (if (drdNext c s i).rx.stWr then [drdEntryOf (drdNext c s i).rx] else []) := by
      intro a b d x hx; rw [← hx]; simp [List.append_assoc]
    refine e _ _ _ _ ?_
    rw [List.append_assoc, ← h2]
    by_cases hr : drdStRd c s = true
    · have : s.curV = drdPop c s := by
        have hr' := hr
        unfold drdStRd at hr'
        cases hcv : s.curV <;> cases hp : drdPop c s <;> simp_all
      simp only [hr, if_true, Bool.true_or]
      rw [this]
    · simp only [hr, Bool.false_eq_true, if_false, Bool.false_or, List.nil_append]
      cases hcv : s.curV <;> cases hp : drdPop c s <;> simp_all

/-- The commands of a segment. -/
theorem path_flow {c : DrdCfg} {s : Drd} {i : DrdIn} (hr : i.rst = false) {k : Nat} (h : NOk 5 (s.out k).ring)
    (hg : nringCount 5 (s.out k).ring + (s.pipe.valid k).toNat < 32) :
    NOk 5 ((drdNext c s i).out k).ring ∧
    nringCount 5 ((drdNext c s i).out k).ring ≤ nringCount 5 (s.out k).ring + (s.pipe.valid k).toNat ∧
    (if (s.out k).valid && i.cmdReady k then [(s.out k).out] else []) ++ drdPath c (drdNext c s i) k =
      drdPath c s k ++ stageCmd c (drdNext c s i) k := by
  have ho : (drdNext c s i).out k = nfifoStep 5 false (s.out k) (s.pipe.valid k) (drdPipeCmd c s.pipe k) (i.cmdReady k) := by
    show nfifoStep 5 i.rst _ _ _ _ = _
    rw [hr]
  obtain ⟨h1, h2, h3⟩ := nfifo_step (s.out k) (s.pipe.valid k) (drdPipeCmd c s.pipe k) (i.cmdReady k) h hg
  rw [← ho] at h1 h2 h3
  refine ⟨h1, h2, ?_⟩
  unfold drdPath
  rw [← List.append_assoc, ← List.append_assoc, h3]
  have : pipeCmd c (drdNext c s i) k = stageCmd c s k := rfl
  rw [this]
  rfl

/-- The completion counter of a segment. -/
theorem done_flow {c : DrdCfg} {s : Drd} {i : DrdIn} (hr : i.rst = false) {k : Nat} (hk : k < c.segs)
    (hd : s.doneR k = decide (0 < s.doneC k)) (hle : i.done k = true → s.doneC k < 32) :
    (drdNext c s i).doneC k + (drdAck c s k).toNat = s.doneC k + (i.done k).toNat ∧
    (drdNext c s i).doneR k = decide (0 < (drdNext c s i).doneC k) := by
  have hack : drdAck c s k = true → 0 < s.doneC k := by
    intro ha
    simp only [drdAck, drdPop, DrdCfg.allSegs, Bool.and_eq_true, List.all_eq_true, List.mem_range] at ha
    have := ha.1.2 k hk
    rw [ha.2, hd] at this
    simpa using this
  have e1 : (drdNext c s i).doneC k = if i.rst then 0
      else if decide (s.doneC k < 2 ^ 5) && i.done k && !drdAck c s k then s.doneC k + 1
      else if decide (s.doneC k > 0) && !i.done k && drdAck c s k then s.doneC k - 1
      else s.doneC k := rfl
  have e2 : (drdNext c s i).doneR k = if i.rst then false
      else if decide (s.doneC k < 2 ^ 5) && i.done k && !drdAck c s k then true
      else if decide (s.doneC k > 0) && !i.done k && drdAck c s k then decide (s.doneC k > 1)
      else s.doneR k := rfl
  rw [e1, e2, hr]
  simp only [Bool.false_eq_true, if_false]
  cases ha : drdAck c s k <;> cases hdn : i.done k
  · simp only [Bool.and_false, Bool.false_and, Bool.false_eq_true, if_false]; exact ⟨trivial, hd⟩
  · have := hle hdn
    simp [this]
  · have := hack ha
    simp only [Bool.and_false, Bool.false_and, Bool.false_eq_true, if_false, Bool.not_false, Bool.and_true, gt_iff_lt, this,
      decide_true, if_true]
    refine ⟨by simp; omega, ?_⟩
    rw [decide_eq_decide]; omega
  · simp only [Bool.and_false, Bool.not_true, Bool.false_and, Bool.false_eq_true, if_false]; exact ⟨trivial, hd⟩

/-- The stage after the state machine. -/
theorem stage_rel {c : DrdCfg} {opOf : Nat → Nat} {s : Drd} {E : List RdEvent} (h : StageRel c opOf s E) :
    Rel2 (EntryRel c opOf) (if s.rx.stWr then [drdEntryOf s.rx] else []) E ∧
    ∀ k < c.segs, (stageCmd c s k).length = (if s.rx.stWr then [drdEntryOf s.rx] else []).countP (·.mask k) := by
  rcases h with ⟨h1, h2, h3⟩ | ⟨v, h1, h2, h3⟩
  · rw [h1, h2]
    refine ⟨trivial, fun k _ => ?_⟩
    unfold stageCmd; rw [h3]; rfl
  · rw [h1, h2]
    refine ⟨⟨⟨h3.op, h3.fin, h3.err, h3.mask⟩, trivial⟩, fun k hk => ?_⟩
    unfold stageCmd
    rw [countP_one, h3.cmd k hk]
    have : (drdEntryOf s.rx).mask k = (s.rx.stMask && s.rx.mask k) := rfl
    rw [this, h3.mask k hk]
    cases (v.writes.filter (drdInSeg c k)).isEmpty <;> rfl

/-- The part of the invariant that is about the commands. -/
structure OutInv (c : DrdCfg) (s : Drd) : Prop where
  ring : ∀ k < c.segs, NOk 5 (s.out k).ring
  gate : ∀ k < c.segs, GateB 18 (nringCount 5 (s.out k).ring + (s.pipe.valid k).toNat + (s.rx.dataV && s.rx.mask k).toNat)
    (s.out k).half (drdT s)

theorem out_step {c : DrdCfg} {s : Drd} {i : DrdIn} (h : OutInv c s) (hr : i.rst = false) : OutInv c (drdNext c s i) := by
  have hrx : (drdNext c s i).rx = drdRxStep c s i := rfl
  obtain ⟨x1, x2, x3⟩ := drdRx_flags c s i
  rw [← hrx] at x1 x2 x3
  have hT : drdT (drdNext c s i) = true → drdSpace c s = true := by
    intro ht
    unfold drdT at ht
    simp only [Bool.and_eq_true, bne_iff_ne] at ht
    exact x3 ht.1 ht.2
  constructor
  · intro k hk
    exact (path_flow (c := c) hr (h.ring k hk) (by have := (h.gate k hk).1; omega)).1
  · intro k hk
    obtain ⟨-, p2, -⟩ := path_flow (c := c) (i := i) hr (h.ring k hk) (by have := (h.gate k hk).1; omega)
    have hp : ((drdNext c s i).pipe.valid k) = (s.rx.dataV && s.rx.mask k) := rfl
    have hh : ((drdNext c s i).out k).half = decide (nringCount 5 (s.out k).ring ≥ 2 ^ (5 - 1)) := rfl
    refine gateB_step (push := (drdNext c s i).rx.dataV && (drdNext c s i).rx.mask k) (h.gate k hk) ?_ ?_ ?_ ?_
    · intro hp'; simp only [Bool.and_eq_true] at hp'; exact x2 hp'.1
    · rw [hp]; omega
    · intro ht
      have := hT ht
      unfold drdSpace DrdCfg.allSegs at this
      simp only [Bool.and_eq_true, List.all_eq_true, List.mem_range, Bool.not_eq_true'] at this
      exact this.1.2 k hk
    · rw [hh, hp]
      intro hf
      simp only [ge_iff_le, decide_eq_false_iff_not] at hf
      have b1 := Bool.toNat_le (s.pipe.valid k)
      have b2 := Bool.toNat_le (s.rx.dataV && s.rx.mask k)
      have b3 := Bool.toNat_le ((drdNext c s i).rx.dataV && (drdNext c s i).rx.mask k)
      omega

theorem path_step {c : DrdCfg} {opOf : Nat → Nat} {s : Drd} {i : DrdIn} {evs E : List RdEvent} {n : Nat} {pend : Nat → Nat}
    (h : PathInv c opOf s evs n pend) (hr : i.rst = false) (hram : ∀ k < c.segs, i.done k = true → 0 < pend k)
    (hE : StageRel c opOf (drdNext c s i) E) :
    PathInv c opOf (drdNext c s i) (evs ++ E) (n + (drdPop c s).toNat) (drdPendNext s i pend) ∧
    (drdPop c s = true → ∃ v l, evs.drop n = v :: l ∧ EntryRel c opOf s.cur v) := by
  obtain ⟨s1, s2⟩ := stage_rel hE
  obtain ⟨f1, f2, f3⟩ := entries_flow (c := c) (i := i) h.fifo (by have := h.full.1; omega)
  have hrx : (drdNext c s i).rx = drdRxStep c s i := rfl
  obtain ⟨x1, x2, x3⟩ := drdRx_flags c s i
  rw [← hrx] at x1 x2 x3
  have hT : drdT (drdNext c s i) = true → drdSpace c s = true := by
    intro ht
    unfold drdT at ht
    simp only [Bool.and_eq_true, bne_iff_ne] at ht
    exact x3 ht.1 ht.2
  have hcmd : ∀ k < c.segs, (stageCmd c (drdNext c s i) k).length = ((drdNext c s i).rx.dataV && (drdNext c s i).rx.mask k).toNat := by
    intro k _; unfold stageCmd; cases (drdNext c s i).rx.dataV && (drdNext c s i).rx.mask k <;> rfl
  have hent : Rel2 (EntryRel c opOf) ((if drdPop c s then [s.cur] else []) ++ drdEntries (drdNext c s i)) (evs.drop n ++ E) := by
    rw [f3]; exact rel2_append h.ents s1
  have hlen : (drdEntries s).length ≤ 32 := by
    unfold drdEntries
    rw [List.length_append, List.length_append, ringList_length]
    have := h.full.1
    have e1 : (if s.curV then [s.cur] else []).length ≤ 1 := by cases s.curV <;> simp
    have e2 : (if s.rx.stWr then [drdEntryOf s.rx] else []).length = s.rx.stWr.toNat := by cases s.rx.stWr <;> rfl
    omega
  have hle : ∀ k < c.segs, i.done k = true → s.doneC k < 32 := by
    intro k hk hd
    have h1 := h.acct k hk
    have h2 := List.countP_le_length (p := fun x : DrdEntry => x.mask k) (l := drdEntries s)
    have := hram k hk hd
    omega
  have hpop : drdPop c s = true → ∃ v l, evs.drop n = v :: l ∧ EntryRel c opOf s.cur v := by
    intro hp
    have hcv : s.curV = true := by unfold drdPop at hp; simp only [Bool.and_eq_true] at hp; exact hp.1.2
    have he := h.ents
    unfold drdEntries at he
    rw [hcv] at he
    cases hd : evs.drop n with
    | nil => rw [hd] at he; simp [Rel2] at he
    | cons v l => rw [hd] at he; exact ⟨v, l, rfl, he.1⟩
  refine ⟨⟨(out_step ⟨h.ring, h.gate⟩ hr).ring, (out_step ⟨h.ring, h.gate⟩ hr).gate, f1, ?_, ?_, ?_, ?_, ?_⟩, hpop⟩
  · have hh : (drdNext c s i).full = decide (ringCount 5 s.fifo ≥ 2 ^ 5 - 4) := rfl
    refine gateB_step (push := (drdNext c s i).rx.stWr) h.full x1 (by omega) ?_ ?_
    · intro ht
      have := hT ht
      unfold drdSpace at this
      simp only [Bool.and_eq_true, Bool.not_eq_true'] at this
      exact this.2
    · rw [hh]
      intro hf
      simp only [ge_iff_le, decide_eq_false_iff_not] at hf
      have b1 := Bool.toNat_le s.rx.stWr
      have b3 := Bool.toNat_le (drdNext c s i).rx.stWr
      omega
  · have := h.le
    rw [List.length_append]
    cases hp : drdPop c s with
    | false => simp; omega
    | true =>
      obtain ⟨v, l, hv, -⟩ := hpop hp
      have := congrArg List.length hv
      rw [List.length_drop, List.length_cons] at this
      simp; omega
  · cases hp : drdPop c s with
    | false =>
      rw [hp] at hent
      rw [Bool.toNat_false, Nat.add_zero, List.drop_append_of_le_length h.le]
      exact hent
    | true =>
      obtain ⟨v, l, hv, -⟩ := hpop hp
      rw [hp, hv] at hent
      have hn : n + 1 ≤ evs.length := by
        have := congrArg List.length hv
        rw [List.length_drop, List.length_cons] at this
        omega
      rw [Bool.toNat_true, List.drop_append_of_le_length hn, ← List.drop_drop, hv]
      exact hent.2
  · intro k hk
    obtain ⟨-, -, p3⟩ := path_flow (c := c) (i := i) hr (h.ring k hk) (by have := (h.gate k hk).1; omega)
    have hd := (done_flow hr hk (h.doneR k hk) (hle k hk)).1
    have hq := congrArg List.length p3
    have hm := congrArg (List.countP (·.mask k)) f3
    rw [List.countP_append, List.countP_append, countP_one, ← s2 k hk] at hm
    have e2 : (drdPop c s && s.cur.mask k) = drdAck c s k := rfl
    rw [e2] at hm
    rw [List.length_append, List.length_append] at hq
    have hml : (if (s.out k).valid && i.cmdReady k then [(s.out k).out] else []).length = ((s.out k).valid && i.cmdReady k).toNat := by
      cases (s.out k).valid && i.cmdReady k <;> rfl
    rw [hml] at hq
    have hacct := h.acct k hk
    have hp : (i.done k).toNat ≤ pend k := by
      cases hdn : i.done k with
      | false => exact Nat.zero_le _
      | true => exact hram k hk hdn
    unfold drdPendNext
    omega
  · intro k hk
    exact (done_flow hr hk (h.doneR k hk) (hle k hk)).2

/-- After two cycles of reset. -/
theorem path_reset {c : DrdCfg} {opOf : Nat → Nat} (s : Drd) (r1 r2 : DrdIn) (h1 : r1.rst = true) (h2 : r2.rst = true) :
    PathInv c opOf (drdStep c (drdStep c s r1) r2) [] 0 (fun _ => 0) ∧ ∀ k, drdPath c (drdStep c (drdStep c s r1) r2) k = [] := by
  have hd : (drdStep c s r1).rx.dataV = false := by unfold drdStep; rw [h1]; rfl
  generalize drdStep c s r1 = s1 at *
  have e1 : (drdStep c s1 r2).rx.dataV = false := by unfold drdStep; rw [h2]; rfl
  have e2 : (drdStep c s1 r2).rx.stWr = false := by unfold drdStep; rw [h2]; rfl
  have e3 : (drdStep c s1 r2).curV = false := by unfold drdStep; rw [h2]; rfl
  have e4 : (drdStep c s1 r2).fifo = ringReset (drdNext c s1 r2).fifo := by unfold drdStep; rw [h2]; rfl
  have e5 : ∀ k, (drdStep c s1 r2).out k = nfifoStep 5 true (s1.out k) (s1.pipe.valid k) (drdPipeCmd c s1.pipe k) (r2.cmdReady k) := by
    intro k; unfold drdStep; rw [h2]; show nfifoStep 5 r2.rst _ _ _ _ = _; rw [h2]
  have e6 : ∀ k, (drdStep c s1 r2).pipe.valid k = false := by
    intro k; unfold drdStep; rw [h2]; show (s1.rx.dataV && s1.rx.mask k) = false; rw [hd]; rfl
  have e7 : ∀ k, (drdStep c s1 r2).doneC k = 0 ∧ (drdStep c s1 r2).doneR k = false := by
    intro k; unfold drdStep; rw [h2]
    show (if r2.rst then 0 else _) = 0 ∧ (if r2.rst then false else _) = false
    rw [h2]; exact ⟨rfl, rfl⟩
  have e8 : drdT (drdStep c s1 r2) = false := by
    have : (drdStep c s1 r2).rx.ready = false := by unfold drdStep; rw [h2]; rfl
    unfold drdT; rw [this]; rfl
  generalize drdStep c s1 r2 = s2 at *
  have hp : ∀ k, drdPath c s2 k = [] := by
    intro k
    unfold drdPath pipeCmd stageCmd
    rw [e5, (nfifo_rst _ _ _ _).2.2, e6, e1]; rfl
  obtain ⟨g1, g2, g3⟩ := ring_reset 5 (drdNext c s1 r2).fifo
  have he : drdEntries s2 = [] := by unfold drdEntries; rw [e3, e2, e4, g2]; rfl
  refine ⟨⟨?_, ?_, ?_, ?_, Nat.le_refl _, ?_, ?_, ?_⟩, hp⟩
  · intro k _; rw [e5]; exact (nfifo_rst _ _ _ _).1
  · intro k _
    have hz : nringCount 5 (s2.out k).ring + (s2.pipe.valid k).toNat + (s2.rx.dataV && s2.rx.mask k).toNat = 0 := by
      rw [e5, (nfifo_rst _ _ _ _).2.1, e6, e1]; rfl
    rw [hz]
    exact ⟨by omega, by omega, by omega⟩
  · rw [e4]; exact g1
  · have hz : ringCount 5 s2.fifo + s2.rx.stWr.toNat = 0 := by
      rw [e4, g3, e2]; rfl
    rw [hz]
    exact ⟨by omega, by omega, by omega⟩
  · rw [he]; trivial
  · intro k _; rw [hp, he, (e7 k).1]; rfl
  · intro k _; rw [(e7 k).1, (e7 k).2]; rfl

theorem segParts_append (c : DrdCfg) (k : Nat) (a b : List RdEvent) : drdSegParts c k (a ++ b) = drdSegParts c k a ++ drdSegParts c k b := by
  unfold drdSegParts; rw [List.map_append, List.filter_append]

theorem stage_parts {c : DrdCfg} {opOf : Nat → Nat} {s : Drd} {E : List RdEvent} (h : StageRel c opOf s E) {k : Nat} (hk : k < c.segs) :
    (stageCmd c s k).map (drdCmdWrites c k) = drdSegParts c k E := by
  rcases h with ⟨h1, -, h3⟩ | ⟨v, h1, -, h3⟩
  · rw [h1]; unfold stageCmd; rw [h3]; rfl
  · rw [h1]
    unfold stageCmd drdSegParts
    have h4 := h3.cmd k hk
    have h5 := h3.wr k hk
    cases hb : (s.rx.dataV && s.rx.mask k) with
    | false =>
      rw [hb] at h4
      simp [← h4]
    | true =>
      rw [hb] at h4
      simp [← h4, h5 hb]

theorem drdTaken_cons (c : DrdCfg) (k : Nat) (s : Drd) (i : DrdIn) (is : List DrdIn) :
    drdTakenCmds c k s (i :: is) = (if (s.out k).valid && i.cmdReady k then [(s.out k).out] else []) ++ drdTakenCmds c k (drdStep c s i) is := by
  unfold drdTakenCmds
  rw [drdTrace, List.filterMap_cons]
  cases (s.out k).valid && i.cmdReady k <;> rfl

/-- Writes. -/
theorem drd_writes {c : DrdCfg} (hc : DrdCfgOk c) {rid mrrs : Nat} (hmm : mrrs ≤ 4) (hrid : rid < 2 ^ 16) (is : List DrdIn) (s : Drd)
    (r1 r2 : DrdIn) (h1 : r1.rst = true) (h2 : r2.rst = true) (hi : r2.mrrs = mrrs)
    (hh : DrdHist c mrrs rid rdEnv0 (drdStep c (drdStep c s r1) r2) is) {k : Nat} (hk : k < c.segs) :
    (drdTakenCmds c k (drdStep c (drdStep c s r1) r2) is ++ drdPath c (drdRun c (drdStep c (drdStep c s r1) r2) is) k).map (drdCmdWrites c k) =
      drdSegParts c k (rdEnv0.run c (drdStep c (drdStep c s r1) r2) is).evs := by
  have key := env_history (P := fun opOf s e is => OutInv c s → ∀ tk,
      tk ++ (drdPath c s k).map (drdCmdWrites c k) = drdSegParts c k e.evs →
      tk ++ (drdTakenCmds c k s is ++ drdPath c (drdRun c s is) k).map (drdCmdWrites c k) = drdSegParts c k (e.run c s is).evs)
    hc hmm hrid is (drdStep c s r1) r2 h2 hi hh
    (fun opOf s e h _ tk ht => by simpa [drdTakenCmds, drdTrace, drdRun, RdEnv.run] using ht)
    (fun opOf s e i is h h' hs hr _ _ ih ho tk ht => by
      have hn := drdStep_eq c s i hr
      obtain ⟨E, e1, e2⟩ := hs.evs
      have hf := (path_flow (c := c) hr (ho.ring k hk) (by have := (ho.gate k hk).1; omega)).2.2
      rw [hn] at e2
      have hf' := congrArg (List.map (drdCmdWrites c k)) hf
      rw [List.map_append, List.map_append, stage_parts e2 hk] at hf'
      have := ih (by rw [hn]; exact out_step ho hr)
        (tk ++ (if (s.out k).valid && i.cmdReady k then [(s.out k).out] else []).map (drdCmdWrites c k)) (by
          rw [List.append_assoc, hn, hf', ← List.append_assoc, ht, e1, segParts_append])
      rw [drdTaken_cons]
      simp only [drdRun, RdEnv.run]
      rw [← this]
      simp [List.append_assoc])
  obtain ⟨opOf, -, hp⟩ := key
  obtain ⟨p1, p2⟩ := path_reset (c := c) (opOf := opOf) s r1 r2 h1 h2
  have := hp ⟨p1.ring, p1.gate⟩ [] (by rw [p2 k]; rfl)
  simpa using this

end Verif.Proofs
