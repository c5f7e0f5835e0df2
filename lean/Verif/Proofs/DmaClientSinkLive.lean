import Verif.Proofs.DmaClientSinkRun
import Verif.Proofs.DmaClientSourceLive
/-! The AXI stream DMA sink finishes what it has taken. -/
namespace Verif.Proofs
open Verif Verif.Model Verif.Spec

/-- The output FIFO empties; a word given up counts twice. -/
theorem outWork_drain {α : Type} (s : OutFifo α) (x : α) (h : RingOk 5 s.ring) (hlt : ringCount 5 s.ring < 2 ^ 5) :
    outWork 5 (outFifoStep 5 false s false x true) + (if s.valid then 2 else if outWork 5 s = 0 then 0 else 1) ≤ outWork 5 s := by
  obtain ⟨r, -, hr, -, hcount, -⟩ := outFifo_ring_lt 5 s false x true h hlt
  have he := ring_empty 5 _ h
  unfold outWork
  rw [hr]
  have e1 : (outFifoStep 5 false s false x true).valid = !ringEmpty s.ring := by
    simp only [outFifoStep]
    cases ringEmpty s.ring <;> cases s.valid <;> simp
  have e2 : (outFifoStep 5 false s false x true).half = decide (ringCount 5 s.ring ≥ 16) := rfl
  rw [e1, e2, he]
  simp only [he, Bool.or_true, Bool.and_true, Bool.toNat_false, Nat.add_zero] at hcount
  have hb2 := Bool.toNat_le s.half
  generalize s.half.toNat = hh at *
  generalize ringCount 5 r = m at *
  generalize ringCount 5 s.ring = n at *
  by_cases h0 : n = 0
  · subst h0
    simp only [decide_true, Bool.not_true, Bool.toNat_false] at hcount ⊢
    cases s.valid <;> simp <;> (try split) <;> omega
  · have : decide (n = 0) = false := by simp [h0]
    simp only [this, Bool.not_false, Bool.toNat_true] at hcount ⊢
    have := Bool.toNat_le (decide (n ≥ 16))
    generalize (decide (n ≥ 16)).toNat = q at *
    cases s.valid <;> simp <;> (try split) <;> omega

/-- Work left. -/
def sinkWork (c : SrcCfg) (s : Sink) (pend : Nat → Nat) : Nat :=
  ((List.range c.segs).map fun k => outWork 5 (s.out k) + pend k).sum + 2 * ringCount 5 s.fifo + s.stV.toNat

theorem sum_le_of {l : List Nat} {f g : Nat → Nat} (h : ∀ k ∈ l, f k ≤ g k) : (l.map f).sum ≤ (l.map g).sum := by
  induction l with
  | nil => exact Nat.le_refl _
  | cons x l ih =>
    simp only [List.map_cons, List.sum_cons]
    have := h x (List.mem_cons_self ..)
    have := ih fun k hk => h k (List.mem_cons_of_mem _ hk)
    omega

theorem sum_lt_of {l : List Nat} {f g : Nat → Nat} (h : ∀ k ∈ l, f k + (if g k = 0 then 0 else 1) ≤ g k) :
    (l.map f).sum + (if (l.map g).sum = 0 then 0 else 1) ≤ (l.map g).sum := by
  induction l with
  | nil => simp
  | cons x l ih =>
    simp only [List.map_cons, List.sum_cons]
    have h1 := h x (List.mem_cons_self ..)
    have h2 := ih fun k hk => h k (List.mem_cons_of_mem _ hk)
    repeat' split at h1
    all_goals repeat' split at h2
    all_goals split
    all_goals omega

theorem sum_zero {l : List Nat} {f : Nat → Nat} (h : (l.map f).sum = 0) : ∀ k ∈ l, f k = 0 := by
  induction l with
  | nil => intro k hk; cases hk
  | cons x l ih =>
    simp only [List.map_cons, List.sum_cons] at h
    intro k hk
    rcases List.mem_cons.mp hk with rfl | hk
    · omega
    · exact ih (by omega) k hk

theorem sinkWork_step {c : SrcCfg} {s : Sink} {pend : Nat → Nat} (h : SinkInv c s pend) {i : SinkIn} (hr : i.rst = false)
    (hram : ∀ k < c.segs, i.done k = true → 0 < pend k) (ht : i.tvalid = false)
    (hq : ∀ k < c.segs, i.cmdReady k = true ∧ (0 < pend k → i.done k = true)) :
    sinkWork c (sinkStep c s i) (sinkPendNext s i pend) + (if sinkWork c s pend = 0 then 0 else 1) ≤ sinkWork c s pend := by
  have htake : sinkTake s i = false := by simp [sinkTake, ht]
  have hsum : ((List.range c.segs).map fun k => outWork 5 ((sinkStep c s i).out k) + sinkPendNext s i pend k).sum +
      (if ((List.range c.segs).map fun k => outWork 5 (s.out k) + pend k).sum = 0 then 0 else 1) ≤
      ((List.range c.segs).map fun k => outWork 5 (s.out k) + pend k).sum := by
    apply sum_lt_of
    intro k hk
    have hk := List.mem_range.mp hk
    have hw := outWork_drain (s.out k) (sinkCmd c s i k) (h.out k hk) (by have := (h.outGate k hk).1; omega)
    have e := (sinkStep_out c s i hr k).1
    rw [htake, Bool.false_and, (hq k hk).1] at e
    rw [← e] at hw
    unfold sinkPendNext
    rw [(hq k hk).1, Bool.and_true]
    have hd : (i.done k).toNat = if pend k = 0 then 0 else 1 := by
      by_cases hp : pend k = 0
      · rw [if_pos hp]
        cases hdn : i.done k with
        | false => rfl
        | true => have := hram k hk hdn; omega
      · rw [if_neg hp, (hq k hk).2 (by omega)]; rfl
    rw [hd]
    cases hv : (s.out k).valid <;> simp only [hv, Bool.false_eq_true, if_false, if_true, Bool.toNat_false, Bool.toNat_true] at hw ⊢
    all_goals repeat' split at hw
    all_goals repeat' split
    all_goals omega
  obtain ⟨-, hcnt, -⟩ := sinkFifo_step h i hr
  rw [htake, Bool.toNat_false, Nat.add_zero] at hcnt
  have hst : (sinkStep c s i).stV.toNat ≤ (sinkPop c s).toNat := by
    rw [(sinkStep_status c s i hr).2.2.1]
    unfold sinkDec
    cases sinkPop c s <;> cases (ringHead 5 s.fifo).last <;> decide
  unfold sinkWork
  by_cases hz : ((List.range c.segs).map fun k => outWork 5 (s.out k) + pend k).sum = 0
  · rw [if_pos hz] at hsum
    by_cases hc0 : ringCount 5 s.fifo = 0
    · have hb := Bool.toNat_le s.stV
      split <;> omega
    · have hpop : sinkPop c s = true := by
        have hpos : 0 < ringCount 5 s.fifo := by omega
        unfold sinkPop
        rw [ring_empty 5 _ h.fifo]
        simp only [hc0, decide_false, Bool.not_false, Bool.true_and, List.all_eq_true, List.mem_range, Bool.not_eq_true',
          Bool.and_eq_false_iff, Bool.not_eq_false']
        intro k hk
        have hk0 := sum_zero hz k (List.mem_range.mpr hk)
        have hacct := h.acct k hk
        have hq0 := (outWork_zero 5 (s.out k) (by omega)).1
        rw [hq0, List.length_nil, (ring_pop 5 s.fifo h.fifo hpos).2.2] at hacct
        cases hm : (ringHead 5 s.fifo).mask k with
        | false => exact Or.inl rfl
        | true =>
          right
          rw [h.doneR k hk, decide_eq_true_eq]
          rw [List.countP_cons_of_pos (by exact hm)] at hacct
          omega
      rw [hpop] at hcnt hst
      simp only [Bool.toNat_true] at hcnt hst
      split <;> omega
  · rw [if_neg hz] at hsum
    have := Bool.toNat_le (sinkPop c s)
    split <;> omega

theorem sinkWork_le {c : SrcCfg} {s : Sink} {pend : Nat → Nat} (h : SinkInv c s pend) : sinkWork c s pend ≤ 93 * c.segs + 37 := by
  unfold sinkWork
  have h1 : ((List.range c.segs).map fun k => outWork 5 (s.out k) + pend k).sum ≤ ((List.range c.segs).map fun _ => 93).sum := by
    apply sum_le_of
    intro k hk
    have hk := List.mem_range.mp hk
    have h1 := (h.outGate k hk).1
    have h2 := h.acct k hk
    have h3 := List.countP_le_length (p := fun x : SinkEntry => x.mask k) (l := ringList 5 s.fifo)
    rw [ringList_length] at h3
    have h4 := h.gate.1
    have := Bool.toNat_le (s.out k).valid
    have := Bool.toNat_le (s.out k).half
    unfold outWork
    omega
  have h2 : ((List.range c.segs).map fun _ => 93).sum = 93 * c.segs := by
    rw [List.map_const', List.length_range, List.sum_replicate_nat, Nat.mul_comm]
  have h3 := h.gate.1
  have := Bool.toNat_le s.stV
  omega

/-- Ready for what comes next: a descriptor or a word. -/
def sinkNext (s : Sink) : Bool := if s.st = .idle then s.ready else s.tready

theorem sinkNext_step {c : SrcCfg} {s : Sink} {pend : Nat → Nat} (h : SinkInv c s pend) {i : SinkIn} (hr : i.rst = false)
    (hv : i.valid = false) (ht : i.tvalid = false) (he : i.enable = true) (hw : sinkWork c s pend = 0) :
    (sinkStep c s i).half = false ∧ (s.half = false → sinkNext (sinkStep c s i) = true) := by
  have hc0 : ringCount 5 s.fifo = 0 := by unfold sinkWork at hw; omega
  have hz : ((List.range c.segs).map fun k => outWork 5 (s.out k) + pend k).sum = 0 := by unfold sinkWork at hw; omega
  refine ⟨by rw [(sinkStep_status c s i hr).2.1, hc0]; rfl, fun hh => ?_⟩
  have hsp : sinkSpace c s = true := by
    unfold sinkSpace
    rw [hh]
    simp only [Bool.not_false, Bool.and_true, List.all_eq_true, List.mem_range, Bool.not_eq_true']
    intro k hk
    have := sum_zero hz k (List.mem_range.mpr hk)
    exact (outWork_zero 5 (s.out k) (by omega)).2
  have hact : s.active < 32 := by
    have ha := h.active
    rw [List.eq_nil_of_length_eq_zero (by rw [ringList_length, hc0] : (ringList 5 s.fifo).length = 0), List.countP_nil] at ha
    have := Bool.toNat_le (s.st == .write)
    omega
  have hav : s.av = true := by rw [h.av, decide_eq_true_eq]; exact hact
  obtain ⟨e0, -, -, -, -, -, -, -, e8, e9⟩ := sinkStep_fsm c s i hr
  unfold sinkNext
  rw [e0, e8, e9]
  have ha : sinkAccept s i = false := by simp [sinkAccept, hv]
  have htk : sinkTake s i = false := by simp [sinkTake, ht]
  unfold sinkFsm
  match hst : s.st with
  | .idle => simp [ha, he, hav]
  | .write => simp [htk, hsp, hst]
  | .drop => simp [ht, hst]

theorem sinkWork_run {c : SrcCfg} : ∀ (is : List SinkIn) (s : Sink) (pend : Nat → Nat), SinkInv c s pend →
    (∀ i ∈ is, i.rst = false) → SinkRamOk c pend s is → SinkQuiet c pend s is →
    SinkInv c (sinkRun c s is) (sinkPendRun c pend s is) ∧
    sinkWork c (sinkRun c s is) (sinkPendRun c pend s is) ≤ sinkWork c s pend - is.length ∧
    (sinkWork c s pend + 1 ≤ is.length ∨ (is ≠ [] ∧ sinkWork c s pend = 0) → (sinkRun c s is).half = false) ∧
    (sinkWork c s pend + 2 ≤ is.length ∨ (is ≠ [] ∧ sinkWork c s pend = 0 ∧ s.half = false) → sinkNext (sinkRun c s is) = true) := by
  intro is
  induction is with
  | nil => intro s pend h _ _ _; exact ⟨h, by simp [sinkRun, sinkPendRun], by simp, by simp⟩
  | cons i is ih =>
    intro s pend h hr hram hq
    have hri := hr i (List.mem_cons_self ..)
    have hinv := sinkInv_step h hri hram.1
    have hw := sinkWork_step h hri hram.1 hq.1.2.2.1 hq.1.2.2.2
    obtain ⟨i1, i2, i3, i4⟩ := ih _ _ hinv (fun x hx => hr x (List.mem_cons_of_mem _ hx)) hram.2 hq.2
    have hn := fun hz => sinkNext_step h hri hq.1.2.1 hq.1.2.2.1 hq.1.1 hz
    refine ⟨i1, ?_, ?_, ?_⟩
    · rw [List.length_cons]
      show sinkWork c (sinkRun c (sinkStep c s i) is) _ ≤ _
      have : sinkPendRun c pend s (i :: is) = sinkPendRun c (sinkPendNext s i pend) (sinkStep c s i) is := rfl
      rw [this]
      split at hw <;> omega
    · intro hh
      show (sinkRun c (sinkStep c s i) is).half = false
      by_cases hz : sinkWork c s pend = 0
      · rw [if_pos hz] at hw
        by_cases he : is = []
        · subst he; exact (hn hz).1
        · exact i3 (Or.inr ⟨he, by omega⟩)
      · rw [if_neg hz] at hw
        rw [List.length_cons] at hh
        exact i3 (Or.inl (by rcases hh with hh | hh <;> omega))
    · intro hh
      show sinkNext (sinkRun c (sinkStep c s i) is) = true
      by_cases hz : sinkWork c s pend = 0
      · rw [if_pos hz] at hw
        by_cases he : is = []
        · subst he
          rcases hh with hh | hh
          · simp at hh
          · exact (hn hz).2 hh.2.2
        · exact i4 (Or.inr ⟨he, by omega, (hn hz).1⟩)
      · rw [if_neg hz] at hw
        rw [List.length_cons] at hh
        exact i4 (Or.inl (by rcases hh with hh | hh <;> omega))

theorem sinkWork_zero {c : SrcCfg} {s : Sink} {pend : Nat → Nat} (h : sinkWork c s pend = 0) :
    (∀ k < c.segs, outQ 5 (s.out k) = []) ∧ ringList 5 s.fifo = [] ∧ sinkStatusNow s = [] := by
  have hz : ((List.range c.segs).map fun k => outWork 5 (s.out k) + pend k).sum = 0 := by unfold sinkWork at h; omega
  have hc0 : ringCount 5 s.fifo = 0 := by unfold sinkWork at h; omega
  have hs : s.stV.toNat = 0 := by unfold sinkWork at h; omega
  refine ⟨fun k hk => ?_, List.eq_nil_of_length_eq_zero (by rw [ringList_length, hc0]), ?_⟩
  · have := sum_zero hz k (List.mem_range.mpr hk)
    exact (outWork_zero 5 (s.out k) (by omega)).1
  · unfold sinkStatusNow; cases hv : s.stV
    · rfl
    · rw [hv] at hs; cases hs

theorem sinkRun_append (c : SrcCfg) (a b : List SinkIn) (s : Sink) : sinkRun c s (a ++ b) = sinkRun c (sinkRun c s a) b := by
  induction a generalizing s with
  | nil => rfl
  | cons x a ih => exact ih _

theorem sinkPendRun_append (c : SrcCfg) (a b : List SinkIn) (pend : Nat → Nat) (s : Sink) :
    sinkPendRun c pend s (a ++ b) = sinkPendRun c (sinkPendRun c pend s a) (sinkRun c s a) b := by
  induction a generalizing s pend with
  | nil => rfl
  | cons x a ih => exact ih _ _

theorem sinkTrace_append (c : SrcCfg) (a b : List SinkIn) (s : Sink) :
    sinkTrace c s (a ++ b) = sinkTrace c s a ++ sinkTrace c (sinkRun c s a) b := by
  induction a generalizing s with
  | nil => rfl
  | cons x a ih => simp only [List.cons_append, sinkTrace, sinkRun, ih]

theorem sinkAccepted_append (c : SrcCfg) (a b : List SinkIn) (s : Sink) :
    sinkAccepted c s (a ++ b) = sinkAccepted c s a ++ sinkAccepted c (sinkRun c s a) b := by
  unfold sinkAccepted; rw [sinkTrace_append, List.filterMap_append]

theorem sinkRamOk_append (c : SrcCfg) (a b : List SinkIn) (pend : Nat → Nat) (s : Sink) :
    SinkRamOk c pend s (a ++ b) ↔ SinkRamOk c pend s a ∧ SinkRamOk c (sinkPendRun c pend s a) (sinkRun c s a) b := by
  induction a generalizing s pend with
  | nil => simp [SinkRamOk, sinkPendRun, sinkRun]
  | cons x a ih => simp only [List.cons_append, SinkRamOk, sinkPendRun, sinkRun, ih, and_assoc]

/-- Packets that are open: between a descriptor and the last word. -/
theorem sinkOpen_run {c : SrcCfg} : ∀ (is : List SinkIn) (s : Sink) (pend : Nat → Nat), SinkInv c s pend →
    (∀ i ∈ is, i.rst = false) → SinkRamOk c pend s is →
    (sinkWords c s is).countP (·.last) + (decide ((sinkRun c s is).st ≠ .idle)).toNat =
      (sinkAccepted c s is).length + (decide (s.st ≠ .idle)).toNat := by
  intro is
  induction is with
  | nil => intro s pend _ _ _; rfl
  | cons i is ih =>
    intro s pend h hr hram
    have hri := hr i (List.mem_cons_self ..)
    have IH := ih _ _ (sinkInv_step h hri hram.1) (fun x hx => hr x (List.mem_cons_of_mem _ hx)) hram.2
    rw [sinkWords_cons, sinkAccepted_cons, List.countP_append, List.length_append, countP_one]
    have hml : ∀ (b : Bool) (x : SinkDesc), (if b then [x] else []).length = b.toNat := by intro b x; cases b <;> rfl
    rw [hml]
    have hstep : (s.tready && i.tvalid && (sinkWordOf i).last).toNat + (decide ((sinkStep c s i).st ≠ .idle)).toNat =
        (s.ready && i.valid).toNat + (decide (s.st ≠ .idle)).toNat := by
      rw [(sinkStep_fsm c s i hri).1]
      have hl : (sinkWordOf i).last = i.last := rfl
      rw [hl]
      unfold sinkFsm
      match hst : s.st with
      | .idle =>
        have htr : s.tready = false := by cases hh : s.tready; rfl; exact absurd hst (h.tready hh)
        have ha : sinkAccept s i = (s.ready && i.valid) := by simp [sinkAccept, hst]
        simp only [ha, htr, Bool.false_and]
        cases (s.ready && i.valid) <;> simp
      | .write =>
        have hrd : s.ready = false := by cases hh : s.ready; rfl; rw [h.ready hh] at hst; cases hst
        have htk : sinkTake s i = (s.tready && i.tvalid) := by simp [sinkTake, hst]
        simp only [htk, hrd, Bool.false_and]
        cases (s.tready && i.tvalid) <;> simp [hst]
        cases i.last <;> cases s.lastC <;> simp
      | .drop =>
        have hrd : s.ready = false := by cases hh : s.ready; rfl; rw [h.ready hh] at hst; cases hst
        simp only [hrd, Bool.false_and]
        cases (s.tready && i.tvalid && i.last) <;> simp [hst]
    show _ + (sinkWords c (sinkStep c s i) is).countP _ + (decide ((sinkRun c (sinkStep c s i) is).st ≠ .idle)).toNat = _
    omega

end Verif.Proofs
