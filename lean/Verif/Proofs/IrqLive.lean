import Verif.Proofs.IrqRateLimit
/-! Helper lemmas for the interrupt rate limiter: requests are answered. -/
namespace Verif.Proofs
open Verif Verif.Model

/-- Contents of the memory: deadlines have 17 bits, and nothing is pending before the first requests. -/
def IrqMemOk (W : Nat) (s : IrqLim) : Prop :=
  (∀ y < 2 ^ W, (s.state = .init → y < s.curIndex) → (s.mem y).exp < 2 ^ 17) ∧
  (s.state = .init → ∀ y < s.curIndex, (s.mem y).pending = false) ∧
  (s.state = .irqIn → s.irqIndex < 2 ^ W) ∧ s.preCount < 2 ^ 16 ∧
  s.time < 2 ^ 17

theorem irq_index_lt (W : Nat) (s : IrqLim) (i : IrqIn) (hr : i.rst = false) (h : s.state = .irqIn → s.irqIndex < 2 ^ W) :
    (irqStep W s i).state = .irqIn → (irqStep W s i).irqIndex < 2 ^ W := by
  have hp := Nat.two_pow_pos W
  have hm := irq_move W s i hr
  generalize irqStep W s i = n at hm
  intro hn
  cases hm with
  | init h0 hm hs hc hr hv ho => rcases hs with hs | hs <;> simp [hs.1] at hn
  | take h0 hi hs hm hx hd hc hr ho => rw [hx]; exact Nat.mod_lt _ hp
  | expire h0 hi hv hx hs hm hd hc hr ho => simp [hs] at hn
  | scan h0 hi hx hs hm hd hv hc hr ho => simp [hs] at hn
  | mark h0 hx hs hm hv hc hr ho => simp [hs] at hn
  | emit h0 hf hs hm hv hc hr ho => simp [hs] at hn
  | stall h0 hf hs hm hd hc hr ho => rw [hd.2]; exact h (by rw [← hs]; exact hn)
  | clear h0 hx hs hm hv hc hr ho => simp [hs] at hn

theorem irq_mem_ok (W : Nat) (s : IrqLim) (i : IrqIn) (hr : i.rst = false) (hk : IrqOk W s) (h : IrqMemOk W s) :
    IrqMemOk W (irqStep W s i) := by
  obtain ⟨h1, h2, h3, h4, h5⟩ := h
  have ht := irq_time W s i hr
  have hi := irq_index_lt W s i hr h3
  have hp : (irqStep W s i).preCount < 2 ^ 16 := by
    rw [ht.2]; split
    · exact Nat.mod_lt _ (by decide)
    · omega
  have htm : (irqStep W s i).time < 2 ^ 17 := by
    rw [ht.1]; split
    · exact Nat.mod_lt _ (by decide)
    · exact h5
  have hm := irq_move W s i hr
  clear ht
  generalize irqStep W s i = n at hm hi hp htm
  unfold IrqMemOk
  have hexp : s.state = .irqIn → s.rdData = s.mem s.irqIndex → s.rdData.exp < 2 ^ 17 := by
    intro hn he
    rw [he]; exact h1 _ (h3 hn) fun hh => by simp [hn] at hh
  have plain : s.state ≠ .init → n.state ≠ .init → (∀ y < 2 ^ W, n.mem y = s.mem y ∨ (n.mem y).exp < 2 ^ 17) →
      (∀ y < 2 ^ W, (n.state = .init → y < n.curIndex) → (n.mem y).exp < 2 ^ 17) ∧
      (n.state = .init → ∀ y < n.curIndex, (n.mem y).pending = false) ∧ (n.state = .irqIn → n.irqIndex < 2 ^ W) ∧ n.preCount < 2 ^ 16 ∧
      n.time < 2 ^ 17 := by
    intro a1 a2 a3
    refine ⟨?_, fun hh => absurd hh a2, hi, hp, htm⟩
    intro y hy _
    rcases a3 y hy with h | h
    · rw [h]; exact h1 y hy fun hh => absurd hh a1
    · exact h
  cases hm with
  | init h0 hm hs hc hr hv ho =>
    have hcl : ∀ y, y < s.curIndex + 1 → (n.mem y).exp < 2 ^ 17 ∧ (n.mem y).pending = false := by
      intro y hy
      rw [hm, irqSet]
      split
      · exact ⟨by decide, rfl⟩
      · exact ⟨h1 y (by have := hk.cur; omega) fun _ => by omega, h2 h0 y (by omega)⟩
    rcases hs with hs | hs
    · have e : n.curIndex = s.curIndex + 1 := by
        rw [hc]
        have := hk.cur
        by_cases hh : s.curIndex + 1 = 2 ^ W
        · rw [hh, Nat.mod_self] at hs; exact absurd rfl hs.2
        · exact Nat.mod_eq_of_lt (by omega)
      exact ⟨fun y _ hy' => (hcl y (by have := hy' hs.1; omega)).1, fun _ y hy => (hcl y (by omega)).2, hi, hp, htm⟩
    · have e : s.curIndex + 1 = 2 ^ W := by
        have := hk.cur
        by_cases hh : s.curIndex + 1 = 2 ^ W
        · exact hh
        · rw [Nat.mod_eq_of_lt (by omega)] at hs; omega
      exact ⟨fun y hy _ => (hcl y (by omega)).1, fun hh => by simp [hs.1] at hh, hi, hp, htm⟩
  | take h0 hi hs hm hx hd hc hr ho => exact plain (by simp [h0]) (by simp [hs]) (by simp [hm])
  | expire h0 hi hv hx hs hm hd hc hr ho => exact plain (by simp [h0]) (by simp [hs]) (by simp [hm])
  | scan h0 hi hx hs hm hd hv hc hr ho => exact plain (by simp [h0]) (by simp [hs]) (by simp [hm])
  | mark h0 hx hs hm hv hc hr ho =>
    refine plain (by simp [h0]) (by simp [hs]) ?_
    intro y _
    rw [hm, irqSet]
    split
    · right
      exact hexp h0 (hk.rd (fun hh => by simp [h0] at hh) (by simp [h0]))
    · exact .inl rfl
  | emit h0 hf hs hm hv hc hr ho =>
    refine plain (by rcases h0 with h0 | h0 <;> simp [h0.1]) (by simp [hs]) ?_
    intro y _
    rw [hm, irqSet]
    split
    · right; exact Nat.mod_lt _ (by decide)
    · exact .inl rfl
  | stall h0 hf hs hm hd hc hr ho =>
    have hn : s.state ≠ .init := by rcases h0 with h0 | h0 <;> simp [h0.1]
    exact plain hn (by rw [hs]; exact hn) (by simp [hm])
  | clear h0 hx hs hm hv hc hr ho =>
    refine plain (by simp [h0]) (by simp [hs]) ?_
    intro y _
    rw [hm, irqSet]
    split
    · right; decide
    · exact .inl rfl

/-- A request for `x` is still to be answered. -/
def IrqOwed (x : Nat) (s : IrqLim) : Prop :=
  s.state ≠ .init ∧ ((s.state = .irqIn ∧ s.irqIndex = x) ∨ ((s.mem x).pending = true ∧ (s.mem x).running = true))

/-- `x` is presented at an edge. -/
def IrqPres (W x : Nat) (s : IrqLim) (i : IrqIn) : Prop := irqPresents W s i = true ∧ (irqStep W s i).outIndex = x

theorem irq_owed_step (W x : Nat) (s : IrqLim) (i : IrqIn) (hr : i.rst = false) (hk : IrqOk W s) (h : IrqOwed x s) :
    IrqPres W x s i ∨ IrqOwed x (irqStep W s i) := by
  obtain ⟨hn, h⟩ := h
  have hpr := irq_presents W s i hr
  have hm := irq_move W s i hr
  unfold IrqPres
  generalize irqStep W s i = n at hm
  unfold IrqOwed
  cases hm with
  | init h0 hm hs hc hr hv ho => exact absurd h0 hn
  | take h0 hi hs hm hx hd hc hr ho =>
    right; refine ⟨by simp [hs], .inr ?_⟩
    rw [hm]; simpa [h0] using h
  | expire h0 hi hv hx hs hm hd hc hr ho =>
    right; refine ⟨by simp [hs], .inr ?_⟩
    rw [hm]; simpa [h0] using h
  | scan h0 hi hx hs hm hd hv hc hr ho =>
    right; refine ⟨by simp [hs], .inr ?_⟩
    rw [hm]; simpa [h0] using h
  | mark h0 hx hs hm hv hc hr ho =>
    right; refine ⟨by simp [hs], .inr ?_⟩
    rw [hm, irqSet]
    split
    · simp
    · rename_i hh
      rcases h with h | h
      · exact absurd h.2.symm hh
      · exact h
  | emit h0 hf hs hm hv hc hr ho =>
    by_cases hx : s.irqIndex = x
    · exact .inl ⟨hpr.mpr ⟨h0, hf⟩, by rw [ho.2, hx]⟩
    · right; refine ⟨by simp [hs], .inr ?_⟩
      rw [hm, irqSet, if_neg (fun hh => hx hh.symm)]
      rcases h with h | h
      · exact absurd h.2 hx
      · exact h
  | stall h0 hf hs hm hd hc hr ho =>
    right; rw [hs, hd.2, hm]; exact ⟨hn, h⟩
  | clear h0 hx hs hm hv hc hr ho =>
    right; refine ⟨by simp [hs], .inr ?_⟩
    rw [hm, irqSet]
    have h9 := hk.rd (fun hh => by simp [h0] at hh) hn
    rcases h with h | h
    · simp [h0] at h
    · split
      · rename_i hh
        rw [hh, ← h9, hx] at h; simp at h
      · exact h

/-- A cycle without input request and with the output ready. -/
def IrqQuiet (p : Nat) (i : IrqIn) : Prop :=
  i.rst = false ∧ i.inValid = false ∧ i.outReady = true ∧ i.prescale % 2 ^ 16 = p

/-- `x` is pending, and no request is being taken. -/
structure IrqPend (W x a : Nat) (s : IrqLim) : Prop where
  ok : IrqOk W s
  mok : IrqMemOk W s
  ne1 : s.state ≠ .init
  ne2 : s.state ≠ .irqIn
  mem : s.mem x = ⟨true, true, a⟩

theorem irq_pend_first (W x p : Nat) (s : IrqLim) (i : IrqIn) (hq : IrqQuiet p i) (hk : IrqOk W s)
    (hm' : IrqMemOk W s) (h : IrqOwed x s) :
    IrqPres W x s i ∨ ∃ a, IrqPend W x a (irqStep W s i) := by
  obtain ⟨q1, q2, q3, q4⟩ := hq
  rcases irq_owed_step W x s i q1 hk h with h' | h'
  · exact .inl h'
  right
  have hk' := irq_ok W s i q1 hk
  have hm'' := irq_mem_ok W s i q1 hk hm'
  have hne : (irqStep W s i).state ≠ .irqIn := by
    have hm := irq_move W s i q1
    generalize irqStep W s i = n at hm
    cases hm with
    | init h0 hm hs hc hr hv ho => exact absurd h0 h.1
    | take h0 hi hs hm hx hd hc hr ho => rw [q2] at hi; simp at hi
    | expire h0 hi hv hx hs hm hd hc hr ho => simp [hs]
    | scan h0 hi hx hs hm hd hv hc hr ho => simp [hs]
    | mark h0 hx hs hm hv hc hr ho => simp [hs]
    | emit h0 hf hs hm hv hc hr ho => simp [hs]
    | stall h0 hf hs hm hd hc hr ho => simp [irqFree, q3] at hf
    | clear h0 hx hs hm hv hc hr ho => simp [hs]
  obtain ⟨h1, h2⟩ := h'
  rcases h2 with h2 | h2
  · exact absurd h2.1 hne
  · refine ⟨((irqStep W s i).mem x).exp, hk', hm'', h1, hne, ?_⟩
    generalize (irqStep W s i).mem x = m at h2
    obtain ⟨m1, m2, m3⟩ := m
    simp only at h2
    simp [h2.1, h2.2]

/-- Cyclic distance from the scan position to `x`. -/
def irqDist (W x : Nat) (s : IrqLim) : Nat := if s.curIndex ≤ x then x - s.curIndex else x + 2 ^ W - s.curIndex

/-- Bound on the number of cycles until a pending expired `x` is presented. -/
def irqRank (W x : Nat) (s : IrqLim) : Nat :=
  match s.state with
  | .idle => if s.rdValid then (if s.irqIndex = x then 2 else 3 * irqDist W x s + 5) else 3 * irqDist W x s + 3
  | .irqOut => if s.irqIndex = x then 1 else 3 * irqDist W x s + 4
  | _ => 0

theorem irqDist_lt (W x : Nat) (s : IrqLim) (hx : x < 2 ^ W) (hc : s.curIndex < 2 ^ W) : irqDist W x s < 2 ^ W := by
  unfold irqDist; split <;> omega

theorem irqRank_le (W x : Nat) (s : IrqLim) (hx : x < 2 ^ W) (hc : s.curIndex < 2 ^ W) :
    irqRank W x s ≤ 3 * 2 ^ W + 2 := by
  have := irqDist_lt W x s hx hc
  unfold irqRank
  split
  · split
    · split <;> omega
    · omega
  · split <;> omega
  · omega

/-- With `x` expired, every quiet cycle brings it closer to being presented. -/
theorem irq_rank_step (W x a p : Nat) (s : IrqLim) (i : IrqIn) (hx : x < 2 ^ W) (hq : IrqQuiet p i)
    (h : IrqPend W x a s) (he : irqExpired a s.time = true) :
    IrqPres W x s i ∨ (IrqPend W x a (irqStep W s i) ∧ irqRank W x (irqStep W s i) < irqRank W x s ∧
      0 < irqRank W x (irqStep W s i)) := by
  obtain ⟨q1, q2, q3, q4⟩ := hq
  rcases irq_pend_first W x p s i ⟨q1, q2, q3, q4⟩ h.ok h.mok ⟨h.ne1, .inr (by rw [h.mem]; simp)⟩ with h' | ⟨b, h'⟩
  · exact .inl h'
  have hpr := irq_presents W s i q1
  have hm := irq_move W s i q1
  unfold IrqPres
  generalize irqStep W s i = n at hm h'
  have hc := h.ok.cur
  have key : (n.mem x = s.mem x) → irqRank W x n < irqRank W x s → 0 < irqRank W x n →
      (irqPresents W s i = true ∧ n.outIndex = x) ∨
      (IrqPend W x a n ∧ irqRank W x n < irqRank W x s ∧ 0 < irqRank W x n) := by
    intro k1 k2 k3
    exact .inr ⟨⟨h'.ok, h'.mok, h'.ne1, h'.ne2, by rw [k1, h.mem]⟩, k2, k3⟩
  have hd' : ∀ m : IrqLim, m.curIndex = s.curIndex → irqDist W x m = irqDist W x s := by
    intro m hm; unfold irqDist; rw [hm]
  cases hm with
  | init h0 hm hs hc hr hv ho => exact absurd h0 h.ne1
  | take h0 hi hs hm hx hd hc hr ho => rw [q2] at hi; simp at hi
  | expire h0 hi hv hx hs hm hd hc hr ho =>
    apply key (by rw [hm])
    · simp only [irqRank, h0, hs, hv, if_true, hd.2, hd' n hc]
      split <;> omega
    · simp only [irqRank, hs]; split <;> omega
  | scan h0 hi hxx hs hm hd hv hcc hr ho =>
    have hD : irqDist W x s = 0 ∧ s.curIndex = x ∨ irqDist W x s = irqDist W x n + 1 ∧ s.curIndex ≠ x := by
      unfold irqDist
      rw [hcc]
      by_cases e : s.curIndex + 1 = 2 ^ W
      · rw [e, Nat.mod_self]
        by_cases e2 : s.curIndex = x
        · left; exact ⟨by simp [e2], e2⟩
        · right; rw [if_neg (by omega), if_pos (Nat.zero_le _)]; omega
      · rw [Nat.mod_eq_of_lt (by omega : s.curIndex + 1 < 2 ^ W)]
        by_cases e2 : s.curIndex = x
        · left; exact ⟨by simp [e2], e2⟩
        · right
          by_cases e3 : s.curIndex ≤ x
          · rw [if_pos e3, if_pos (by omega)]; omega
          · rw [if_neg e3, if_neg (by omega)]; omega
    -- the entry last read is not `x`, or it would have expired
    have hnx : s.rdValid = true → s.irqIndex ≠ x := by
      intro hv1 hi1
      have h9 := h.ok.rd (fun _ => hv1) h.ne1
      rw [hi1, h.mem] at h9
      rw [h9, hv1, he] at hxx
      simp at hxx
    apply key (by rw [hm])
    · simp only [irqRank, h0, hs, hv, if_true, hd.2]
      have hs' : 3 * irqDist W x s + 3 ≤
          (if s.rdValid = true then if s.irqIndex = x then 2 else 3 * irqDist W x s + 5 else 3 * irqDist W x s + 3) := by
        split
        · rename_i hv1
          rw [if_neg (hnx hv1)]; omega
        · omega
      refine Nat.lt_of_lt_of_le ?_ hs'
      rcases hD with hD | hD
      · rw [if_pos hD.2]; omega
      · rw [if_neg hD.2, hD.1]; omega
    · simp only [irqRank, hs, hv, if_true]; split <;> omega
  | mark h0 hx hs hm hv hc hr ho => exact absurd h0 h.ne2
  | emit h0 hf hs hm hv hc hr ho =>
    by_cases hx1 : s.irqIndex = x
    · exact .inl ⟨hpr.mpr ⟨h0, hf⟩, by rw [ho.2, hx1]⟩
    · have h0' : s.state = .irqOut := by
        rcases h0 with h0 | h0
        · exact absurd h0.1 h.ne2
        · exact h0.1
      apply key (by rw [hm, irqSet, if_neg (fun hh => hx1 hh.symm)])
      · simp only [irqRank, h0', hs, hv, Bool.false_eq_true, if_false, hd' n hc]
        rw [if_neg hx1]; omega
      · simp only [irqRank, hs, hv, Bool.false_eq_true, if_false]; omega
  | stall h0 hf hs hm hd hc hr ho => simp [irqFree, q3] at hf
  | clear h0 hxx hs hm hv hc hr ho =>
    have h9 := h.ok.rd (fun hh => by simp [h0] at hh) h.ne1
    have hx1 : s.irqIndex ≠ x := by
      intro hh
      rw [hh, h.mem] at h9
      rw [h9] at hxx; simp at hxx
    apply key (by rw [hm, irqSet, if_neg (fun hh => hx1 hh.symm)])
    · simp only [irqRank, h0, hs, hv, Bool.false_eq_true, if_false, hd' n hc]
      rw [if_neg hx1]; omega
    · simp only [irqRank, hs, hv, Bool.false_eq_true, if_false]; omega

/-- `x` is presented in a history. -/
def IrqShown (W x : Nat) : IrqLim → List IrqIn → Prop
  | _, [] => False
  | s, i :: is => IrqPres W x s i ∨ IrqShown W x (irqStep W s i) is

theorem irq_pend_step (W x a p : Nat) (s : IrqLim) (i : IrqIn) (hq : IrqQuiet p i) (h : IrqPend W x a s) :
    IrqPres W x s i ∨ IrqPend W x a (irqStep W s i) := by
  rcases irq_pend_first W x p s i hq h.ok h.mok ⟨h.ne1, .inr (by rw [h.mem]; simp)⟩ with h' | ⟨b, h'⟩
  · exact .inl h'
  obtain ⟨q1, q2, q3, q4⟩ := hq
  have hpr := irq_presents W s i q1
  have hm := irq_move W s i q1
  unfold IrqPres
  generalize irqStep W s i = n at hm h'
  have key : (n.mem x = s.mem x) → (irqPresents W s i = true ∧ n.outIndex = x) ∨ IrqPend W x a n :=
    fun k1 => .inr ⟨h'.ok, h'.mok, h'.ne1, h'.ne2, by rw [k1, h.mem]⟩
  cases hm with
  | init h0 hm hs hc hr hv ho => exact absurd h0 h.ne1
  | take h0 hi hs hm hx hd hc hr ho => rw [q2] at hi; simp at hi
  | expire h0 hi hv hx hs hm hd hc hr ho => exact key (by rw [hm])
  | scan h0 hi hxx hs hm hd hv hcc hr ho => exact key (by rw [hm])
  | mark h0 hx hs hm hv hc hr ho => exact absurd h0 h.ne2
  | emit h0 hf hs hm hv hc hr ho =>
    by_cases hx1 : s.irqIndex = x
    · exact .inl ⟨hpr.mpr ⟨h0, hf⟩, by rw [ho.2, hx1]⟩
    · exact key (by rw [hm, irqSet, if_neg (fun hh => hx1 hh.symm)])
  | stall h0 hf hs hm hd hc hr ho => simp [irqFree, q3] at hf
  | clear h0 hxx hs hm hv hc hr ho =>
    have h9 := h.ok.rd (fun hh => by simp [h0] at hh) h.ne1
    have hx1 : s.irqIndex ≠ x := by
      intro hh
      rw [hh, h.mem] at h9
      rw [h9] at hxx; simp at hxx
    exact key (by rw [hm, irqSet, if_neg (fun hh => hx1 hh.symm)])

/-- Expired now and for `r` more ticks. -/
def IrqWin (a b r : Nat) : Prop := ∀ k ≤ r, irqExpired a ((b + k) % 2 ^ 17) = true

theorem irq_rank_pos (W x a : Nat) (s : IrqLim) (h : IrqPend W x a s) : 0 < irqRank W x s := by
  have h1 := h.ne1
  have h2 := h.ne2
  unfold irqRank
  split
  · split
    · split <;> omega
    · omega
  · split <;> omega
  · rename_i a1 a2
    exfalso
    cases hs : s.state with
    | init => exact h1 hs
    | irqIn => exact h2 hs
    | idle => exact a1 hs
    | irqOut => exact a2 hs

theorem irq_phase2 (W x a p : Nat) (hx : x < 2 ^ W) (is : List IrqIn) (s : IrqLim) (hq : ∀ i ∈ is, IrqQuiet p i)
    (h : IrqPend W x a s) (hw : IrqWin a s.time (irqRank W x s)) (hl : irqRank W x s ≤ is.length) :
    IrqShown W x s is := by
  induction is generalizing s with
  | nil =>
    have := irq_rank_pos W x a s h
    simp at hl; omega
  | cons i is ih =>
    have hqi := hq i List.mem_cons_self
    have ht5 := h.mok.2.2.2.2
    have h0 := hw 0 (Nat.zero_le _)
    rw [Nat.add_zero, Nat.mod_eq_of_lt ht5] at h0
    rcases irq_rank_step W x a p s i hx hqi h h0 with h1 | ⟨h1, h2, h3⟩
    · exact .inl h1
    · right
      refine ih _ (fun j hj => hq j (List.mem_cons_of_mem _ hj)) h1 ?_ (by simp only [List.length_cons] at hl; omega)
      intro k hk
      rw [(irq_time W s i hqi.1).1]
      split
      · have := hw (k + 1) (by omega)
        rw [← this]; congr 1
        omega
      · exact hw k (by omega)

/-- Ticks until the time is just past the deadline `a`. -/
def irqAhead (a b : Nat) : Nat := (a + 1 + 2 ^ 17 - b) % 2 ^ 17

/-- Cycles until the time is just past the deadline `a`. -/
def irqWait (a p : Nat) (s : IrqLim) : Nat :=
  if irqAhead a s.time = 0 then 0 else s.preCount + 1 + (irqAhead a s.time - 1) * (p + 1)

theorem irq_win (W a b r : Nat) (ha : a < 2 ^ 17) (hb : b < 2 ^ 17) (h0 : irqAhead a b = 0) (hr : r ≤ 3 * 2 ^ W + 2)
    (hW : W ≤ 14) : IrqWin a b r := by
  have hp : 2 ^ W ≤ 2 ^ 14 := Nat.pow_le_pow_right (by decide) hW
  have hr2 : r < 2 ^ 16 := by omega
  unfold irqAhead at h0
  intro k hk
  unfold irqExpired
  have : 0 < (a + 2 ^ 32 - (b + k) % 2 ^ 17) % 2 ^ 32 / 2 ^ 16 := by omega
  simp only [bne_iff_ne]
  omega

theorem irq_phase1 (W x a p : Nat) (hx : x < 2 ^ W) (hW : W ≤ 14) (is : List IrqIn) (s : IrqLim)
    (hq : ∀ i ∈ is, IrqQuiet p i) (h : IrqPend W x a s) (hl : irqWait a p s + (3 * 2 ^ W + 2) ≤ is.length) :
    IrqShown W x s is := by
  induction is generalizing s with
  | nil => simp at hl
  | cons i is ih =>
    have hqi := hq i List.mem_cons_self
    have hrk := irqRank_le W x s hx h.ok.cur
    obtain ⟨m1, m2, m3, m4, m5⟩ := h.mok
    have ha : a < 2 ^ 17 := by
      have := m1 x hx fun hh => absurd hh h.ne1
      rwa [h.mem] at this
    by_cases h0 : irqAhead a s.time = 0
    · refine irq_phase2 W x a p hx _ s hq h (irq_win W a s.time _ ha m5 h0 hrk hW) (by omega)
    · rcases irq_pend_step W x a p s i hqi h with h1 | h1
      · exact .inl h1
      · right
        refine ih _ (fun j hj => hq j (List.mem_cons_of_mem _ hj)) h1 ?_
        have ht := irq_time W s i hqi.1
        have hw : irqWait a p (irqStep W s i) + 1 ≤ irqWait a p s := by
          unfold irqWait
          rw [if_neg h0, ht.1, ht.2]
          by_cases hz : s.preCount = 0
          · rw [if_pos hz, if_pos hz, hqi.2.2.2]
            have e : irqAhead a ((s.time + 1) % 2 ^ 17) = irqAhead a s.time - 1 := by
              unfold irqAhead at h0 ⊢; omega
            rw [e]
            by_cases h1 : irqAhead a s.time - 1 = 0
            · rw [if_pos h1]; omega
            · rw [if_neg h1, hz]
              obtain ⟨m, hm⟩ : ∃ m, irqAhead a s.time = m + 2 := ⟨irqAhead a s.time - 2, by omega⟩
              rw [hm, show m + 2 - 1 - 1 = m by omega, show m + 2 - 1 = m + 1 by omega, Nat.succ_mul]
              omega
          · rw [if_neg hz, if_neg hz, if_neg h0]; omega
        simp only [List.length_cons] at hl
        omega

theorem irq_live (W x p : Nat) (hx : x < 2 ^ W) (hW : W ≤ 14) (is : List IrqIn) (s : IrqLim)
    (hq : ∀ i ∈ is, IrqQuiet p i) (hk : IrqOk W s) (hm : IrqMemOk W s) (h : IrqOwed x s)
    (hl : 2 ^ 16 + 2 ^ 17 * (p + 1) + (3 * 2 ^ W + 3) ≤ is.length) : IrqShown W x s is := by
  cases is with
  | nil => simp at hl
  | cons i is =>
    have hqi := hq i List.mem_cons_self
    rcases irq_pend_first W x p s i hqi hk hm h with h1 | ⟨a, h1⟩
    · exact .inl h1
    · right
      refine irq_phase1 W x a p hx hW is _ (fun j hj => hq j (List.mem_cons_of_mem _ hj)) h1 ?_
      have hb : irqWait a p (irqStep W s i) ≤ 2 ^ 16 + 2 ^ 17 * (p + 1) := by
        have hp := h1.mok.2.2.2.1
        have hd : irqAhead a (irqStep W s i).time < 2 ^ 17 := Nat.mod_lt _ (by decide)
        unfold irqWait
        split
        · exact Nat.zero_le _
        · have : (irqAhead a (irqStep W s i).time - 1) * (p + 1) ≤ 2 ^ 17 * (p + 1) :=
            Nat.mul_le_mul_right _ (by omega)
          omega
      simp only [List.length_cons] at hl
      omega

end Verif.Proofs
