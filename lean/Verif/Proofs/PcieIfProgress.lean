import Verif.Proofs.PcieIfRun
/-! Helper lemmas for the segmented PCIe interface: everything sent is eventually received. -/
namespace Verif.Proofs
open Verif Verif.Model Verif.Spec

/-- Work left for the frame in progress. -/
def curUnits : TxCur → Nat
  | none => 0
  | some (f, off, _) => f.data.length - off + 1

/-- Work left in the queue. -/
def queueUnits (q : List TxFrame) : Nat := (q.map fun f => f.data.length + 1).sum

theorem curUnits_after (g : IfGeo) (hL : 0 < g.lanes) (f : TxFrame) (off : Nat) (first : Bool) :
    curUnits (curAfter g f off) < curUnits (some (f, off, first)) := by
  unfold curAfter
  split
  · simp [curUnits]
  · simp only [curUnits]
    have : 0 < chunk g f off := by unfold chunk; omega
    omega

theorem txLoop_units (g : IfGeo) (hL : 0 < g.lanes) (n seg : Nat) (cur : TxCur) (queue : List TxFrame)
    (t t' : Txn) (cur' : TxCur) (queue' : List TxFrame)
    (hc : CurOk g cur) (hq : ∀ f ∈ queue, Sendable g f)
    (h : txLoop g n seg cur queue t = some (t', cur', queue')) :
    curUnits cur' + queueUnits queue' ≤ curUnits cur + queueUnits queue ∧
    (0 < n → (cur ≠ none ∨ queue ≠ []) →
      curUnits cur' + queueUnits queue' < curUnits cur + queueUnits queue) := by
  induction n generalizing seg cur queue t with
  | zero =>
    simp only [txLoop, Option.some.injEq, Prod.mk.injEq] at h
    obtain ⟨-, rfl, rfl⟩ := h
    exact ⟨Nat.le_refl _, by simp⟩
  | succ n ih =>
    have step : ∀ (f : TxFrame) (off : Nat) (first : Bool) (q : List TxFrame)
        (_ : CurOk g (some (f, off, first))) (_ : ∀ f ∈ q, Sendable g f),
        ((txSeg g f off first seg t).bind fun p => txLoop g n (seg + 1) p.2 q p.1) =
            some (t', cur', queue') →
        curUnits cur' + queueUnits queue' < curUnits (some (f, off, first)) + queueUnits q := by
      intro f off first q hcf hqf he
      have hoff : off ≤ f.data.length := by
        have := hcf.2; split at this <;> omega
      rw [txSeg_eq g f off first seg t hoff hcf.1.parityLen] at he
      simp only [Option.bind_some] at he
      have hca : CurOk g (curAfter g f off) := by
        unfold curAfter
        split
        · trivial
        · refine ⟨hcf.1, ?_⟩
          have : 0 < chunk g f off := by unfold chunk; omega
          exact ⟨by omega, by omega⟩
      have := (ih _ _ _ _ hca hqf he).1
      have := curUnits_after g hL f off first
      omega
    cases cur with
    | some c =>
      obtain ⟨f, off, first⟩ := c
      unfold txLoop at h
      have := step f off first queue hc hq h
      exact ⟨by omega, fun _ _ => this⟩
    | none =>
      cases queue with
      | nil =>
        simp only [txLoop, Option.some.injEq, Prod.mk.injEq] at h
        obtain ⟨-, rfl, rfl⟩ := h
        exact ⟨Nat.le_refl _, by simp⟩
      | cons f q =>
        unfold txLoop at h
        have := step f 0 true q ⟨hq f List.mem_cons_self, rfl⟩
          (fun f hf => hq f (List.mem_cons_of_mem _ hf)) h
        have e : curUnits (some (f, 0, true)) + queueUnits q = curUnits none + queueUnits (f :: q) := by
          simp [curUnits, queueUnits]
        exact ⟨by omega, fun _ _ => by omega⟩

/-- Steps left until everything has been received. -/
def ifWork (s : IfSys) : Nat :=
  4 * (curUnits s.cur + queueUnits s.queue) + 3 * s.built.toList.length + 2 * s.driveObj.toList.length +
    (if s.bus.valid = 0 then 0 else 1)

theorem work_zero (s : IfSys) (h : ifWork s = 0) : IfIdle s := by
  unfold ifWork at h
  have h1 : curUnits s.cur = 0 := by omega
  have h2 : queueUnits s.queue = 0 := by omega
  have h3 : s.built.toList.length = 0 := by omega
  have h4 : s.driveObj.toList.length = 0 := by omega
  refine ⟨?_, ?_, ?_, ?_, ?_⟩
  · cases hq : s.queue with
    | nil => rfl
    | cons a l => rw [hq] at h2; simp [queueUnits] at h2
  · cases hq : s.cur with
    | none => rfl
    | some a => rw [hq] at h1; simp [curUnits] at h1
  · cases hq : s.built with
    | none => rfl
    | some a => rw [hq] at h3; simp at h3
  · cases hq : s.driveObj with
    | none => rfl
    | some a => rw [hq] at h4; simp at h4
  · apply Classical.byContradiction
    intro hb
    rw [if_neg hb] at h
    omega

theorem build_work (g : IfGeo) (hS : 0 < g.segCount) (hL : 0 < g.lanes) (s s' : IfSys)
    (hc : CurOk g s.cur) (hq : ∀ f ∈ s.queue, Sendable g f) (h : ifBuild g s = some s') :
    s'.driveObj = s.driveObj ∧ s'.bus = s.bus ∧ s'.ready = s.ready ∧
    (s' = s ∧ (s.built ≠ none ∨ (s.cur = none ∧ s.queue = [])) ∨ ifWork s' < ifWork s) := by
  unfold ifBuild at h
  have main : s.built = none → (s.cur ≠ none ∨ s.queue ≠ []) → (do
        let (t, cur, queue) ← txLoop g g.segCount 0 s.cur s.queue {}
        some { s with cur := cur, queue := queue, built := some t }) = some s' →
      s'.driveObj = s.driveObj ∧ s'.bus = s.bus ∧ s'.ready = s.ready ∧ ifWork s' < ifWork s := by
    intro hb hne he
    simp only [Option.bind_eq_bind, Option.bind_eq_some_iff, Option.some.injEq] at he
    obtain ⟨⟨t, cur, queue⟩, e1, rfl⟩ := he
    have := (txLoop_units g hL _ _ _ _ _ _ _ _ hc hq e1).2 hS hne
    refine ⟨rfl, rfl, rfl, ?_⟩
    simp only [ifWork, hb, Option.toList, List.length_cons, List.length_nil]
    omega
  cases hb : s.built with
  | some t =>
    rw [hb] at h
    simp only [Option.some.injEq] at h
    subst h
    exact ⟨rfl, rfl, rfl, Or.inl ⟨rfl, Or.inl (by simp)⟩⟩
  | none =>
    rw [hb] at h
    cases hcur : s.cur with
    | some c =>
      rw [hcur] at h main
      obtain ⟨a, b, c, d⟩ := main hb (by simp) h
      exact ⟨a, b, c, Or.inr d⟩
    | none =>
      cases hqq : s.queue with
      | nil =>
        rw [hcur, hqq] at h
        simp only [Option.some.injEq] at h
        subst h
        exact ⟨rfl, rfl, rfl, Or.inl ⟨rfl, Or.inr ⟨rfl, rfl⟩⟩⟩
      | cons f q =>
        rw [hcur, hqq] at h main
        obtain ⟨a, b, c, d⟩ := main hb (by simp) h
        exact ⟨a, b, c, Or.inr d⟩

theorem load_work (s : IfSys) :
    (ifLoad s).ready = s.ready ∧ (ifLoad s).bus = s.bus ∧
    (ifLoad s = s ∧ (s.driveObj ≠ none ∨ s.built = none) ∨ ifWork (ifLoad s) < ifWork s) := by
  unfold ifLoad
  cases hd : s.driveObj with
  | some t => exact ⟨rfl, rfl, Or.inl ⟨rfl, Or.inl (by simp)⟩⟩
  | none =>
    cases hb : s.built with
    | none => exact ⟨rfl, rfl, Or.inl ⟨rfl, Or.inr rfl⟩⟩
    | some t =>
      refine ⟨rfl, rfl, Or.inr ?_⟩
      simp only [ifWork, hd, hb, Option.toList, List.length_cons, List.length_nil]
      omega

theorem edge_work (g : IfGeo) (sp : Bool) (r : Bool) (s s' : IfSys) (h : ifEdge g sp false r s = some s') :
    ifWork s' ≤ ifWork s ∧ s'.ready = r ∧
    (s.ready = true → (s.driveObj ≠ none ∨ s.bus.valid ≠ 0) → ifWork s' < ifWork s) := by
  unfold ifEdge at h
  simp only [Option.bind_eq_bind, Option.bind_eq_some_iff, Option.some.injEq] at h
  obtain ⟨⟨rx, out⟩, -, rfl⟩ := h
  have e : ∀ (x : IfSys) (rx : RxState) (o : List TxFrame) (r : Bool),
      ifWork { x with rx := rx, received := o, ready := r } = ifWork x := fun _ _ _ _ => rfl
  rw [e]
  have hmain : ifWork (ifSourceEdge false s) ≤ ifWork s ∧
      (s.ready = true → (s.driveObj ≠ none ∨ s.bus.valid ≠ 0) →
        ifWork (ifSourceEdge false s) < ifWork s) := by
    unfold ifSourceEdge
    by_cases hc : (s.ready || s.bus.valid == 0) = true
    · rw [if_pos hc]
      cases hd : s.driveObj with
      | some t =>
        simp only [ifWork, hd, Option.toList, List.length_cons, List.length_nil]
        refine ⟨?_, fun _ _ => ?_⟩ <;> (split <;> split <;> omega)
      | none =>
        simp only [ifWork, hd, Option.toList, List.length_nil]
        refine ⟨?_, fun hr hne => ?_⟩
        · simp only [if_true]; omega
        · have hv : s.bus.valid ≠ 0 := by simpa using hne
          rw [if_neg hv]; simp
    · rw [if_neg hc]
      refine ⟨Nat.le_refl _, fun hr => ?_⟩
      rw [hr] at hc; simp at hc
  exact ⟨hmain.1, rfl, hmain.2⟩

theorem ifRun_append (g : IfGeo) (sp : Bool) (es fs : List IfEvent) (s : IfSys) :
    ifRun g sp s (es ++ fs) = (ifRun g sp s es).bind fun s => ifRun g sp s fs := by
  induction es generalizing s with
  | nil => rfl
  | cons e es ih =>
    simp only [List.cons_append, ifRun]
    cases ifStep g sp s e with
    | none => rfl
    | some s1 => exact ih s1

theorem round_work (g : IfGeo) (sp : Bool) (hS : 0 < g.segCount) (hL : 0 < g.lanes) (S : List TxFrame)
    (s : IfSys) (h : IfInv g sp S s) (hr : s.ready = true) :
    ∃ s', ifRun g sp s ifRound = some s' ∧ IfInv g sp S s' ∧ s'.ready = true ∧
      (ifWork s = 0 ∧ ifWork s' = 0 ∨ ifWork s' < ifWork s) := by
  obtain ⟨s1, e1, i1⟩ := ifInv_build g sp S s hS hL h
  have i2 := ifInv_load g sp S s1 i1
  obtain ⟨s3, e3, i3⟩ := ifInv_edge g sp S (ifLoad s1) false true i2
  obtain ⟨b1, b2, b3, b4⟩ := build_work g hS hL s s1 h.cur h.queue e1
  obtain ⟨l1, l2, l3⟩ := load_work s1
  obtain ⟨w1, w2, w3⟩ := edge_work g sp true _ _ e3
  refine ⟨s3, ?_, i3, w2, ?_⟩
  · simp only [ifRun, ifRound, ifStep, e1, Option.bind_eq_bind, Option.bind_some, e3]
  · have l4 : ifWork (ifLoad s1) ≤ ifWork s1 := by
      rcases l3 with ⟨l3, -⟩ | l3
      · rw [l3]; exact Nat.le_refl _
      · omega
    rcases b4 with ⟨rfl, b4⟩ | b4
    · rcases l3 with ⟨l3, l5⟩ | l3
      · rw [l3] at w1 w3
        by_cases hd : s1.driveObj ≠ none ∨ s1.bus.valid ≠ 0
        · exact Or.inr (w3 hr hd)
        · have hd1 : s1.driveObj = none := by
            cases hx : s1.driveObj with
            | none => rfl
            | some t => exact absurd (Or.inl (by rw [hx]; simp)) hd
          have hv : s1.bus.valid = 0 := by
            apply Classical.byContradiction; intro hx; exact hd (Or.inr hx)
          have hbn : s1.built = none := by
            rcases l5 with l5 | l5
            · exact absurd hd1 l5
            · exact l5
          have hsrc : s1.cur = none ∧ s1.queue = [] := by
            rcases b4 with b4 | b4
            · exact absurd hbn b4
            · exact b4
          left
          have hz : ifWork s1 = 0 := by
            simp [ifWork, hsrc.1, hsrc.2, hbn, hd1, hv, curUnits, queueUnits]
          omega
      · exact Or.inr (by omega)
    · exact Or.inr (by omega)

theorem rounds_idle (g : IfGeo) (sp : Bool) (hS : 0 < g.segCount) (hL : 0 < g.lanes) (S : List TxFrame)
    (n : Nat) (s : IfSys) (h : IfInv g sp S s) (hr : s.ready = true) (hn : ifWork s ≤ n) :
    ∃ s', ifRun g sp s (ifRounds n) = some s' ∧ IfInv g sp S s' ∧ IfIdle s' := by
  induction n generalizing s with
  | zero => exact ⟨s, rfl, h, work_zero s (by omega)⟩
  | succ n ih =>
    obtain ⟨s1, e1, i1, r1, w1⟩ := round_work g sp hS hL S s h hr
    obtain ⟨s', e2, i2, x2⟩ := ih s1 i1 r1 (by omega)
    refine ⟨s', ?_, i2, x2⟩
    show ifRun g sp s (ifRound ++ ifRounds n) = _
    rw [ifRun_append, e1]
    exact e2

theorem progress (g : IfGeo) (sp : Bool) (hS : 0 < g.segCount) (hL : 0 < g.lanes) (S : List TxFrame)
    (s : IfSys) (h : IfInv g sp S s) : ∃ n, ∀ m, n ≤ m → ∃ s',
      ifRun g sp s (.edge false true :: ifRounds m) = some s' ∧ IfIdle s' ∧
      s'.received = S.map delivered := by
  obtain ⟨s1, e1, i1⟩ := ifInv_edge g sp S s false true h
  refine ⟨ifWork s1, fun m hm => ?_⟩
  obtain ⟨s', e2, i2, x2⟩ := rounds_idle g sp hS hL S m s1 i1 (edge_work g sp true _ _ e1).2.1 hm
  refine ⟨s', ?_, x2, ifInv_idle g sp S s' i2 x2⟩
  simp only [ifRun, ifStep, e1, Option.bind_eq_bind, Option.bind_some, e2]

end Verif.Proofs
