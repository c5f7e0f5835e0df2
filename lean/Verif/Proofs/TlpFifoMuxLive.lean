import Verif.Proofs.TlpFifoMux
/-! Lemmas on the TLP multiplexer with FIFOs: progress. -/
namespace Verif.Proofs
open Verif Verif.Model Verif.Spec

theorem sumRange_le (n : Nat) (f g : Nat → Nat) (h : ∀ p < n, f p ≤ g p) :
    ((List.range n).map f).sum ≤ ((List.range n).map g).sum := by
  induction n with
  | zero => simp
  | succ n ih =>
    have h1 := ih fun p hp => h p (by omega)
    have h2 := h n (by omega)
    rw [List.range_succ, List.map_append, List.map_append, List.sum_append, List.sum_append]
    simp; omega

theorem sumRange_lt (n : Nat) (f g : Nat → Nat) (h : ∀ p < n, f p ≤ g p) (q : Nat) (hq : q < n) (hl : f q < g q) :
    ((List.range n).map f).sum + 1 ≤ ((List.range n).map g).sum := by
  induction n with
  | zero => omega
  | succ n ih =>
    rw [List.range_succ, List.map_append, List.map_append, List.sum_append, List.sum_append]
    have h2 := h n (by omega)
    by_cases e : q = n
    · subst e
      have h1 := sumRange_le q f g fun p hp => h p (by omega)
      simp; omega
    · have h1 := ih (fun p hp => h p (by omega)) (by omega)
      simp; omega

theorem sumRange_pos (n : Nat) (f : Nat → Nat) (h : 0 < ((List.range n).map f).sum) : ∃ p < n, 0 < f p := by
  induction n with
  | zero => simp at h
  | succ n ih =>
    rw [List.range_succ, List.map_append, List.sum_append] at h
    by_cases e : 0 < f n
    · exact ⟨n, by omega, e⟩
    · obtain ⟨p, hp, h2⟩ := ih (by simp at h; omega)
      exact ⟨p, by omega, h2⟩

theorem sumRange_zero (n : Nat) (f : Nat → Nat) (h : ((List.range n).map f).sum = 0) : ∀ p < n, f p = 0 := by
  intro p hp
  have := sumRange_lt n (fun _ => 0) f (fun _ _ => by omega) p hp
  by_cases e : 0 < f p
  · have := this e; omega
  · omega

theorem sumRange_bound (n k : Nat) (f : Nat → Nat) (h : ∀ p < n, f p ≤ k) : ((List.range n).map f).sum ≤ n * k := by
  have := sumRange_le n f (fun _ => k) h
  have e : ((List.range n).map fun _ => k).sum = n * k := by
    clear this h
    induction n with
    | zero => simp
    | succ n ih => rw [List.range_succ, List.map_append, List.sum_append, ih, Nat.succ_mul]; simp
  omega

theorem tlpWhole_last (l : List TlpSeg) (x : TlpSeg) (h : (tlpWhole l).getLast? = some x) : x.eop = true := by
  unfold tlpWhole at h
  rw [List.getLast?_reverse] at h
  have := List.head?_dropWhile_not (fun x : TlpSeg => !x.eop) l.reverse
  rw [h] at this
  simpa using this

/-- The work left on one port. -/
def txmDue (s : Txm) (t : List (Nat × TlpSeg)) (A : Nat → List TlpSeg) (p : Nat) : Nat :=
  3 * (tlpWhole (A p)).length - 3 * (ofPort p t).length - 2 * (s.fifo p).outVC.toNat - (s.fifo p).rdVC.toNat

/-- The work left in front of the output FIFO. -/
def txmLeft (c : TxmCfg) (s : Txm) (t : List (Nat × TlpSeg)) (A : Nat → List TlpSeg) : Nat :=
  ((List.range c.mux.ports).map (txmDue s t A)).sum

/-- The work left. -/
def txmWork (c : TxmCfg) (s : Txm) (t : List (Nat × TlpSeg)) (A : Nat → List TlpSeg) : Nat :=
  7 * txmLeft c s t A + 6 * s.sel.toNat + 4 * ringCount txmOutW s.out.ring + 2 * s.out.valid.toNat + s.out.half.toNat

theorem txm_due_arith (w k : Nat) (x o m : Bool) (hx : x = true → o = true) (h : k + o.toNat + m.toNat ≤ w) :
    let o' := if (!o || x) then m else o
    let m' := if (!m || (!o || x)) then decide (k + o.toNat + m.toNat < w) else m
    let a := 3 * w - 3 * (k + x.toNat) - 2 * o'.toNat - m'.toNat
    let b := 3 * w - 3 * k - 2 * o.toNat - m.toNat
    a ≤ b ∧ (x = true → a < b) ∧ (o = false → k < w → a < b) := by
  by_cases e : k + o.toNat + m.toNat < w
  · rw [decide_eq_true e]
    cases x <;> cases o <;> cases m <;> simp at * <;> omega
  · rw [decide_eq_false e]
    cases x <;> cases o <;> cases m <;> simp at * <;> omega

/-- What a quiet cycle does to one port. -/
theorem txm_due {c : TxmCfg} (hc : TffOk c.fifo) {s : Txm} {t : List (Nat × TlpSeg)} {A : Nat → List TlpSeg}
    {T : List TlpSeg} (h : TxmInv c s t A T) (i : TxmIn) (hq : TxmQuiet c i) (p : Nat) (hp : p < c.mux.ports) :
    let a := txmDue (txmStep c s i) (t ++ txmNew c s i) (fun p => A p ++ (if txmReady s p && i.valid p then [i.seg p] else [])) p
    a ≤ txmDue s t A p ∧ (txmCommit c s i = true → p = (txmArb c s i).1 → a < txmDue s t A p) ∧
    ((s.fifo p).outVC = false → (ofPort p t).length < (tlpWhole (A p)).length → a < txmDue s t A p) := by
  obtain ⟨tkD, RC, R, hf⟩ := h.fifo p hp
  have hr := hq.1
  have lC := tff_len hf.ctrl
  have nC := tff_nonempty hc hf.ctrl
  have hw : (A p ++ (if txmReady s p && i.valid p then [i.seg p] else [])) = A p := by
    rw [(hq.2.2 p hp).1]; simp
  generalize hx : (txmFifoIn c s i p).readyC = x
  have hx1 : x = (txmCommit c s i && decide (p = (txmArb c s i).1)) := hx.symm
  have hx' : x = true → (s.fifo p).outVC = true := by
    intro hh
    rw [hx1] at hh
    simp only [Bool.and_eq_true, decide_eq_true_eq] at hh
    have h2 := hh.1
    unfold txmCommit at h2
    rw [← hh.2] at h2
    simp only [Bool.and_eq_true] at h2
    exact h2.1.2
  have e2 : (ofPort p (t ++ txmNew c s i)).length = (ofPort p t).length + x.toNat := by
    rw [ofPort_append', List.length_append, hx1]
    unfold txmNew ofPort
    cases txmCommit c s i with
    | false => rfl
    | true =>
      by_cases hq : p = (txmArb c s i).1
      · rw [← hq]; simp
      · have : ((txmArb c s i).1 == p) = false := by simpa using fun e => hq e.symm
        simp [hq, this]
  have eO : ((txmStep c s i).fifo p).outVC = if (!(s.fifo p).outVC || x) then (s.fifo p).rdVC else (s.fifo p).outVC := by
    rw [← hx]
    show (!i.rst && _) = _
    rw [hr]; rfl
  have eM : ((txmStep c s i).fifo p).rdVC = if (!(s.fifo p).rdVC || (!(s.fifo p).outVC || x)) then
      decide (RC < (tlpWhole (A p)).length) else (s.fifo p).rdVC := by
    rw [← hx, ← nC]
    show (!i.rst && _) = _
    rw [hr]; rfl
  have vC : (tfxView (s.fifo p)).outV = (s.fifo p).outVC ∧ (tfxView (s.fifo p)).rdV = (s.fifo p).rdVC := ⟨rfl, rfl⟩
  rw [vC.1, vC.2] at lC
  have hA := txm_due_arith (tlpWhole (A p)).length (ofPort p t).length x (s.fifo p).outVC (s.fifo p).rdVC hx' (by omega)
  intro a
  have ea : a = 3 * (tlpWhole (A p)).length - 3 * ((ofPort p t).length + x.toNat) -
      2 * (if (!(s.fifo p).outVC || x) then (s.fifo p).rdVC else (s.fifo p).outVC).toNat -
      (if (!(s.fifo p).rdVC || (!(s.fifo p).outVC || x)) then decide (RC < (tlpWhole (A p)).length) else (s.fifo p).rdVC).toNat := by
    show txmDue _ _ _ p = _
    unfold txmDue
    simp only [hw, e2, eO, eM]
  rw [ea, ← lC.1]
  refine ⟨hA.1, fun h1 h2 => hA.2.1 ?_, hA.2.2⟩
  rw [hx1, h1, ← h2]; simp

theorem ofPort_last {α : Type} (t : List (Nat × α)) (x : Nat × α) (h : t.getLast? = some x) :
    (ofPort x.1 t).getLast? = some x.2 := by
  obtain ⟨l, rfl⟩ := List.getLast?_eq_some_iff.mp h
  rw [ofPort_append']
  simp [ofPort]

/-- In a quiet cycle in which the output FIFO has room, something happens in front of it. -/
theorem txm_left {c : TxmCfg} (h0 : 0 < c.mux.ports) (hc : TffOk c.fifo) {s : Txm} {t : List (Nat × TlpSeg)}
    {A : Nat → List TlpSeg} {T : List TlpSeg} (h : TxmInv c s t A T) (i : TxmIn) (hq : TxmQuiet c i) :
    let a := txmLeft c (txmStep c s i) (t ++ txmNew c s i) (fun p => A p ++ (if txmReady s p && i.valid p then [i.seg p] else []))
    a ≤ txmLeft c s t A ∧ (txmCommit c s i = true → a + 1 ≤ txmLeft c s t A) ∧
    (s.out.half = false → 0 < txmLeft c s t A → a + 1 ≤ txmLeft c s t A) := by
  have hd := txm_due hc h i hq
  have hle : ∀ p < c.mux.ports, _ := fun p hp => (hd p hp).1
  have hgo : txmCommit c s i = true → txmLeft c (txmStep c s i) (t ++ txmNew c s i)
      (fun p => A p ++ (if txmReady s p && i.valid p then [i.seg p] else [])) + 1 ≤ txmLeft c s t A := by
    intro hgo
    have ha := txmArb_lt c h0 s i h.port
    exact sumRange_lt _ _ _ hle _ ha ((hd _ ha).2.1 hgo rfl)
  refine ⟨sumRange_le _ _ _ hle, hgo, fun hh hpos => ?_⟩
  cases hcm : txmCommit c s i with
  | true => exact hgo hcm
  | false =>
    have hstall : ∃ p < c.mux.ports, (s.fifo p).outVC = false ∧ (ofPort p t).length < (tlpWhole (A p)).length := by
      unfold txmCommit at hcm
      rw [hh] at hcm
      cases hfr : s.frame with
      | true =>
        have ea : txmArb c s i = (s.port, true) := by unfold txmArb; rw [hfr]; rfl
        rw [ea] at hcm
        simp only [Bool.true_and, Bool.not_false, Bool.and_true] at hcm
        refine ⟨s.port, h.port, hcm, ?_⟩
        obtain ⟨tkD, RC, R, hf⟩ := h.fifo s.port h.port
        have lC := tff_len hf.ctrl
        have hend := h.frame
        rw [hfr] at hend
        cases hl : t.getLast? with
        | none => rw [tmxEnd, hl] at hend; simp at hend
        | some x =>
          rw [tmxEnd, hl] at hend
          have hx := ofPort_last t x hl
          rw [h.last x hl] at hx
          refine Nat.lt_of_le_of_ne (by omega) fun heq => ?_
          have hpre : ofPort s.port t <+: A s.port := by
            have := hf.ctrl.front
            exact ⟨tffShown (tfxView (s.fifo s.port)) ++ tffMid (tfxView (s.fifo s.port)) ++ (A s.port).drop RC, by
              rw [← List.append_assoc, ← List.append_assoc, this, List.take_append_drop]⟩
          have he : ofPort s.port t = tlpWhole (A s.port) :=
            (List.prefix_of_prefix_length_le hpre (tlpWhole_prefix _) (by omega)).eq_of_length heq
          rw [he] at hx
          have := tlpWhole_last _ _ hx
          simp [this] at hend
      | false =>
        have ea : txmArb c s i = tmxScan c.mux (fun p => !i.pause p && (s.fifo p).outVC) c.mux.ports
            (tmxFirst c.mux s.port) s.port := by unfold txmArb; rw [hfr]; rfl
        have hfst := tmxFirst_lt c.mux h0 _ h.port
        obtain ⟨g1, g2⟩ := tmxScan_found c.mux h0 (fun p => !i.pause p && (s.fifo p).outVC) c.mux.ports _ _ hfst h.port
        rw [← ea] at g1 g2
        have hno : (txmArb c s i).2 = false := by
          cases e : (txmArb c s i).2 with
          | false => rfl
          | true =>
            have := g2 e
            simp only [Bool.and_eq_true] at this
            rw [e, this.2] at hcm
            simp at hcm
        rw [ea] at hno
        obtain ⟨p, hp, hpos'⟩ := sumRange_pos _ _ hpos
        have hv := tmxScan_idle c.mux _ _ _ hfst hno p hp
        simp only [(hq.2.2 p hp).2, Bool.not_false, Bool.true_and] at hv
        refine ⟨p, hp, hv, ?_⟩
        unfold txmDue at hpos'
        omega
    obtain ⟨p, hp, h1, h2⟩ := hstall
    exact sumRange_lt _ _ _ hle p hp ((hd p hp).2.2 h1 h2)

/-- In every quiet cycle there is less left to do. -/
theorem txm_work {c : TxmCfg} (h0 : 0 < c.mux.ports) (hc : TffOk c.fifo) {s : Txm} {t : List (Nat × TlpSeg)}
    {A : Nat → List TlpSeg} {T : List TlpSeg} (h : TxmInv c s t A T) (i : TxmIn) (hq : TxmQuiet c i) :
    txmWork c (txmStep c s i) (t ++ txmNew c s i) (fun p => A p ++ (if txmReady s p && i.valid p then [i.seg p] else [])) ≤
      txmWork c s t A - 1 := by
  have hL := txm_left h0 hc h i hq
  have hr := hq.1
  have hrdy := hq.2.1
  have eSel : (txmStep c s i).sel = txmCommit c s i := by show (!i.rst && _) = _; rw [hr]; rfl
  have eOut : (txmStep c s i).out = outFifoStep txmOutW false s.out s.sel (txmSeg s) true := by
    show outFifoStep txmOutW i.rst s.out (txmSegV s) (txmSeg s) i.ready = _
    rw [hr, txmSegV_eq h, hrdy]
  have hlt : ringCount txmOutW s.out.ring < 2 ^ txmOutW := by
    have := h.count; unfold txmOutW at this ⊢; omega
  obtain ⟨r, -, hrr, hok, hcnt, -⟩ := outFifo_ring_lt txmOutW s.out s.sel (txmSeg s) true h.ring hlt
  have hhalf : (txmStep c s i).out.half = decide (ringCount txmOutW s.out.ring ≥ 16) := rfl
  have hpop : (!ringEmpty s.out.ring && (!s.out.valid || true)) = decide (0 < ringCount txmOutW s.out.ring) := by
    rw [ring_empty txmOutW _ h.ring, Bool.or_true, Bool.and_true]
    by_cases e : ringCount txmOutW s.out.ring = 0 <;> simp [e]; omega
  have hval : (txmStep c s i).out.valid = decide (0 < ringCount txmOutW s.out.ring) := by
    rw [eOut, ← hpop]
    show (if false = true then false else if _ then true else s.out.valid && !true) = _
    cases (!ringEmpty s.out.ring && (!s.out.valid || true)) <;> simp
  have hgoHalf : txmCommit c s i = true → s.out.half = false := by
    intro hh; unfold txmCommit at hh; simp only [Bool.and_eq_true, Bool.not_eq_true'] at hh; exact hh.2
  rw [hpop] at hcnt
  unfold txmWork
  rw [eSel, hval, hhalf]
  rw [show ringCount txmOutW (txmStep c s i).out.ring = ringCount txmOutW r by rw [eOut, hrr]]
  generalize txmLeft c (txmStep c s i) _ _ = L' at *
  generalize txmLeft c s t A = L at *
  generalize ringCount txmOutW s.out.ring = n at *
  generalize ringCount txmOutW r = n' at *
  obtain ⟨l1, l2, l3⟩ := hL
  have hb : ∀ P : Prop, [Decidable P] → (decide P).toNat = if P then 1 else 0 := by
    intro P _; by_cases hP : P <;> simp [hP]
  rw [hb] at hcnt ⊢
  rw [hb]
  clear hval hhalf hpop hok hrr
  cases hh : s.out.half with
  | true =>
    have : txmCommit c s i = false := by
      cases e : txmCommit c s i with
      | false => rfl
      | true => rw [hgoHalf e] at hh; cases hh
    rw [this]
    simp only [Bool.toNat_true, Bool.toNat_false]
    split at hcnt <;> split <;> split <;> omega
  | false =>
    cases hgo : txmCommit c s i with
    | true =>
      have := l2 hgo
      simp only [Bool.toNat_true, Bool.toNat_false]
      split at hcnt <;> split <;> split <;> omega
    | false =>
      have := l3 hh
      simp only [Bool.toNat_true, Bool.toNat_false]
      split at hcnt <;> split <;> split <;> omega

theorem txm_work_run {c : TxmCfg} (h0 : 0 < c.mux.ports) (hc : TffOk c.fifo) (qs : List TxmIn) {s : Txm}
    {t : List (Nat × TlpSeg)} {A : Nat → List TlpSeg} {T : List TlpSeg} (h : TxmInv c s t A T) (hq : ∀ i ∈ qs, TxmQuiet c i) :
    txmWork c (txmRun c s qs) (t ++ txmSelected c s qs) (fun p => A p ++ txmAccepted c p s qs) ≤
      txmWork c s t A - qs.length := by
  induction qs generalizing s t A T with
  | nil => simp [txmRun, txmSelected, txmAccepted]
  | cons i is ih =>
    have h1 := ih (txmInv_step h0 hc h i (hq i (by simp)).1) (fun x hx => hq x (by simp [hx]))
    have h2 := txm_work h0 hc h i (hq i (by simp))
    simp only [List.append_assoc] at h1
    simp only [txmRun, txmSelected, txmAccepted, List.length_cons]
    omega

/-- The work left is bounded by the size of the FIFOs. -/
theorem txm_work_bound {c : TxmCfg} {s : Txm} {t : List (Nat × TlpSeg)}
    {A : Nat → List TlpSeg} {T : List TlpSeg} (h : TxmInv c s t A T) :
    txmWork c s t A ≤ 21 * c.mux.ports * (c.fifo.words + 1) + 78 := by
  have hl : txmLeft c s t A ≤ c.mux.ports * (3 * (c.fifo.words + 1)) := by
    refine sumRange_bound _ _ _ fun p hp => ?_
    obtain ⟨tkD, RC, R, hf⟩ := h.fifo p hp
    have lC := tff_len hf.ctrl
    have hro := hf.ctrl.room
    have hle := tlpWhole_length (A p)
    have vC : (tfxView (s.fifo p)).outV = (s.fifo p).outVC ∧ (tfxView (s.fifo p)).rdV = (s.fifo p).rdVC := ⟨rfl, rfl⟩
    rw [vC.1, vC.2] at lC
    have b1 := Bool.toNat_le (s.fifo p).outVC
    have b2 := Bool.toNat_le (s.fifo p).rdVC
    unfold txmDue
    omega
  have hcnt := h.count
  have b1 := Bool.toNat_le s.sel
  have b2 := Bool.toNat_le s.out.valid
  have b3 := Bool.toNat_le s.out.half
  have e : 21 * c.mux.ports * (c.fifo.words + 1) = 7 * (c.mux.ports * (3 * (c.fifo.words + 1))) := by
    rw [show 21 * c.mux.ports * (c.fifo.words + 1) = 21 * (c.mux.ports * (c.fifo.words + 1)) by rw [Nat.mul_assoc],
      Nat.mul_left_comm c.mux.ports 3]; omega
  unfold txmWork
  rw [e]
  omega

/-- When no work is left, everything complete has come out. -/
theorem txm_done {c : TxmCfg} {s : Txm} {t : List (Nat × TlpSeg)} {A : Nat → List TlpSeg} {T : List TlpSeg}
    (h : TxmInv c s t A T) (hw : txmWork c s t A = 0) :
    T = t.map (·.2) ∧ ∀ p < c.mux.ports, ofPort p t = tlpWhole (A p) := by
  unfold txmWork at hw
  have h1 : s.sel = false := by cases e : s.sel with | false => rfl | true => rw [e] at hw; simp at hw
  have h2 : s.out.valid = false := by cases e : s.out.valid with | false => rfl | true => rw [e] at hw; simp at hw
  have h3 : ringCount txmOutW s.out.ring = 0 := by omega
  have h4 : txmLeft c s t A = 0 := by omega
  constructor
  · have ho := h.out
    have : ringList txmOutW s.out.ring = [] := List.eq_nil_of_length_eq_zero (by rw [ringList_length, h3])
    rw [outQ, h1, h2, this] at ho
    simpa using ho.symm
  · intro p hp
    have := sumRange_zero _ _ h4 p hp
    obtain ⟨tkD, RC, R, hf⟩ := h.fifo p hp
    have lC := tff_len hf.ctrl
    have vC : (tfxView (s.fifo p)).outV = (s.fifo p).outVC ∧ (tfxView (s.fifo p)).rdV = (s.fifo p).rdVC := ⟨rfl, rfl⟩
    rw [vC.1, vC.2] at lC
    have b1 := Bool.toNat_le (s.fifo p).outVC
    have b2 := Bool.toNat_le (s.fifo p).rdVC
    unfold txmDue at this
    have hpre : ofPort p t <+: A p := by
      have := hf.ctrl.front
      exact ⟨tffShown (tfxView (s.fifo p)) ++ tffMid (tfxView (s.fifo p)) ++ (A p).drop RC, by
        rw [← List.append_assoc, ← List.append_assoc, this, List.take_append_drop]⟩
    exact (List.prefix_of_prefix_length_le hpre (tlpWhole_prefix _) (by omega)).eq_of_length (by omega)

end Verif.Proofs
