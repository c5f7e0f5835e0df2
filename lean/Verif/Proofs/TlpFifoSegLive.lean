import Verif.Proofs.TlpFifoSegRun
/-! Proofs about the TLP FIFO with several segments per word: occupancy and progress. -/
namespace Verif.Proofs
open Verif.Model Verif.Spec

variable {c : TfmCfg} {s : Tfm} {A tk : List TlpSeg} {cR cH dR dH : Nat}

/-! ### Occupancy -/

theorem tfm_lane_two (h : TfmInv c s A tk cR cH dR dH) : dR ≤ dH + 2 * c.segs := by
  have hpos := tfm_segs_pos c
  apply Classical.byContradiction
  intro hgt
  have hl := Nat.mod_lt dH hpos
  have hx := tfmNx_unique hl (N := dH) (k := dH) (by omega) (by omega) rfl
  have hlen := congrArg List.length (h.data _ hl)
  rw [List.length_map, tfmIdx_cons hl (by omega), hx] at hlen
  have hx2 := tfmNx_unique hl (N := dH + 1) (k := dH + c.segs) (by omega) (by omega) (by simp)
  rw [tfmIdx_cons hl (by omega), hx2] at hlen
  have hx3 := tfmNx_unique hl (N := dH + c.segs + 1) (k := dH + c.segs + c.segs) (by omega) (by omega) (by simp)
  rw [tfmIdx_cons hl (by omega)] at hlen
  have hle : (tfmDList (s.data (dH % c.segs))).length ≤ 2 := by
    unfold tfmDList
    split <;> split <;> simp
  simp only [List.length_cons] at hlen
  omega

theorem tfmSegs_length (c : TfmCfg) (v : Nat → Bool) (g : Nat → TlpSeg) : (tfmSegs c v g).length ≤ c.segs := by
  unfold tfmSegs
  rw [List.length_map]
  have := List.length_filter_le v (List.range c.segs)
  simpa using this

theorem tfm_flat_length (c : TfmCfg) (q : List TfmWord) :
    (q.flatMap fun w => tfmSegs c w.valid w.seg).length ≤ q.length * c.segs := by
  induction q with
  | nil => simp
  | cons w q ih =>
    rw [List.flatMap_cons, List.length_append, List.length_cons, Nat.add_mul, Nat.one_mul]
    have := tfmSegs_length c w.valid w.seg
    omega

theorem tfm_outQ_length (h : TfmInv c s A tk cR cH dR dH) : (outQ 5 s.out).length ≤ 19 := by
  unfold outQ
  rw [List.length_append, ringList_length]
  have := h.cnt
  split <;> simp <;> omega

theorem tfm_taken_le (h : TfmInv c s A tk cR cH dR dH) : tk.length ≤ dH ∧ dH ≤ tk.length + 19 * c.segs := by
  have ho := congrArg List.length h.out
  have hd := h.dle
  have hle := h.hle
  have hW := h.dW
  have hw := tlpWhole_length A
  rw [List.length_append, List.length_take] at ho
  have h1 := tfm_flat_length c (outQ 5 s.out)
  have h2 := Nat.mul_le_mul_right c.segs (tfm_outQ_length h)
  unfold tfmOutSegs at ho
  omega

theorem tfm_count_eq (hc : TfmOk c) (h : TfmInv c s A tk cR cH dR dH) :
    tfmCount c s.wrCur s.rd = A.length - dR ∧ tfmCount c s.wrCur s.rdC = A.length - cR := by
  have hW := h.dW
  have hC := h.cW
  have hw := tlpWhole_length A
  obtain ⟨h1, h2, -⟩ := h.fits hc
  have hp := tfm_ptr_pos c
  constructor
  · rw [h.wrCur, h.rd, tfmCount, tfm_diff hp (by omega) (by omega)]
  · rw [h.wrCur, h.rdC, tfmCount, tfm_diff hp (by omega) (by omega)]

/-! ### One lane of the control path -/

/-- The number of cycles until the lane shows a segment. -/
def tfmRank (d : TfmCtrl) : Nat :=
  if d.oV then 0 else if d.tV then 1 else if d.pV && d.rdy then 1 else if d.pV then 2 else if d.mV then 2 else 3

theorem tfm_rank_next (c : TfmCfg) (s : Tfm) (l : Nat) (ht : (s.ctrl l).rdy = true → (s.ctrl l).tV = false)
    (hp : tfmHit c s.offC (tfmPopC c s) l = false)
    (hr : tfmRank (s.ctrl l) = 3 → tfmHit c (s.rdC % c.segs) (tfmReadC c s) l = true) :
    tfmRank (tfmCtrlNext c s false l) ≤ tfmRank (s.ctrl l) - 1 := by
  unfold tfmRank tfmCtrlNext at *
  simp only []
  unfold tfmMemC tfmKeepC at *
  rw [hp]
  generalize tfmHit c (s.rdC % c.segs) (tfmReadC c s) l = b at *
  generalize s.ctrl l = d at *
  cases d with
  | mk mV m pV p tV t oV o rdy =>
    cases b <;> cases mV <;> cases pV <;> cases tV <;> cases oV <;> cases rdy <;> simp at ht hr ⊢

theorem tfm_rank_le (d : TfmCtrl) : tfmRank d ≤ 3 := by
  unfold tfmRank; split <;> (try split) <;> (try split) <;> (try split) <;> (try split) <;> omega

theorem tfm_rank_empty {d : TfmCtrl} (h : tfmRank d = 3) : tfmCList d = [] ∧ d.mV = false := by
  unfold tfmRank at h
  unfold tfmCList
  cases d with
  | mk mV m pV p tV t oV o rdy =>
    cases mV <;> cases pV <;> cases tV <;> cases oV <;> cases rdy <;> simp at h ⊢

/-- The lane of the next segment to leave the control path gets nearer to showing it. -/
theorem tfm_rank_step (h : TfmInv c s A tk cR cH dR dH) (i : TfmIn) (hr : i.rst = false) (h0 : tfmSel c s = 0)
    (hlt : cH < (tlpWhole A).length) :
    tfmRank ((tfmStep c s i).ctrl (cH % c.segs)) ≤ tfmRank (s.ctrl (cH % c.segs)) - 1 := by
  have hpos := tfm_segs_pos c
  have hl := Nat.mod_lt cH hpos
  have e : (tfmStep c s i).ctrl (cH % c.segs) = tfmCtrlNext c s false (cH % c.segs) := by simp [tfmStep, hr]
  rw [e]
  apply tfm_rank_next c s _ (h.rdy _ hl)
  · rw [tfm_hit_popC h, h0]
    have := tfmNx_ge c.segs (cH % c.segs) cH
    exact decide_eq_false (by omega)
  · intro h3
    obtain ⟨he, hm⟩ := tfm_rank_empty h3
    have hcl := h.ctrl _ hl
    rw [he] at hcl
    have hnil := List.map_eq_nil_iff.mp hcl.symm
    rw [tfmIdx_nil hl, tfmNx_unique hl (N := cH) (k := cH) (by omega) (by omega) rfl] at hnil
    have hcle := h.cle
    have hcR : cR = cH := by omega
    subst hcR
    rw [tfm_hit_rdC h, tfmNx_unique hl (N := cR) (k := cR) (by omega) (by omega) rfl]
    apply decide_eq_true
    have : 0 < tfmReadC c s := by
      apply Classical.byContradiction
      intro hz
      have hz : tfmReadC c s = 0 := by omega
      have hst := tfmLoop_stop c (fun g l => !tfmMemC s l && decide (g < s.countC)) c.segs 0 (s.rdC % c.segs)
        (Nat.mod_lt _ hpos) (by unfold tfmReadC at hz; omega)
      change (!tfmMemC s ((s.rdC % c.segs + tfmReadC c s) % c.segs) && decide (0 + tfmReadC c s < s.countC)) = false at hst
      rw [hz, Nat.add_zero, Nat.mod_mod, h.rdC, tfm_ptr_mod, h.countC] at hst
      have hmc : tfmMemC s (cR % c.segs) = false := by unfold tfmMemC; rw [hm]; rfl
      rw [hmc, decide_eq_true (by omega)] at hst
      exact absurd hst (by decide)
    omega

/-- Nothing leaves the control path in a cycle only if its next segment is not shown or the output FIFO is half full. -/
theorem tfm_sel_zero (h : TfmInv c s A tk cR cH dR dH) (h0 : tfmSel c s = 0) (hh : s.out.half = false) :
    tfmRank (s.ctrl (cH % c.segs)) ≠ 0 := by
  have hpos := tfm_segs_pos c
  intro hr
  have hv : (s.ctrl (cH % c.segs)).oV = true := by
    unfold tfmRank at hr
    cases ho : (s.ctrl (cH % c.segs)).oV with
    | true => rfl
    | false => rw [ho] at hr; revert hr; simp only [Bool.false_eq_true, if_false]; (repeat' split) <;> simp
  unfold tfmSel tfmGo at h0
  rw [hh] at h0
  simp only [Bool.not_false, if_true] at h0
  have hst := tfmLoop_stop c (fun _ l => (s.ctrl l).oV) c.segs 0 s.offC (by rw [h.offC]; exact Nat.mod_lt _ hpos) (by omega)
  rw [h0, h.offC, Nat.add_zero, Nat.mod_mod] at hst
  rw [hv] at hst
  exact absurd hst (by decide)

/-- The output FIFO empties while nothing is added and the receiver is ready. -/
theorem tfm_ring_dec (h : TfmInv c s A tk cR cH dR dH) (i : TfmIn) (hr : i.rst = false) (hrdy : i.ready = true) (he : dH = cH) :
    ringCount 5 (tfmStep c s i).out.ring = ringCount 5 s.out.ring - 1 := by
  obtain ⟨r, -, hring, hrok, hrcnt, -⟩ := outFifo_ring_lt 5 s.out (tfmAny c s.int.valid) (tfmWord s) i.ready h.ring (by have := h.cnt; omega)
  have eout : (tfmStep c s i).out = outFifoStep 5 false s.out (tfmAny c s.int.valid) (tfmWord s) i.ready := by
    simp only [tfmStep, hr]
  have hvin : tfmAny c s.int.valid = false := by
    unfold tfmAny
    rw [List.any_eq_false]
    intro j hj
    rw [h.iV j (by simpa using hj)]
    simp; omega
  rw [eout, hring]
  rw [hvin, hrdy, ring_empty 5 _ h.ring] at hrcnt
  simp only [Bool.or_true, Bool.and_true, Bool.toNat_false, Nat.add_zero] at hrcnt
  by_cases hz : ringCount 5 s.out.ring = 0
  · simp [hz] at hrcnt; omega
  · simp [hz] at hrcnt; omega

/-- The segments that leave the control path in a history. -/
def tfmSels (c : TfmCfg) : Tfm → List TfmIn → Nat
  | _, [] => 0
  | s, i :: is => tfmSel c s + tfmSels c (tfmStep c s i) is

theorem tfm_run_sels (hc : TfmOk c) (is : List TfmIn) {s : Tfm} {A tk : List TlpSeg} {cR cH dR dH : Nat}
    (h : TfmInv c s A tk cR cH dR dH) (hi : ∀ i ∈ is, i.rst = false) :
    ∃ cR' dR' dH', TfmInv c (tfmRun c s is) (A ++ tfmAccepted c s is) (tk ++ tfmTaken c s is) cR' (cH + tfmSels c s is) dR' dH' := by
  induction is generalizing s A tk cR cH dR dH with
  | nil => exact ⟨cR, dR, dH, by simpa [tfmRun, tfmAccepted, tfmTaken, tfmSels] using h⟩
  | cons i is ih =>
    have h1 := tfm_step hc h i (hi i (by simp))
    obtain ⟨a, d, e, h2⟩ := ih h1 (fun j hj => hi j (by simp [hj]))
    refine ⟨a, d, e, ?_⟩
    rw [tfmRun, tfmAccepted, tfmTaken, tfmSels, ← List.append_assoc, ← List.append_assoc, ← Nat.add_assoc]
    exact h2

/-- In six cycles with the receiver ready, a segment leaves the control path, if a complete TLP is inside. -/
theorem tfm_six (hc : TfmOk c) (h : TfmInv c s A tk cR cH dR dH) (hlt : cH < (tlpWhole A).length) (i0 i1 i2 i3 i4 i5 : TfmIn)
    (hi : ∀ i ∈ [i0, i1, i2, i3, i4, i5], i.rst = false ∧ i.ready = true) :
    0 < tfmSels c s [i0, i1, i2, i3, i4, i5] := by
  apply Classical.byContradiction
  intro hz
  simp only [tfmSels] at hz
  have z0 : tfmSel c s = 0 := by omega
  have h1 := tfm_step hc h i0 (hi i0 (by simp)).1
  have r1 := tfm_rank_step h i0 (hi i0 (by simp)).1 z0 hlt
  have m1 := Nat.le_trans hlt (tlpWhole_mono A (tfmNew c s i0))
  rw [z0, Nat.add_zero] at h1
  generalize A ++ tfmNew c s i0 = A1 at *
  generalize (tk ++ _) = tk1 at h1
  generalize cR + tfmReadC c s = cR1 at h1
  generalize dR + tfmRead c s = dR1 at h1
  have hq1 := h1.cnt
  have hrk := tfm_rank_le (s.ctrl (cH % c.segs))
  clear h hlt
  generalize hs1 : tfmStep c s i0 = s1 at *
  have z1 : tfmSel c s1 = 0 := by omega
  have h2 := tfm_step hc h1 i1 (hi i1 (by simp)).1
  have r2 := tfm_rank_step h1 i1 (hi i1 (by simp)).1 z1 m1
  have q2 := tfm_ring_dec h1 i1 (hi i1 (by simp)).1 (hi i1 (by simp)).2 rfl
  have m2 := Nat.le_trans m1 (tlpWhole_mono A1 (tfmNew c s1 i1))
  rw [z1, Nat.add_zero] at h2
  generalize A1 ++ tfmNew c s1 i1 = A2 at *
  generalize (tk1 ++ _) = tk2 at h2
  generalize cR1 + tfmReadC c s1 = cR2 at h2
  generalize dR1 + tfmRead c s1 = dR2 at h2
  clear h1
  generalize hs2 : tfmStep c s1 i1 = s2 at *
  have z2 : tfmSel c s2 = 0 := by omega
  have h3 := tfm_step hc h2 i2 (hi i2 (by simp)).1
  have r3 := tfm_rank_step h2 i2 (hi i2 (by simp)).1 z2 m2
  have q3 := tfm_ring_dec h2 i2 (hi i2 (by simp)).1 (hi i2 (by simp)).2 rfl
  have m3 := Nat.le_trans m2 (tlpWhole_mono A2 (tfmNew c s2 i2))
  rw [z2, Nat.add_zero] at h3
  generalize A2 ++ tfmNew c s2 i2 = A3 at *
  generalize (tk2 ++ _) = tk3 at h3
  generalize cR2 + tfmReadC c s2 = cR3 at h3
  generalize dR2 + tfmRead c s2 = dR3 at h3
  clear h2
  generalize hs3 : tfmStep c s2 i2 = s3 at *
  have z3 : tfmSel c s3 = 0 := by omega
  have h4 := tfm_step hc h3 i3 (hi i3 (by simp)).1
  have r4 := tfm_rank_step h3 i3 (hi i3 (by simp)).1 z3 m3
  have q4 := tfm_ring_dec h3 i3 (hi i3 (by simp)).1 (hi i3 (by simp)).2 rfl
  have m4 := Nat.le_trans m3 (tlpWhole_mono A3 (tfmNew c s3 i3))
  rw [z3, Nat.add_zero] at h4
  generalize A3 ++ tfmNew c s3 i3 = A4 at *
  generalize (tk3 ++ _) = tk4 at h4
  generalize cR3 + tfmReadC c s3 = cR4 at h4
  generalize dR3 + tfmRead c s3 = dR4 at h4
  clear h3
  generalize hs4 : tfmStep c s3 i3 = s4 at *
  have z4 : tfmSel c s4 = 0 := by omega
  have h5 := tfm_step hc h4 i4 (hi i4 (by simp)).1
  have r5 := tfm_rank_step h4 i4 (hi i4 (by simp)).1 z4 m4
  have hhalf : (tfmStep c s4 i4).out.half = decide (ringCount 5 s4.out.ring ≥ 16) := rfl
  rw [z4, Nat.add_zero] at h5
  generalize hs5 : tfmStep c s4 i4 = s5 at *
  have z5 : tfmSel c s5 = 0 := by omega
  apply tfm_sel_zero h5 z5
  · rw [hhalf]; exact decide_eq_false (by omega)
  · omega

theorem tfmSels_append (c : TfmCfg) (is js : List TfmIn) (s : Tfm) :
    tfmSels c s (is ++ js) = tfmSels c s is + tfmSels c (tfmRun c s is) js := by
  induction is generalizing s with
  | nil => simp [tfmSels, tfmRun]
  | cons i is ih => rw [List.cons_append, tfmSels, ih, tfmSels, tfmRun, Nat.add_assoc]

theorem tfmRun_append (c : TfmCfg) (is js : List TfmIn) (s : Tfm) : tfmRun c s (is ++ js) = tfmRun c (tfmRun c s is) js := by
  induction is generalizing s with
  | nil => rfl
  | cons i is ih => rw [List.cons_append, tfmRun, ih, tfmRun]

theorem tfmTaken_append (c : TfmCfg) (is js : List TfmIn) (s : Tfm) :
    tfmTaken c s (is ++ js) = tfmTaken c s is ++ tfmTaken c (tfmRun c s is) js := by
  induction is generalizing s with
  | nil => rfl
  | cons i is ih => rw [List.cons_append, tfmTaken, ih, tfmTaken, tfmRun, List.append_assoc]

theorem tfmAccepted_append (c : TfmCfg) (is js : List TfmIn) (s : Tfm) :
    tfmAccepted c s (is ++ js) = tfmAccepted c s is ++ tfmAccepted c (tfmRun c s is) js := by
  induction is generalizing s with
  | nil => rfl
  | cons i is ih => rw [List.cons_append, tfmAccepted, ih, tfmAccepted, tfmRun, List.append_assoc]

/-- Everything complete leaves the control path, in six cycles per segment at the most. -/
theorem tfm_flush (hc : TfmOk c) (n P : Nat) {s : Tfm} {A tk : List TlpSeg} {cR cH dR dH : Nat}
    (h : TfmInv c s A tk cR cH dR dH) (is : List TfmIn) (hP : P ≤ (tlpWhole A).length) (hn : P ≤ cH + n) (hl : 6 * n ≤ is.length)
    (hi : ∀ i ∈ is, i.rst = false ∧ i.ready = true) : P ≤ cH + tfmSels c s is := by
  induction n generalizing s A tk cR cH dR dH is with
  | zero => omega
  | succ n ih =>
    by_cases hlt : cH < (tlpWhole A).length
    · match is, hl with
      | i0 :: i1 :: i2 :: i3 :: i4 :: i5 :: is', hl =>
        have h6 := tfm_six hc h hlt i0 i1 i2 i3 i4 i5 (fun i hi' => hi i (by simp at hi' ⊢; grind))
        obtain ⟨a, d, e, h'⟩ := tfm_run_sels hc [i0, i1, i2, i3, i4, i5] h (fun i hi' => (hi i (by simp at hi' ⊢; grind)).1)
        have hm := tlpWhole_mono A (tfmAccepted c s [i0, i1, i2, i3, i4, i5])
        have e6 : i0 :: i1 :: i2 :: i3 :: i4 :: i5 :: is' = [i0, i1, i2, i3, i4, i5] ++ is' := rfl
        rw [e6, tfmSels_append]
        simp only [List.length_cons] at hl
        have := ih h' is' (by omega) (by omega) (by omega) (fun i hi' => hi i (by simp [hi']))
        omega
    · omega

/-! ### The output FIFO -/

theorem tfm_out_drain (hc : TfmOk c) (is : List TfmIn) (m : Nat) (X : List TlpSeg) {s : Tfm} {A tk : List TlpSeg} {cR cH dR dH : Nat}
    (h : TfmInv c s A tk cR cH dR dH) (hi : ∀ i ∈ is, i.rst = false ∧ i.ready = true)
    (hX : X <+: tk ++ ((outQ 5 s.out).take m).flatMap (fun w => tfmSegs c w.valid w.seg))
    (hm : m ≤ (outQ 5 s.out).length) (hv : s.out.valid = true ∨ m = 0) (hl : m ≤ is.length) : X <+: tk ++ tfmTaken c s is := by
  induction is generalizing s A tk cR cH dR dH m with
  | nil =>
    simp only [List.length_nil] at hl
    have : m = 0 := by omega
    subst this
    simpa [tfmTaken] using hX
  | cons i is ih =>
    have hi0 := hi i (by simp)
    have h1 := tfm_step hc h i hi0.1
    rw [tfmTaken, ← List.append_assoc]
    rcases hv with hv | hv
    · by_cases hm0 : m = 0
      · subst hm0
        rw [List.take_zero, List.flatMap_nil, List.append_nil] at hX
        refine hX.trans ?_
        rw [List.append_assoc]
        exact List.prefix_append _ _
      · have hq := outFifo_queue 5 s.out (tfmAny c s.int.valid) (tfmWord s) i.ready h.ring (by have := h.cnt; omega)
        have eout : (tfmStep c s i).out = outFifoStep 5 false s.out (tfmAny c s.int.valid) (tfmWord s) i.ready := by
          simp only [tfmStep, hi0.1]
        rw [← eout, hv, hi0.2] at hq
        simp only [Bool.and_self, if_true, List.singleton_append] at hq
        have hoq : outQ 5 s.out = s.out.out :: ringList 5 s.out.ring := by unfold outQ; rw [hv]; rfl
        rw [hoq, List.cons_append] at hq
        have hq' := (List.cons.inj hq).2
        rw [hoq, List.length_cons] at hm
        apply ih (m - 1) h1 (fun j hj => hi j (by simp [hj]))
        · have hsh : (if i.ready then tfmShown c s else []) = tfmSegs c s.out.out.valid s.out.out.seg := by
            unfold tfmShown; rw [hi0.2, hv]; rfl
          rw [hsh, hq', List.take_append_of_le_length (by omega), List.append_assoc]
          rw [hoq, show m = (m - 1) + 1 by omega, List.take_succ_cons, List.flatMap_cons] at hX
          exact hX
        · rw [hq', List.length_append]; omega
        · by_cases hm1 : m - 1 = 0
          · exact Or.inr hm1
          · left
            rw [eout]
            unfold outFifoStep
            simp only [Bool.false_eq_true, if_false]
            rw [ring_empty 5 _ h.ring, hi0.2]
            rw [ringList_length] at hm
            rw [decide_eq_false (by omega)]
            simp
        · simp only [List.length_cons] at hl; omega
    · subst hv
      rw [List.take_zero, List.flatMap_nil, List.append_nil] at hX
      refine hX.trans ?_
      rw [List.append_assoc]
      exact List.prefix_append _ _

/-- What has left the data path is taken within twenty cycles. -/
theorem tfm_out_twenty (hc : TfmOk c) (h : TfmInv c s A tk cR cH dR dH) (is : List TfmIn) (hl : 20 ≤ is.length)
    (hi : ∀ i ∈ is, i.rst = false ∧ i.ready = true) : A.take dH <+: tk ++ tfmTaken c s is := by
  cases hv : s.out.valid with
  | true =>
    apply tfm_out_drain hc is (outQ 5 s.out).length _ h hi _ (Nat.le_refl _) (Or.inl hv)
    · have := tfm_outQ_length h; omega
    · rw [List.take_length]; have := h.out; unfold tfmOutSegs at this; rw [this]
      exact List.prefix_refl _
  | false =>
    cases is with
    | nil => simp at hl
    | cons i is =>
      have hi0 := hi i (by simp)
      have h1 := tfm_step hc h i hi0.1
      have hq := outFifo_queue 5 s.out (tfmAny c s.int.valid) (tfmWord s) i.ready h.ring (by have := h.cnt; omega)
      have eout : (tfmStep c s i).out = outFifoStep 5 false s.out (tfmAny c s.int.valid) (tfmWord s) i.ready := by
        simp only [tfmStep, hi0.1]
      rw [← eout, hv] at hq
      simp only [Bool.false_and, Bool.false_eq_true, if_false, List.nil_append] at hq
      rw [tfmTaken, ← List.append_assoc]
      apply tfm_out_drain hc is (outQ 5 s.out).length _ h1 (fun j hj => hi j (by simp [hj]))
      · have hsh : (if i.ready then tfmShown c s else []) = [] := by unfold tfmShown; rw [hv]; simp
        rw [hsh, List.append_nil, hq, List.take_append_of_le_length (Nat.le_refl _), List.take_length]
        have := h.out; unfold tfmOutSegs at this; rw [this]
        exact List.prefix_refl _
      · rw [hq, List.length_append]; omega
      · by_cases hz : (outQ 5 s.out).length = 0
        · exact Or.inr hz
        · left
          rw [eout]
          unfold outFifoStep
          simp only [Bool.false_eq_true, if_false]
          rw [ring_empty 5 _ h.ring, hv]
          have hle : (outQ 5 s.out).length = ringCount 5 s.out.ring := by unfold outQ; rw [hv]; simp [ringList_length]
          rw [decide_eq_false (by omega)]
          simp
      · have := tfm_outQ_length h; simp only [List.length_cons] at hl; omega

/-! ### Readiness -/

theorem tfmAccepted_none (c : TfmCfg) (is : List TfmIn) (s : Tfm) (h : ¬ tfmEverReady c s is) : tfmAccepted c s is = [] := by
  induction is generalizing s with
  | nil => rfl
  | cons i is ih =>
    rw [tfmEverReady] at h
    have h := not_or.mp h
    rw [tfmAccepted, ih _ h.2, if_neg h.1]; rfl

theorem tfmEverReady_append (c : TfmCfg) (is js : List TfmIn) (s : Tfm) :
    tfmEverReady c s (is ++ js) ↔ tfmEverReady c s is ∨ tfmEverReady c (tfmRun c s is) js := by
  induction is generalizing s with
  | nil => simp [tfmEverReady, tfmRun]
  | cons i is ih => rw [List.cons_append, tfmEverReady, ih, tfmEverReady, tfmRun, or_assoc]

theorem tfm_stuck (hc : TfmOk c) (is : List TfmIn) {s : Tfm} {A tk : List TlpSeg} {cR cH dR dH : Nat}
    (h : TfmInv c s A tk cR cH dR dH) (hu : (tlpWhole A).length + (c.words * c.segs - c.segs * 2) ≤ A.length)
    (hf : tfmReady s = false) (hi : ∀ i ∈ is, i.rst = false) : ¬ tfmEverReady c s is := by
  induction is generalizing s tk cR cH dR dH with
  | nil => exact id
  | cons i is ih =>
    have hi0 := hi i (by simp)
    have h1 := tfm_step hc h i hi0
    have hn : tfmNew c s i = [] := by unfold tfmNew; rw [hf]; rfl
    rw [hn, List.append_nil] at h1
    have hf1 : tfmReady (tfmStep c s i) = false := by
      have e : (tfmStep c s i).full = decide (c.words * c.segs - c.segs * 2 ≤ tfmCount c s.wrCur s.rd) := by simp [tfmStep, hi0]
      have hd := h.dW
      unfold tfmReady
      rw [e, (tfm_count_eq hc h).1, decide_eq_true (by omega)]
      rfl
    rw [tfmEverReady]
    intro h'
    rcases h' with h' | h'
    · rw [hf] at h'; exact absurd h' (by decide)
    · exact ih h1 hf1 (fun j hj => hi j (by simp [hj])) h'

end Verif.Proofs
