import Verif.Proofs.TlpFifo
import Verif.Model.TlpFifoMux
/-! The TLP FIFO with control output: the control path is a second reader of the same memory that the data path follows. -/
namespace Verif.Proofs
open Verif.Model Verif.Spec

/-- The FIFO as the control path sees it. -/
def tfxView (s : Tfx) : Tff :=
  { s.d with rd := s.rdC, rdAddr := s.rdAddrC, rdSeg := s.rdSegC, rdV := s.rdVC, out := s.outC, outV := s.outVC,
             full := s.fullC, half := false, water := false }

/-- The inputs as the control path sees them. -/
def tfxCtrl (s : Tfx) (i : TfxIn) : TffIn := { rst := i.rst, valid := i.valid && !s.d.full, seg := i.seg, ready := i.readyC }

/-- Everything but the two level flags. -/
def tffBare (s : Tff) : Tff := { s with half := false, water := false }

theorem tfx_view (c : TffCfg) (s : Tfx) (i : TfxIn) :
    tfxView (tfxStep c s i) = tffBare (tffStep c (tfxView s) (tfxCtrl s i)) := by
  have hacc : tffAcc s.d (tfxData s i) = tffAcc (tfxView s) (tfxCtrl s i) := by
    simp only [tffAcc, tffReady, tfxData, tfxView, tfxCtrl]
    cases s.d.full <;> cases s.fullC <;> cases i.valid <;> rfl
  have hw : tffWrNext c s.d (tfxData s i) = tffWrNext c (tfxView s) (tfxCtrl s i) := by
    simp only [tffWrNext, hacc]; rfl
  unfold tfxStep tffStep
  rw [hw, hacc]
  rfl

theorem tffInv_bare {c : TffCfg} {s : Tff} {acc tk : List TlpSeg} {R : Nat} (h : TffInv c s acc tk R) :
    TffInv c (tffBare s) acc tk R :=
  ⟨h.front, h.rle, h.wr, h.wrCur, h.rd, h.wrAddr, h.rdAddr, h.mem, h.room, h.notFull⟩

/-- Invariant: `acc` has been accepted, `tkC` taken on the control path and `tkD` on the data path, with `R` and `RC` words
read. `e` says that the last word taken on the control path is to be taken from the data path now. -/
structure TfxInv (c : TffCfg) (s : Tfx) (e : Bool) (acc tkC tkD : List TlpSeg) (RC R : Nat) : Prop where
  data : TffInv c s.d acc tkD R
  ctrl : TffInv c (tfxView s) acc tkC RC
  late : tkC.length = tkD.length + e.toNat
  there : e = true → s.d.outV = true
  near : RC ≤ R + 1
  ahead : s.outVC = true → tkC.length + 1 ≤ R

theorem tff_len {c : TffCfg} {s : Tff} {acc tk : List TlpSeg} {R : Nat} (h : TffInv c s acc tk R) :
    tk.length + s.outV.toNat + s.rdV.toNat = R ∧ R ≤ (tlpWhole acc).length ∧ R ≤ acc.length := by
  have hl := congrArg List.length h.front
  have h1 := h.rle
  have h2 := tlpWhole_length acc
  rw [List.length_append, List.length_append, List.length_take, Nat.min_eq_left (by omega)] at hl
  refine ⟨?_, h1, by omega⟩
  rw [← hl]
  simp only [tffShown, tffMid]
  cases s.outV <;> cases s.rdV <;> rfl

/-- The word to be taken from the data path is the last one taken on the control path. -/
theorem tfx_last {c : TffCfg} {s : Tfx} {e : Bool} {acc tkC tkD : List TlpSeg} {RC R : Nat}
    (h : TfxInv c s e acc tkC tkD RC R) : tkC = tkD ++ (if e then [s.d.out] else []) := by
  have hC : tkC <+: acc := by
    have := h.ctrl.front
    exact ⟨tffShown (tfxView s) ++ tffMid (tfxView s) ++ acc.drop RC, by
      rw [← List.append_assoc, ← List.append_assoc, this, List.take_append_drop]⟩
  have hD : tkD ++ (if e then [s.d.out] else []) <+: acc := by
    have hf := h.data.front
    cases he : e with
    | false =>
      refine ⟨tffShown s.d ++ tffMid s.d ++ acc.drop R, ?_⟩
      simp only [Bool.false_eq_true, if_false, List.append_nil]
      rw [← List.append_assoc, ← List.append_assoc, hf, List.take_append_drop]
    | true =>
      have hv := h.there he
      refine ⟨tffMid s.d ++ acc.drop R, ?_⟩
      rw [tffShown, hv] at hf
      simp only [if_true] at hf ⊢
      rw [← List.append_assoc, hf, List.take_append_drop]
  have hl : tkC.length = (tkD ++ (if e then [s.d.out] else [])).length := by
    rw [h.late, List.length_append]; cases e <;> rfl
  exact (List.prefix_of_prefix_length_le hC hD (by omega)).eq_of_length hl

/-- The next accepted segments. -/
def tfxA (s : Tfx) (i : TfxIn) (acc : List TlpSeg) : List TlpSeg := acc ++ (if tfxReady s && i.valid then [i.seg] else [])

theorem tfxA_data (s : Tfx) (i : TfxIn) (acc : List TlpSeg) : tffA s.d (tfxData s i) acc = tfxA s i acc := by
  have : (!s.d.full && (i.valid && !s.fullC)) = (!(s.d.full || s.fullC) && i.valid) := by
    cases s.d.full <;> cases s.fullC <;> cases i.valid <;> rfl
  show acc ++ (if (!s.d.full && (i.valid && !s.fullC)) = true then [i.seg] else []) = _
  rw [this]; rfl

theorem tfxA_ctrl (s : Tfx) (i : TfxIn) (acc : List TlpSeg) : tffA (tfxView s) (tfxCtrl s i) acc = tfxA s i acc := by
  have : (!s.fullC && (i.valid && !s.d.full)) = (!(s.d.full || s.fullC) && i.valid) := by
    cases s.d.full <;> cases s.fullC <;> cases i.valid <;> rfl
  show acc ++ (if (!s.fullC && (i.valid && !s.d.full)) = true then [i.seg] else []) = _
  rw [this]; rfl

theorem tfx_arith (a b R RC W : Nat) (e x oD mD oC mC : Bool) (lD : b + oD.toNat + mD.toNat = R)
    (lC : a + oC.toNat + mC.toNat = RC) (hW : RC ≤ W) (late : a = b + e.toNat) (there : e = true → oD = true)
    (near : RC ≤ R + 1) (ahead : oC = true → a + 1 ≤ R) (hx : x = true → oC = true) :
    (x = true → (if (!oD || e) then mD else oD) = true) ∧
    RC ≤ R + ((!mD || (!oD || e)) && decide (R < W)).toNat ∧
    ((if (!oC || x) then mC else oC) = true → a + x.toNat + 1 ≤ R + ((!mD || (!oD || e)) && decide (R < W)).toNat) := by
  by_cases h : R < W
  · rw [decide_eq_true h]
    cases e <;> cases x <;> cases oD <;> cases mD <;> cases oC <;> cases mC <;> simp at * <;> omega
  · rw [decide_eq_false h]
    cases e <;> cases x <;> cases oD <;> cases mD <;> cases oC <;> cases mC <;> simp at * <;> omega

theorem tfx_step {c : TffCfg} (hc : TffOk c) {s : Tfx} {e : Bool} {acc tkC tkD : List TlpSeg} {RC R : Nat}
    (h : TfxInv c s e acc tkC tkD RC R) (i : TfxIn) (hr : i.rst = false) (he : i.ready = e)
    (hx : i.readyC = true → s.outVC = true) :
    TfxInv c (tfxStep c s i) i.readyC (tfxA s i acc) (tkC ++ (if i.readyC then [s.outC] else []))
      (tkD ++ (if e then [s.d.out] else [])) (tffR (tfxView s) (tfxCtrl s i) RC) (tffR s.d (tfxData s i) R) := by
  have hD := tff_step hc h.data (tfxData s i) hr
  have hC := tff_step hc h.ctrl (tfxCtrl s i) hr
  rw [tfxA_data] at hD
  rw [tfxA_ctrl] at hC
  have e1 : (if (tfxData s i).ready then tffShown s.d else []) = if e then [s.d.out] else [] := by
    show (if i.ready then tffShown s.d else []) = _
    rw [he]
    cases h' : e with
    | false => rfl
    | true => simp [tffShown, h.there h']
  have e2 : (if (tfxCtrl s i).ready then tffShown (tfxView s) else []) = if i.readyC then [s.outC] else [] := by
    show (if i.readyC then (if s.outVC then [s.outC] else []) else []) = _
    cases h' : i.readyC with
    | false => rfl
    | true => simp [hx h']
  rw [e1] at hD
  rw [e2] at hC
  have hC' := tffInv_bare hC
  rw [← tfx_view] at hC'
  have lD := tff_len h.data
  have lC := tff_len h.ctrl
  have nD := tff_nonempty hc h.data
  have hlate := h.late
  have hthere := h.there
  have hnear := h.near
  have hahead := h.ahead
  have rD : tffRead s.d (tfxData s i) = ((!s.d.rdV || (!s.d.outV || e)) && s.d.wr != s.d.rd) := by
    rw [← he]; rfl
  have oD : (tfxStep c s i).d.outV = if (!s.d.outV || e) then s.d.rdV else s.d.outV := by
    rw [← he]
    show (!i.rst && _) = _
    rw [hr]; rfl
  have oC : (tfxStep c s i).outVC = if (!s.outVC || i.readyC) then s.rdVC else s.outVC := by
    show (!i.rst && _) = _
    rw [hr]; rfl
  have vC : (tfxView s).outV = s.outVC ∧ (tfxView s).rdV = s.rdVC := ⟨rfl, rfl⟩
  rw [vC.1, vC.2] at lC
  have hRD : tffR s.d (tfxData s i) R = R + ((!s.d.rdV || (!s.d.outV || e)) && decide (R < (tlpWhole acc).length)).toNat := by
    unfold tffR
    rw [rD, nD]
    cases ((!s.d.rdV || (!s.d.outV || e)) && decide (R < (tlpWhole acc).length)) <;> rfl
  have hRC : tffR (tfxView s) (tfxCtrl s i) RC ≤ RC + 1 := by unfold tffR; split <;> omega
  have hlx : (tkC ++ (if i.readyC then [s.outC] else [])).length = tkC.length + i.readyC.toNat := by
    rw [List.length_append]; cases i.readyC <;> rfl
  have hld : (tkD ++ (if e then [s.d.out] else [])).length = tkD.length + e.toNat := by
    rw [List.length_append]; cases e <;> rfl
  have hA := tfx_arith tkC.length tkD.length R RC (tlpWhole acc).length e i.readyC s.d.outV s.d.rdV s.outVC s.rdVC lD.1 lC.1
    lC.2.1 hlate hthere hnear hahead hx
  rw [← hRD] at hA
  refine ⟨hD, hC', ?_, fun hgo => ?_, by omega, fun hv => ?_⟩
  · rw [hlx, hld]; omega
  · rw [oD]; exact hA.1 hgo
  · rw [oC] at hv; rw [hlx]; exact hA.2.2 hv

theorem tfx_reset (c : TffCfg) (hc : TffOk c) (s : Tfx) (r : TfxIn) (hr : r.rst = true) :
    TfxInv c (tfxStep c s r) false [] [] [] 0 0 := by
  refine ⟨tff_reset c hc s.d (tfxData s r) hr, ?_, rfl, by simp, by omega, ?_⟩
  · rw [tfx_view]
    exact tffInv_bare (tff_reset c hc (tfxView s) (tfxCtrl s r) hr)
  · intro h
    have : (tfxStep c s r).outVC = false := by show (!r.rst && _) = false; rw [hr]; rfl
    rw [this] at h; simp at h

end Verif.Proofs
