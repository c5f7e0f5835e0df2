import Verif.Proofs.TlpFifoMux
/-! The TLP multiplexer with FIFOs does not pause in the middle of a TLP. -/
namespace Verif.Proofs
open Verif.Model Verif.Spec

theorem tlpWhole_ends {l m : List TlpSeg} {x : TlpSeg} (h : tlpWhole l = m ++ [x]) : x.eop = true := by
  unfold tlpWhole at h
  have h1 := congrArg List.reverse h
  rw [List.reverse_reverse, List.reverse_append] at h1
  have h2 := List.head?_dropWhile_not (fun x : TlpSeg => !x.eop) l.reverse
  rw [h1] at h2
  simpa using h2

/-- A word shown on the control path with none behind it ends a TLP. -/
def TfxEnd (s : Tfx) : Prop := s.outVC = true → s.rdVC = false → s.outC.eop = true

theorem tfxEnd_step {c : TffCfg} (hc : TffOk c) {s : Tfx} {e : Bool} {acc tkC tkD : List TlpSeg} {RC R : Nat}
    (h : TfxInv c s e acc tkC tkD RC R) (hk : TfxEnd s) (i : TfxIn) (hr : i.rst = false) : TfxEnd (tfxStep c s i) := by
  intro hv hn
  have oC : (tfxStep c s i).outVC = if (!s.outVC || i.readyC) then s.rdVC else s.outVC := by
    show (!i.rst && _) = _
    rw [hr]; rfl
  have mC : (tfxStep c s i).rdVC = if (!s.rdVC || (!s.outVC || i.readyC)) then s.d.wr != s.rdC else s.rdVC := by
    show (!i.rst && _) = _
    rw [hr]; rfl
  have xC : (tfxStep c s i).outC = if (!s.outVC || i.readyC) then s.rdSegC else s.outC := rfl
  have hne : (s.d.wr != s.rdC) = decide (RC < (tlpWhole acc).length) := tff_nonempty hc h.ctrl
  rw [hne] at mC
  rw [oC] at hv
  rw [mC] at hn
  rw [xC]
  cases ht : (!s.outVC || i.readyC) with
  | true =>
    rw [ht] at hv hn
    simp only [Bool.or_true, if_true, decide_eq_false_iff_not, Nat.not_lt] at hv hn ⊢
    have hf := h.ctrl.front
    have hle := h.ctrl.rle
    have hR : RC = (tlpWhole acc).length := by omega
    have hm : tffMid (tfxView s) = [s.rdSegC] := by
      show (if s.rdVC then [s.rdSegC] else []) = _
      rw [hv]; rfl
    rw [hR, ← tlpWhole_take, hm] at hf
    exact tlpWhole_ends hf.symm
  | false =>
    rw [ht] at hv hn
    simp only [Bool.or_false, Bool.false_eq_true, if_false] at hv hn ⊢
    refine hk hv ?_
    cases hm : s.rdVC with
    | false => rfl
    | true => rw [hm] at hn; simp at hn

/-- Invariant: in the middle of a TLP the next segment is there, or enough segments are in the output FIFO; `T` has been
taken. -/
structure TxgInv (c : TxmCfg) (s : Txm) (T : List TlpSeg) : Prop where
  fifo : ∀ p < c.mux.ports, TfxEnd (s.fifo p)
  front : s.frame = true → (s.fifo s.port).outVC = true
  half : s.frame = true → s.out.half = true → 15 ≤ ringCount txmOutW s.out.ring
  last : ∀ x, (ringList txmOutW s.out.ring).getLast? = some x → x.eop = false → s.sel = false →
    s.frame = true ∧ 14 ≤ ringCount txmOutW s.out.ring
  out : s.out.valid = true → ringList txmOutW s.out.ring = [] → s.out.out.eop = true
  gap : ∀ x, T.getLast? = some x → x.eop = false → s.out.valid = true

theorem txgInv_step {c : TxmCfg} (h0 : 0 < c.mux.ports) (hc : TffOk c.fifo) {s : Txm} {t : List (Nat × TlpSeg)}
    {A : Nat → List TlpSeg} {T : List TlpSeg} (h : TxmInv c s t A T) (g : TxgInv c s T) (i : TxmIn) (hr : i.rst = false) :
    TxgInv c (txmStep c s i) (T ++ (if i.ready then txmShown s else [])) := by
  have ha := txmArb_lt c h0 s i h.port
  have eSel : (txmStep c s i).sel = txmCommit c s i := by show (!i.rst && _) = _; rw [hr]; rfl
  have ePort : (txmStep c s i).port = if txmCommit c s i then (txmArb c s i).1 else s.port := by
    show (if i.rst then _ else _) = _; rw [hr]; rfl
  have eFrame : (txmStep c s i).frame = if txmCommit c s i then !(s.fifo (txmArb c s i).1).outC.eop else s.frame := by
    show (if i.rst then _ else _) = _; rw [hr]; rfl
  have eOut : (txmStep c s i).out = outFifoStep txmOutW false s.out s.sel (txmSeg s) i.ready := by
    show outFifoStep txmOutW i.rst s.out (txmSegV s) (txmSeg s) i.ready = _
    rw [hr, txmSegV_eq h]
  have eVC : ∀ p, ((txmStep c s i).fifo p).outVC =
      if (!(s.fifo p).outVC || (txmCommit c s i && decide (p = (txmArb c s i).1))) then (s.fifo p).rdVC
      else (s.fifo p).outVC := by
    intro p
    show (!i.rst && _) = _
    rw [hr]; rfl
  have hlt : ringCount txmOutW s.out.ring < 2 ^ txmOutW := by
    have := h.count; unfold txmOutW at this ⊢; omega
  obtain ⟨r, -, hrr, hok, hcnt, hlist⟩ := outFifo_ring_lt txmOutW s.out s.sel (txmSeg s) i.ready h.ring hlt
  have hemp := ring_empty txmOutW _ h.ring
  have hval : (txmStep c s i).out.valid =
      if (!ringEmpty s.out.ring && (!s.out.valid || i.ready)) then true else s.out.valid && !i.ready := by
    rw [eOut]; simp [outFifoStep]
  have hoo : (txmStep c s i).out.out =
      if (!ringEmpty s.out.ring && (!s.out.valid || i.ready)) then ringHead txmOutW s.out.ring else s.out.out := by
    rw [eOut]; rfl
  have hhalf : (txmStep c s i).out.half = decide (ringCount txmOutW s.out.ring ≥ 16) := rfl
  have hring : (txmStep c s i).out.ring = r := by rw [eOut, hrr]
  have hpopb := Bool.toNat_le (!ringEmpty s.out.ring && (!s.out.valid || i.ready))
  have hcommit : txmCommit c s i = true → (s.fifo (txmArb c s i).1).outVC = true := by
    intro hh; unfold txmCommit at hh; simp only [Bool.and_eq_true] at hh; exact hh.1.2
  -- in the middle of a TLP only the level of the output FIFO stops the selection
  have hstop : s.frame = true → txmCommit c s i = false → s.out.half = true := by
    intro hf hn
    have hv := g.front hf
    unfold txmCommit txmArb at hn
    rw [hf] at hn
    simp only [if_true, hv, Bool.true_and, Bool.not_eq_false'] at hn
    exact hn
  have hselFrame : s.sel = true → s.frame = !(txmSeg s).eop := by
    intro hs
    rw [h.frame, tmxEnd, h.selLast hs]
  have hlen := ringList_length txmOutW s.out.ring
  have hlenr := ringList_length txmOutW r
  refine ⟨?_, ?_, ?_, ?_, ?_, ?_⟩
  · intro p hp
    obtain ⟨tkD, RC, R, hf⟩ := h.fifo p hp
    exact tfxEnd_step hc hf (g.fifo p hp) _ hr
  · intro hf
    rw [eFrame] at hf
    rw [ePort, eVC]
    cases hgo : txmCommit c s i with
    | false =>
      rw [hgo] at hf
      simp only [Bool.false_eq_true, if_false, Bool.false_and, Bool.or_false] at hf ⊢
      rw [g.front hf]; rfl
    | true =>
      rw [hgo] at hf
      simp only [if_true, Bool.true_and, decide_true, Bool.or_true, Bool.not_eq_true'] at hf ⊢
      cases hm : (s.fifo (txmArb c s i).1).rdVC with
      | true => rfl
      | false =>
        have := g.fifo _ ha (hcommit hgo) hm
        rw [this] at hf; cases hf
  · intro _ hh
    rw [hhalf] at hh
    simp only [ge_iff_le, decide_eq_true_eq] at hh
    rw [hring]
    omega
  · intro x hx he hs
    rw [eSel] at hs
    rw [hring] at hx ⊢
    rw [eFrame, hs]
    simp only [Bool.false_eq_true, if_false]
    have hx' : (ringList txmOutW s.out.ring ++ if s.sel = true then [txmSeg s] else []).getLast? = some x := by
      rw [hlist, List.getLast?_append, hx]; rfl
    have hfr : s.frame = true := by
      cases hsel : s.sel with
      | true =>
        rw [hsel] at hx'
        simp only [if_true, List.getLast?_append, List.getLast?_singleton, Option.some_or, Option.some.injEq] at hx'
        rw [hselFrame hsel, hx', he]; rfl
      | false =>
        rw [hsel] at hx'
        simp only [Bool.false_eq_true, if_false, List.append_nil] at hx'
        exact (g.last x hx' he hsel).1
    have := g.half hfr (hstop hfr hs)
    exact ⟨hfr, by omega⟩
  · intro hv hn
    rw [hring] at hn
    rw [hn] at hlenr
    simp only [List.length_nil] at hlenr
    rw [hoo]
    rw [hn, List.append_nil] at hlist
    rw [hval] at hv
    cases hpop : (!ringEmpty s.out.ring && (!s.out.valid || i.ready)) with
    | true =>
      rw [hpop] at hlist hcnt
      simp only [if_true, Bool.toNat_true] at hlist hcnt ⊢
      simp only [hemp, Bool.and_eq_true, Bool.not_eq_true', decide_eq_false_iff_not] at hpop
      have hs : s.sel = false := by
        cases hsel : s.sel with
        | false => rfl
        | true => rw [hsel] at hcnt; simp only [Bool.toNat_true] at hcnt; omega
      rw [hs] at hlist
      simp only [Bool.false_eq_true, if_false, List.append_nil] at hlist
      cases he : (ringHead txmOutW s.out.ring).eop with
      | true => rfl
      | false =>
        have h1 := (g.last _ (by rw [hlist]; rfl) he hs).2
        rw [hlist] at hlen
        simp only [List.length_singleton] at hlen
        omega
    | false =>
      rw [hpop] at hlist hv
      simp only [Bool.false_eq_true, if_false] at hlist hv ⊢
      simp only [Bool.and_eq_true] at hv
      exact g.out hv.1 (List.append_eq_nil_iff.mp hlist).1
  · intro x hx he
    rw [hval]
    cases hrdy : i.ready with
    | false =>
      rw [hrdy] at hx
      simp only [Bool.false_eq_true, if_false, List.append_nil] at hx
      have hv := g.gap x hx he
      rw [hv]; simp
    | true =>
      rw [hrdy] at hx
      simp only [if_true] at hx
      cases hv : s.out.valid with
      | false =>
        rw [txmShown, hv] at hx
        simp only [Bool.false_eq_true, if_false, List.append_nil] at hx
        have := g.gap x hx he
        rw [hv] at this; cases this
      | true =>
        rw [txmShown, hv] at hx
        simp only [if_true, List.getLast?_append, List.getLast?_singleton, Option.some_or, Option.some.injEq] at hx
        subst hx
        cases hem : ringEmpty s.out.ring with
        | false => simp
        | true =>
          rw [hem] at hemp
          have hz : ringCount txmOutW s.out.ring = 0 := by simpa using hemp.symm
          have := g.out hv (List.length_eq_zero_iff.mp (by omega))
          rw [this] at he; cases he

theorem txgInv_init (c : TxmCfg) (s : Txm) (r : TxmIn) (hr : r.rst = true) : TxgInv c (txmStep c s r) [] := by
  have e0 : ∀ p, ((txmStep c s r).fifo p).outVC = false := by intro p; show (!r.rst && _) = _; rw [hr]; rfl
  have e1 : (txmStep c s r).frame = false := by show (if r.rst then _ else _) = _; rw [hr]; rfl
  have e2 : (txmStep c s r).out = outFifoStep txmOutW true s.out (txmSegV s) (txmSeg s) r.ready := by
    show outFifoStep txmOutW r.rst s.out (txmSegV s) (txmSeg s) r.ready = _
    rw [hr]
  have e3 : (txmStep c s r).out.valid = false := by rw [e2]; rfl
  have e4 : ringList txmOutW (txmStep c s r).out.ring = [] := by rw [e2]; exact (ring_reset txmOutW _).2.1
  refine ⟨fun p _ hv => ?_, fun hf => ?_, fun hf => ?_, fun x hx => ?_, fun hv => ?_, fun x hx => ?_⟩
  · rw [e0] at hv; cases hv
  · rw [e1] at hf; cases hf
  · rw [e1] at hf; cases hf
  · rw [e4] at hx; simp at hx
  · rw [e3] at hv; cases hv
  · simp at hx

theorem txgInv_run {c : TxmCfg} (h0 : 0 < c.mux.ports) (hc : TffOk c.fifo) (is : List TxmIn) {s : Txm}
    {t : List (Nat × TlpSeg)} {A : Nat → List TlpSeg} {T : List TlpSeg} (h : TxmInv c s t A T) (g : TxgInv c s T)
    (hi : ∀ i ∈ is, i.rst = false) : TxgInv c (txmRun c s is) (T ++ txmTaken c s is) := by
  induction is generalizing s t A T with
  | nil => simpa [txmRun, txmTaken] using g
  | cons i is ih =>
    have hr := hi i (by simp)
    have h1 := ih (txmInv_step h0 hc h i hr) (txgInv_step h0 hc h g i hr) (fun x hx => hi x (by simp [hx]))
    simpa [txmRun, txmTaken, List.append_assoc] using h1

end Verif.Proofs
