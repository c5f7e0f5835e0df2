import Verif.Proofs.TlpFifoSegStep
/-! Proofs about the TLP FIFO with several segments per word: steps and histories. -/
namespace Verif.Proofs
open Verif.Model Verif.Spec

variable {c : TfmCfg} {s : Tfm} {A tk : List TlpSeg} {cR cH dR dH : Nat}

theorem tfm_addr_next (hl : l < c.segs) (N n : Nat) (hn : n ≤ c.segs) (a p : Nat)
    (ha : a = tfmNx c.segs l N / c.segs % 2 ^ c.addrW) (hp : p = N % c.ptr) :
    (if tfmHit c (p % c.segs) n l then ((p + (l + c.segs - p % c.segs) % c.segs) / c.segs + 1) % 2 ^ c.addrW else a) =
      tfmNx c.segs l (N + n) / c.segs % 2 ^ c.addrW := by
  rw [hp, tfm_ptr_mod, tfmHit_eq, tfmNx_add hl hn]
  by_cases h : tfmNx c.segs l N < N + n
  · rw [if_pos (decide_eq_true h), if_pos h, Nat.add_div_right _ (tfm_segs_pos c)]
    rw [Nat.add_mod, tfm_div_mod, ← Nat.add_mod]
    rfl
  · rw [if_neg (by simpa using h), if_neg h, ha]

theorem tfm_mem_next (hc : TfmOk c) (h : TfmInv c s A tk cR cH dR dH) (i : TfmIn) (k : Nat) (hk : dR ≤ k ∨ cR ≤ k)
    (hlt : k < (A ++ tfmNew c s i).length) :
    (tfmStep c s i).mem (k % c.segs) (k / c.segs % 2 ^ c.addrW) = tfmGet (A ++ tfmNew c s i) k := by
  have hl := Nat.mod_lt k (tfm_segs_pos c)
  have e : (tfmStep c s i).mem (k % c.segs) (k / c.segs % 2 ^ c.addrW) =
      if tfmAcc c s i && (tfmPack c s i).valid (k % c.segs) && (k / c.segs % 2 ^ c.addrW) == s.wrAddr (k % c.segs) then
        i.seg ((tfmPack c s i).sel (k % c.segs)) else s.mem (k % c.segs) (k / c.segs % 2 ^ c.addrW) := rfl
  rw [e]
  rcases tfm_new_cases c s i with ⟨h1, hf, hfc, h2⟩ | ⟨h1, h2⟩
  · have hp := tfm_pack_ok h i
    have hlen := tfmPre_length i c.segs
    rw [h1, h2, hp.valid _ hl, h.wrAddr _ hl, Bool.true_and]
    rw [h2, List.length_append] at hlt
    have hfit := (h.fits hc).2.2
    have hr := h.full hf
    have hrc := h.fullC hfc
    by_cases hnew : A.length ≤ k
    · have hx := tfmNx_unique hl hnew (by omega) rfl
      rw [hx, if_pos (by simpa using hlt)]
      have := hp.sel (k - A.length) (by omega)
      rw [show A.length + (k - A.length) = k by omega] at this
      rw [this]
      unfold tfmGet
      simp only [List.getD_eq_getElem?_getD]
      rw [List.getElem?_append_right hnew]
    · rw [tfmGet_append (by omega), if_neg, h.mem k hk (by omega)]
      intro hh
      rw [Bool.and_eq_true] at hh
      have hh1 := of_decide_eq_true hh.1
      have hh2 := eq_of_beq hh.2
      have hge := tfmNx_ge c.segs (k % c.segs) A.length
      have := tfm_slot c (a := k) (b := tfmNx c.segs (k % c.segs) A.length) (by omega)
        (by generalize 2 ^ c.addrW * c.segs = P at *; generalize c.words * c.segs = Q at *; omega) (tfmNx_mod hl _).symm hh2
      omega
  · rw [h1]
    rw [h2, List.append_nil] at hlt ⊢
    simp only [Bool.false_and, Bool.false_eq_true, if_false]
    exact h.mem k hk hlt

theorem tfm_step (hc : TfmOk c) (h : TfmInv c s A tk cR cH dR dH) (i : TfmIn) (hr : i.rst = false) :
    TfmInv c (tfmStep c s i) (A ++ tfmNew c s i) (tk ++ (if i.ready then tfmShown c s else []))
      (cR + tfmReadC c s) (cH + tfmSel c s) (dR + tfmRead c s) cH := by
  have hpos := tfm_segs_pos c
  have hppos := tfm_ptr_pos c
  have hw := tlpWhole_length A
  have hmono := tlpWhole_mono A (tfmNew c s i)
  have hw' := tlpWhole_length (A ++ tfmNew c s i)
  have hnl := tfm_new_length c s i
  have hlenA : (A ++ tfmNew c s i).length = A.length + (tfmNew c s i).length := List.length_append
  obtain ⟨hfit1, hfit2, hfit3⟩ := h.fits hc
  obtain ⟨hr1, hr2⟩ := tfm_read_le h
  obtain ⟨hc1, hc2⟩ := tfm_readC_le h
  have hsel := tfm_sel_le c s
  have hscr := tfm_sel_cR h
  have hle := h.hle
  have hcle := h.cle
  have hd := h.dle
  have hroom : (A ++ tfmNew c s i).length + 1 ≤ dR + c.words * c.segs ∧ (A ++ tfmNew c s i).length + 1 ≤ cR + c.words * c.segs := by
    rcases tfm_new_cases c s i with ⟨-, hf, hfc, -⟩ | ⟨-, h2⟩
    · have := h.full hf; have := h.fullC hfc; omega
    · rw [h2, List.append_nil]
      exact ⟨h.room, h.roomC⟩
  have hptr : (A ++ tfmNew c s i).length < dR + tfmRead c s + c.ptr ∧ (A ++ tfmNew c s i).length < cR + tfmReadC c s + c.ptr := by
    have h4 := tfm_ptr_eq c
    have h5 : c.segs * (2 * 2 ^ c.addrW) = 2 * (2 ^ c.addrW * c.segs) := by rw [Nat.mul_comm, Nat.mul_assoc]
    rw [h5] at h4
    generalize 2 ^ c.addrW * c.segs = P at *
    generalize c.words * c.segs = Q at *
    omega
  have hq := outFifo_queue 5 s.out (tfmAny c s.int.valid) (tfmWord s) i.ready h.ring (by have := h.cnt; omega)
  obtain ⟨r, -, hring, hrok, hrcnt, -⟩ := outFifo_ring_lt 5 s.out (tfmAny c s.int.valid) (tfmWord s) i.ready h.ring (by have := h.cnt; omega)
  have eout : (tfmStep c s i).out = outFifoStep 5 false s.out (tfmAny c s.int.valid) (tfmWord s) i.ready := by
    simp only [tfmStep, hr]
  have hvin : tfmAny c s.int.valid = true → dH < cH := by
    intro hv
    unfold tfmAny at hv
    rw [List.any_eq_true] at hv
    obtain ⟨j, hj, hv⟩ := hv
    rw [h.iV j (by simpa using hj)] at hv
    have := of_decide_eq_true hv
    omega
  have hvn : (tfmAny c s.int.valid).toNat ≤ 1 := Bool.toNat_le _
  have hcount18 : ringCount 5 r ≤ 18 := by
    cases hv : tfmAny c s.int.valid with
    | false => rw [hv] at hrcnt; have := h.cnt; simp only [Bool.toNat_false] at hrcnt; omega
    | true => have := h.cntV (hvin hv); omega
  have hsp : 0 < tfmSel c s → s.out.half = false := by
    intro h0
    unfold tfmSel tfmGo at h0
    cases hh : s.out.half with
    | false => rfl
    | true => rw [hh] at h0; simp at h0
  refine {
    out := ?_, ring := ?_, cnt := ?_, cntH := ?_, cntV := ?_, hle := by omega, hS := by omega, cle := by omega,
    cW := by omega, dW := by omega, sync := tfm_sync_next h, wr := ?_, wrCur := ?_, rd := ?_, rdC := ?_, count := ?_,
    countC := ?_, wrAddr := ?_, rdAddr := ?_, rdAddrC := ?_, mem := ?_, room := by omega, roomC := by omega,
    full := ?_, fullC := ?_, data := ?_, head := ?_, off := ?_, ctrl := ?_, rdy := ?_, offC := ?_,
    readEn := ?_, readCnt := ?_, iV := ?_, iSel := ?_, iSeg := ?_ }
  · -- out
    have hsh : (if i.ready then tfmShown c s else []) =
        (if s.out.valid && i.ready then [s.out.out] else []).flatMap (fun w => tfmSegs c w.valid w.seg) := by
      unfold tfmShown
      cases i.ready <;> cases s.out.valid <;> simp
    unfold tfmOutSegs
    rw [hsh, eout, List.append_assoc, ← List.flatMap_append, hq, List.flatMap_append, ← List.append_assoc]
    have ho := h.out
    unfold tfmOutSegs at ho
    rw [ho]
    have hws := tfm_word_segs h
    have : (if tfmAny c s.int.valid then [tfmWord s] else []).flatMap (fun w => tfmSegs c w.valid w.seg) = (A.take cH).drop dH := by
      rw [← hws]; cases tfmAny c s.int.valid <;> simp
    rw [this, List.take_append_of_le_length (by omega)]
    have e1 : A.take dH = (A.take cH).take dH := by rw [List.take_take, Nat.min_eq_left hle]
    rw [e1, List.take_append_drop]
  · rw [eout, hring]; exact hrok
  · rw [eout, hring]; exact hcount18
  · rw [eout, hring]
    intro hh
    have : decide (ringCount 5 s.out.ring ≥ 16) = false := hh
    have := of_decide_eq_false this
    omega
  · rw [eout, hring]
    intro hh
    have := h.cntH (hsp (by omega))
    omega
  · have e : (tfmStep c s i).wr = tfmWrNext c s i := by simp [tfmStep, hr]
    rw [e, tfm_wr_next h]
  · have e : (tfmStep c s i).wrCur = tfmWrCurNext c s i := by simp [tfmStep, hr]
    rw [e, tfm_wrCur_next h]
  · have e : (tfmStep c s i).rd = (s.rd + tfmRead c s) % c.ptr := by simp [tfmStep, hr]
    rw [e, h.rd, Nat.mod_add_mod]
  · have e : (tfmStep c s i).rdC = (s.rdC + tfmReadC c s) % c.ptr := by simp [tfmStep, hr]
    rw [e, h.rdC, Nat.mod_add_mod]
  · have e : (tfmStep c s i).count = tfmCount c (tfmWrNext c s i) ((s.rd + tfmRead c s) % c.ptr) := by simp [tfmStep, hr]
    rw [e, tfm_wr_next h, h.rd, Nat.mod_add_mod, tfmCount, tfm_diff hppos (by omega) (by omega)]
  · have e : (tfmStep c s i).countC = tfmCount c (tfmWrNext c s i) ((s.rdC + tfmReadC c s) % c.ptr) := by simp [tfmStep, hr]
    rw [e, tfm_wr_next h, h.rdC, Nat.mod_add_mod, tfmCount, tfm_diff hppos (by omega) (by omega)]
  · intro l hl
    have e : (tfmStep c s i).wrAddr l = if tfmAcc c s i then (tfmWrCurNext c s i + (c.segs - 1 - l)) / c.segs % 2 ^ c.addrW
        else s.wrAddr l := by simp [tfmStep, hr]
    rw [e]
    rcases tfm_new_cases c s i with ⟨h1, -, -, -⟩ | ⟨h1, h2⟩
    · rw [h1, tfm_wrCur_next h]
      simp only [if_true]
      rw [tfm_div_mod, tfmNx_div hl]
    · rw [h1, h2, List.append_nil]
      exact h.wrAddr l hl
  · intro l hl
    have e : (tfmStep c s i).rdAddr l = if tfmHit c (s.rd % c.segs) (tfmRead c s) l then
      ((s.rd + (l + c.segs - s.rd % c.segs) % c.segs) / c.segs + 1) % 2 ^ c.addrW else s.rdAddr l := by simp [tfmStep, hr]
    rw [e]
    exact tfm_addr_next hl dR _ hr1 _ _ (h.rdAddr l hl) h.rd
  · intro l hl
    have e : (tfmStep c s i).rdAddrC l = if tfmHit c (s.rdC % c.segs) (tfmReadC c s) l then
      ((s.rdC + (l + c.segs - s.rdC % c.segs) % c.segs) / c.segs + 1) % 2 ^ c.addrW else s.rdAddrC l := by simp [tfmStep, hr]
    rw [e]
    exact tfm_addr_next hl cR _ hc1 _ _ (h.rdAddrC l hl) h.rdC
  · intro k hk hlt
    exact tfm_mem_next hc h i k (by omega) hlt
  · intro hf
    have e : (tfmStep c s i).full = decide (c.words * c.segs - c.segs * 2 ≤ tfmCount c s.wrCur s.rd) := by simp [tfmStep, hr]
    rw [e, h.wrCur, h.rd, tfmCount, tfm_diff hppos (by omega) (by omega)] at hf
    have := of_decide_eq_false hf
    generalize c.words * c.segs = Q at *
    omega
  · intro hf
    have e : (tfmStep c s i).fullC = decide (c.words * c.segs - c.segs * 2 ≤ tfmCount c s.wrCur s.rdC) := by simp [tfmStep, hr]
    rw [e, h.wrCur, h.rdC, tfmCount, tfm_diff hppos (by omega) (by omega)] at hf
    have := of_decide_eq_false hf
    generalize c.words * c.segs = Q at *
    omega
  · intro l hl
    have e : (tfmStep c s i).data l = tfmDataNext c s false l := by simp [tfmStep, hr]
    rw [e]
    exact tfm_data_next h _ l hl
  · intro k h1 h2
    have e : (tfmStep c s i).data (k % c.segs) = tfmDataNext c s false (k % c.segs) := by simp [tfmStep, hr]
    rw [e]
    exact tfm_head_next h k h1 h2
  · have e : (tfmStep c s i).off = (s.off + tfmPop c s) % c.segs := by simp [tfmStep, hr]
    rw [e, h.off, tfm_pop_eq h, Nat.mod_add_mod]
    congr 1; omega
  · intro l hl
    have e : (tfmStep c s i).ctrl l = tfmCtrlNext c s false l := by simp [tfmStep, hr]
    rw [e]
    exact (tfm_ctrl_next h _ l hl).1
  · intro l hl
    have e : (tfmStep c s i).ctrl l = tfmCtrlNext c s false l := by simp [tfmStep, hr]
    rw [e]
    exact (tfm_ctrl_next h [] l hl).2
  · have e : (tfmStep c s i).offC = (s.offC + tfmPopC c s) % c.segs := by simp [tfmStep, hr]
    rw [e, h.offC, tfm_popC_eq h, Nat.mod_add_mod]
  · have e : (tfmStep c s i).readEn = decide (tfmSel c s ≠ 0) := by simp [tfmStep, hr]
    rw [e]
    congr 1
    apply propext; omega
  · intro _
    have e : (tfmStep c s i).readCnt = tfmSel c s := rfl
    rw [e]; omega
  · intro j _
    have e : (tfmStep c s i).int.valid j = decide (j < tfmSel c s) := by simp [tfmStep, hr]
    rw [e]
    congr 1
    apply propext; omega
  · intro j hj
    have e : (tfmStep c s i).sel j = if j < tfmSel c s then (s.offC + j) % c.segs else 0 := rfl
    rw [e, if_pos (by omega), h.offC, Nat.mod_add_mod]
  · intro j hj
    have e : (tfmStep c s i).int.seg j = if j < tfmSel c s then (s.ctrl ((s.offC + j) % c.segs)).o else {} := rfl
    rw [e, if_pos (by omega), h.offC, Nat.mod_add_mod]
    rw [(tfm_ctrl_head h (cH + j) (by omega) (by omega) (tfm_sel_valid h j (by omega))).2, tfmGet_append (by omega)]

theorem tfm_reset (c : TfmCfg) (hc : TfmOk c) (s : Tfm) (r : TfmIn) (hr : r.rst = true) :
    TfmInv c (tfmStep c s r) [] [] 0 0 0 0 := by
  have hpos := tfm_segs_pos c
  have h2 : 2 * c.segs ≤ c.words * c.segs := Nat.mul_le_mul_right _ hc.two
  have eo : (tfmStep c s r).out = outFifoStep 5 true s.out (tfmAny c s.int.valid) (tfmWord s) r.ready := by
    simp only [tfmStep, hr]
  obtain ⟨ho, hq⟩ := outFifo_rst 5 s.out (tfmAny c s.int.valid) (tfmWord s) r.ready
  have hcnt : ringCount 5 (tfmStep c s r).out.ring = 0 := by
    rw [eo]; unfold outFifoStep; simp only [if_true]; exact (ring_reset 5 _).2.2
  have hx : ∀ l < c.segs, tfmNx c.segs l 0 / c.segs = 0 := by
    intro l hl
    have := tfmNx_lt hpos l 0
    exact Nat.div_eq_of_lt (by omega)
  have hi : ∀ l, tfmIdx c.segs l 0 0 = [] := fun l => rfl
  refine {
    out := ?_, ring := by rw [eo]; exact ho.ring, cnt := by omega, cntH := by omega, cntV := by omega, hle := Nat.le_refl _,
    hS := by omega, cle := Nat.le_refl _, cW := Nat.zero_le _, dW := Nat.zero_le _, sync := Or.inl (Nat.le_refl _),
    wr := ?_, wrCur := ?_, rd := ?_, rdC := ?_, count := ?_,
    countC := ?_, wrAddr := ?_, rdAddr := ?_, rdAddrC := ?_, mem := ?_, room := ?_, roomC := ?_,
    full := ?_, fullC := ?_, data := ?_, head := ?_, off := ?_, ctrl := ?_, rdy := ?_, offC := ?_,
    readEn := ?_, readCnt := ?_, iV := ?_, iSel := ?_, iSeg := ?_ }
  · unfold tfmOutSegs; rw [eo, hq]; rfl
  · simp [tfmStep, hr, tlpWhole]
  · simp [tfmStep, hr]
  · simp [tfmStep, hr]
  · simp [tfmStep, hr]
  · simp [tfmStep, hr, tlpWhole]
  · simp [tfmStep, hr, tlpWhole]
  · intro l hl; rw [List.length_nil, hx l hl]; simp [tfmStep, hr]
  · intro l hl; rw [hx l hl]; simp [tfmStep, hr]
  · intro l hl; rw [hx l hl]; simp [tfmStep, hr]
  · intro k _ hk; simp at hk
  · simp only [List.length_nil]; omega
  · simp only [List.length_nil]; omega
  · intro _; simp only [List.length_nil]; omega
  · intro _; simp only [List.length_nil]; omega
  · intro l _; rw [hi]; simp [tfmStep, hr, tfmDataNext, tfmDList]
  · intro k _ hk; omega
  · simp [tfmStep, hr]
  · intro l _; rw [hi]; simp [tfmStep, hr, tfmCtrlNext, tfmCList]
  · intro l _; simp [tfmStep, hr, tfmCtrlNext]
  · simp [tfmStep, hr]
  · simp [tfmStep, hr]
  · intro hk; omega
  · intro j _; simp [tfmStep, hr]
  · intro j hj; omega
  · intro j hj; omega

theorem tfm_run (hc : TfmOk c) (is : List TfmIn) {s : Tfm} {A tk : List TlpSeg} {cR cH dR dH : Nat}
    (h : TfmInv c s A tk cR cH dR dH) (hi : ∀ i ∈ is, i.rst = false) :
    ∃ cR' cH' dR' dH', TfmInv c (tfmRun c s is) (A ++ tfmAccepted c s is) (tk ++ tfmTaken c s is) cR' cH' dR' dH' := by
  induction is generalizing s A tk cR cH dR dH with
  | nil => exact ⟨cR, cH, dR, dH, by simpa [tfmRun, tfmAccepted, tfmTaken] using h⟩
  | cons i is ih =>
    have h1 := tfm_step hc h i (hi i (by simp))
    obtain ⟨a, b, d, e, h2⟩ := ih h1 (fun j hj => hi j (by simp [hj]))
    refine ⟨a, b, d, e, ?_⟩
    rw [tfmRun, tfmAccepted, tfmTaken, ← List.append_assoc, ← List.append_assoc]
    exact h2

end Verif.Proofs
