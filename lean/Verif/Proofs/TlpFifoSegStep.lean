import Verif.Proofs.TlpFifoSegInv
/-! Proofs about the TLP FIFO with several segments per word: the invariant is kept by every clock edge. -/
namespace Verif.Proofs
open Verif.Model Verif.Spec

/-- The segment at a position. -/
def tfmGet (A : List TlpSeg) (k : Nat) : TlpSeg := A.getD k {}

theorem tfmGet_append {A B : List TlpSeg} {k : Nat} (h : k < A.length) : tfmGet (A ++ B) k = tfmGet A k := by
  unfold tfmGet
  simp only [List.getD_eq_getElem?_getD]
  rw [List.getElem?_append_left h]

/-- The segments in the output FIFO. -/
def tfmOutSegs (c : TfmCfg) (s : Tfm) : List TlpSeg := (outQ 5 s.out).flatMap fun w => tfmSegs c w.valid w.seg

/-- Invariant: `A` has been accepted, `tk` taken; `cR` and `dR` segments have been read from the memory for the control and
the data path, `cH` and `dH` have left these paths. -/
structure TfmInv (c : TfmCfg) (s : Tfm) (A tk : List TlpSeg) (cR cH dR dH : Nat) : Prop where
  out : tk ++ tfmOutSegs c s = A.take dH
  ring : RingOk 5 s.out.ring
  cnt : ringCount 5 s.out.ring ≤ 18
  cntH : s.out.half = false → ringCount 5 s.out.ring ≤ 16
  cntV : dH < cH → ringCount 5 s.out.ring ≤ 17
  hle : dH ≤ cH
  hS : cH ≤ dH + c.segs
  cle : cH ≤ cR
  cW : cR ≤ (tlpWhole A).length
  dW : dR ≤ (tlpWhole A).length
  sync : cR ≤ dR ∨ dH + 2 * c.segs ≤ dR
  wr : s.wr = (tlpWhole A).length % c.ptr
  wrCur : s.wrCur = A.length % c.ptr
  rd : s.rd = dR % c.ptr
  rdC : s.rdC = cR % c.ptr
  count : s.count = (tlpWhole A).length - dR
  countC : s.countC = (tlpWhole A).length - cR
  wrAddr : ∀ l < c.segs, s.wrAddr l = tfmNx c.segs l A.length / c.segs % 2 ^ c.addrW
  rdAddr : ∀ l < c.segs, s.rdAddr l = tfmNx c.segs l dR / c.segs % 2 ^ c.addrW
  rdAddrC : ∀ l < c.segs, s.rdAddrC l = tfmNx c.segs l cR / c.segs % 2 ^ c.addrW
  mem : ∀ k, dR ≤ k ∨ cR ≤ k → k < A.length → s.mem (k % c.segs) (k / c.segs % 2 ^ c.addrW) = tfmGet A k
  room : A.length + 1 ≤ dR + c.words * c.segs
  roomC : A.length + 1 ≤ cR + c.words * c.segs
  full : s.full = false → A.length + c.segs + 1 ≤ dR + c.words * c.segs
  fullC : s.fullC = false → A.length + c.segs + 1 ≤ cR + c.words * c.segs
  data : ∀ l < c.segs, tfmDList (s.data l) = (tfmIdx c.segs l dH dR).map (tfmGet A)
  head : ∀ k, dH ≤ k → k < cH → (s.data (k % c.segs)).oV = true
  off : s.off = dH % c.segs
  ctrl : ∀ l < c.segs, tfmCList (s.ctrl l) = (tfmIdx c.segs l cH cR).map (tfmGet A)
  rdy : ∀ l < c.segs, (s.ctrl l).rdy = true → (s.ctrl l).tV = false
  offC : s.offC = cH % c.segs
  readEn : s.readEn = decide (dH < cH)
  readCnt : dH < cH → s.readCnt = cH - dH
  iV : ∀ j < c.segs, s.int.valid j = decide (dH + j < cH)
  iSel : ∀ j, dH + j < cH → s.sel j = (dH + j) % c.segs
  iSeg : ∀ j, dH + j < cH → s.int.seg j = tfmGet A (dH + j)

variable {c : TfmCfg} {s : Tfm} {A tk : List TlpSeg} {cR cH dR dH : Nat}

theorem TfmInv.dle (h : TfmInv c s A tk cR cH dR dH) : cH ≤ dR := by
  have := h.sync; have := h.cle; have := h.hS; have := tfm_segs_pos c; omega

theorem TfmInv.fits (hc : TfmOk c) (h : TfmInv c s A tk cR cH dR dH) :
    A.length < dR + c.ptr ∧ A.length < cR + c.ptr ∧ c.words * c.segs ≤ 2 ^ c.addrW * c.segs := by
  have h1 := h.room
  have h2 := h.roomC
  have h3 : c.words * c.segs ≤ 2 ^ c.addrW * c.segs := Nat.mul_le_mul_right _ hc.fit
  have h4 := tfm_ptr_eq c
  have h5 : c.segs * (2 * 2 ^ c.addrW) = 2 * (2 ^ c.addrW * c.segs) := by
    rw [Nat.mul_comm, Nat.mul_assoc]
  rw [h5] at h4
  generalize 2 ^ c.addrW * c.segs = P at *
  generalize c.words * c.segs = Q at *
  omega

/-- `tfmPop` takes all the lanes asked for. -/
theorem tfm_pop_eq (h : TfmInv c s A tk cR cH dR dH) : tfmPop c s = cH - dH := by
  unfold tfmPop
  rw [h.readEn]
  have h1 := h.hle
  have h2 := h.hS
  by_cases hlt : dH < cH
  · rw [decide_eq_true hlt]
    simp only [if_true]
    rw [h.off, h.readCnt hlt]
    apply tfmLoop_eq c _ _ _ _ (Nat.mod_lt _ (tfm_segs_pos c)) (by omega)
    · intro j hj
      rw [Nat.mod_add_mod, h.head (dH + j) (by omega) (by omega)]
      simpa using hj
    · intro _
      simp
  · rw [decide_eq_false hlt]
    simp; omega

theorem tfm_sel_le (c : TfmCfg) (s : Tfm) : tfmSel c s ≤ c.segs := by
  unfold tfmSel
  split
  · exact tfmLoop_le _ _ _ _ _
  · omega

theorem tfm_sel_valid (h : TfmInv c s A tk cR cH dR dH) (j : Nat) (hj : j < tfmSel c s) :
    (s.ctrl ((cH + j) % c.segs)).oV = true := by
  unfold tfmSel at hj
  split at hj
  · have := tfmLoop_ok c _ _ _ _ (by rw [h.offC]; exact Nat.mod_lt _ (tfm_segs_pos c)) j hj
    rw [h.offC, Nat.mod_add_mod] at this
    exact this
  · omega

theorem tfm_popC_eq (h : TfmInv c s A tk cR cH dR dH) : tfmPopC c s = tfmSel c s := by
  unfold tfmPopC
  split
  · rw [h.offC]
    apply tfmLoop_eq c _ _ _ _ (Nat.mod_lt _ (tfm_segs_pos c)) (tfm_sel_le c s)
    · intro j hj
      rw [Nat.mod_add_mod, tfm_sel_valid h j hj]
      simpa using hj
    · intro _; simp
  · omega

theorem tfmCList_oV {d : TfmCtrl} (h : d.oV = true) : ∃ t, tfmCList d = d.o :: t := by
  unfold tfmCList; rw [h]; exact ⟨_, rfl⟩

/-- The head of a valid control lane. -/
theorem tfm_ctrl_head (h : TfmInv c s A tk cR cH dR dH) (k : Nat) (h1 : cH ≤ k) (h2 : k < cH + c.segs)
    (hv : (s.ctrl (k % c.segs)).oV = true) : k < cR ∧ (s.ctrl (k % c.segs)).o = tfmGet A k := by
  have hl := Nat.mod_lt k (tfm_segs_pos c)
  have hx := tfmNx_unique hl h1 h2 rfl
  obtain ⟨t, ht⟩ := tfmCList_oV hv
  have hcl := h.ctrl _ hl
  rw [ht] at hcl
  have hlt : k < cR := by
    apply Classical.byContradiction
    intro hge
    rw [(tfmIdx_nil hl).mpr (by omega)] at hcl
    simp at hcl
  refine ⟨hlt, ?_⟩
  rw [tfmIdx_cons hl (by omega), hx, List.map_cons] at hcl
  exact (List.cons.inj hcl).1

theorem tfm_sel_cR (h : TfmInv c s A tk cR cH dR dH) : cH + tfmSel c s ≤ cR := by
  have hle := tfm_sel_le c s
  by_cases h0 : tfmSel c s = 0
  · have := h.cle; omega
  · have hv := tfm_sel_valid h (tfmSel c s - 1) (by omega)
    have := (tfm_ctrl_head h (cH + (tfmSel c s - 1)) (by omega) (by omega) hv).1
    omega

theorem tfm_read_le (h : TfmInv c s A tk cR cH dR dH) :
    tfmRead c s ≤ c.segs ∧ dR + tfmRead c s ≤ (tlpWhole A).length := by
  refine ⟨tfmLoop_le _ _ _ _ _, ?_⟩
  have := h.dW
  by_cases h0 : tfmRead c s = 0
  · omega
  · have hk := tfmLoop_ok c (fun g l => !tfmMem c s l && decide (g < s.count)) c.segs 0 (s.rd % c.segs)
      (Nat.mod_lt _ (tfm_segs_pos c)) (tfmRead c s - 1) (by unfold tfmRead at *; omega)
    simp only [Bool.and_eq_true, decide_eq_true_eq] at hk
    have h2 := hk.2
    rw [h.count] at h2
    omega

theorem tfm_readC_le (h : TfmInv c s A tk cR cH dR dH) :
    tfmReadC c s ≤ c.segs ∧ cR + tfmReadC c s ≤ (tlpWhole A).length := by
  refine ⟨tfmLoop_le _ _ _ _ _, ?_⟩
  have := h.cW
  by_cases h0 : tfmReadC c s = 0
  · omega
  · have hk := tfmLoop_ok c (fun g l => !tfmMemC s l && decide (g < s.countC)) c.segs 0 (s.rdC % c.segs)
      (Nat.mod_lt _ (tfm_segs_pos c)) (tfmReadC c s - 1) (by unfold tfmReadC at *; omega)
    simp only [Bool.and_eq_true, decide_eq_true_eq] at hk
    have h2 := hk.2
    rw [h.countC] at h2
    omega

theorem tfm_hit_rd (h : TfmInv c s A tk cR cH dR dH) (n l : Nat) :
    tfmHit c (s.rd % c.segs) n l = decide (tfmNx c.segs l dR < dR + n) := by
  rw [h.rd, tfm_ptr_mod, tfmHit_eq]

theorem tfm_hit_rdC (h : TfmInv c s A tk cR cH dR dH) (n l : Nat) :
    tfmHit c (s.rdC % c.segs) n l = decide (tfmNx c.segs l cR < cR + n) := by
  rw [h.rdC, tfm_ptr_mod, tfmHit_eq]

theorem tfm_hit_pop (h : TfmInv c s A tk cR cH dR dH) (l : Nat) :
    tfmHit c s.off (tfmPop c s) l = decide (tfmNx c.segs l dH < cH) := by
  rw [h.off, tfmHit_eq, tfm_pop_eq h]
  have := h.hle
  congr 2
  omega

theorem tfm_hit_popC (h : TfmInv c s A tk cR cH dR dH) (l : Nat) :
    tfmHit c s.offC (tfmPopC c s) l = decide (tfmNx c.segs l cH < cH + tfmSel c s) := by
  rw [h.offC, tfmHit_eq, tfm_popC_eq h]

/-- A lane of which a segment is read has room for it. -/
theorem tfm_read_free (h : TfmInv c s A tk cR cH dR dH) (l : Nat) (hl : l < c.segs)
    (hh : tfmHit c (s.rd % c.segs) (tfmRead c s) l = true) : tfmMem c s l = false := by
  rw [tfm_hit_rd h] at hh
  have hh := of_decide_eq_true hh
  have hge := tfmNx_ge c.segs l dR
  have hk := tfmLoop_ok c (fun g l => !tfmMem c s l && decide (g < s.count)) c.segs 0 (s.rd % c.segs)
      (Nat.mod_lt _ (tfm_segs_pos c)) (tfmNx c.segs l dR - dR) (by unfold tfmRead at *; omega)
  simp only [Bool.and_eq_true] at hk
  have h1 := hk.1
  rw [h.rd, tfm_ptr_mod, Nat.mod_add_mod, show dR + (tfmNx c.segs l dR - dR) = tfmNx c.segs l dR by omega, tfmNx_mod hl] at h1
  simpa using h1

theorem tfm_readC_free (h : TfmInv c s A tk cR cH dR dH) (l : Nat) (hl : l < c.segs)
    (hh : tfmHit c (s.rdC % c.segs) (tfmReadC c s) l = true) : tfmMemC s l = false := by
  rw [tfm_hit_rdC h] at hh
  have hh := of_decide_eq_true hh
  have hge := tfmNx_ge c.segs l cR
  have hk := tfmLoop_ok c (fun g l => !tfmMemC s l && decide (g < s.countC)) c.segs 0 (s.rdC % c.segs)
      (Nat.mod_lt _ (tfm_segs_pos c)) (tfmNx c.segs l cR - cR) (by unfold tfmReadC at *; omega)
  simp only [Bool.and_eq_true] at hk
  have h1 := hk.1
  rw [h.rdC, tfm_ptr_mod, Nat.mod_add_mod, show cR + (tfmNx c.segs l cR - cR) = tfmNx c.segs l cR by omega, tfmNx_mod hl] at h1
  simpa using h1

theorem tfm_pop_oV (h : TfmInv c s A tk cR cH dR dH) (l : Nat) (hl : l < c.segs)
    (hh : tfmHit c s.off (tfmPop c s) l = true) : (s.data l).oV = true := by
  rw [tfm_hit_pop h] at hh
  have := h.head _ (tfmNx_ge c.segs l dH) (of_decide_eq_true hh)
  rwa [tfmNx_mod hl] at this

theorem tfm_popC_oV (h : TfmInv c s A tk cR cH dR dH) (l : Nat) (hl : l < c.segs)
    (hh : tfmHit c s.offC (tfmPopC c s) l = true) : (s.ctrl l).oV = true := by
  rw [tfm_hit_popC h] at hh
  have hh := of_decide_eq_true hh
  have hge := tfmNx_ge c.segs l cH
  have := tfm_sel_valid h (tfmNx c.segs l cH - cH) (by omega)
  rwa [show cH + (tfmNx c.segs l cH - cH) = tfmNx c.segs l cH by omega, tfmNx_mod hl] at this

theorem tfm_map_get {S l H R : Nat} {B : List TlpSeg} (hR : R ≤ A.length) :
    (tfmIdx S l H R).map (tfmGet (A ++ B)) = (tfmIdx S l H R).map (tfmGet A) := by
  apply List.map_congr_left
  intro k hk
  exact tfmGet_append (by have := tfmIdx_mem.mp hk; omega)

/-- The data path after the step. -/
theorem tfm_data_next (h : TfmInv c s A tk cR cH dR dH) (B : List TlpSeg) (l : Nat) (hl : l < c.segs) :
    tfmDList (tfmDataNext c s false l) = (tfmIdx c.segs l cH (dR + tfmRead c s)).map (tfmGet (A ++ B)) := by
  have hw := tlpWhole_length A
  have hr := tfm_read_le h
  have hle := h.hle
  have hS := h.hS
  have hd := h.dle
  rw [tfm_map_get (by omega), tfm_dlane c s l (tfm_pop_oV h l hl) (tfm_read_free h l hl), h.data l hl, tfm_hit_pop h, tfm_hit_rd h]
  rw [tfmIdx_split (H := cH) (K := dR) (R := dR + tfmRead c s) (by omega) (by omega), List.map_append, tfmIdx_short hl hr.1]
  have e := tfmIdx_drop (S := c.segs) (l := l) (H := dH) (R := dR) (n := cH - dH) hl (by omega) (by omega)
  rw [show dH + (cH - dH) = cH by omega] at e
  rw [e, List.map_drop]
  congr 1
  by_cases hh : tfmNx c.segs l dR < dR + tfmRead c s
  · simp only [hh, decide_true, if_true, List.map_cons, List.map_nil]
    have hm := h.mem (tfmNx c.segs l dR) (Or.inl (tfmNx_ge _ _ _)) (by omega)
    rw [tfmNx_mod hl] at hm
    rw [h.rdAddr l hl, hm]
  · simp [hh]

/-- The control path after the step. -/
theorem tfm_ctrl_next (h : TfmInv c s A tk cR cH dR dH) (B : List TlpSeg) (l : Nat) (hl : l < c.segs) :
    tfmCList (tfmCtrlNext c s false l) = (tfmIdx c.segs l (cH + tfmSel c s) (cR + tfmReadC c s)).map (tfmGet (A ++ B)) ∧
    ((tfmCtrlNext c s false l).rdy = true → (tfmCtrlNext c s false l).tV = false) := by
  have hw := tlpWhole_length A
  have hr := tfm_readC_le h
  have hd := tfm_sel_cR h
  obtain ⟨h1, h2⟩ := tfm_clane c s l (h.rdy l hl) (tfm_popC_oV h l hl) (tfm_readC_free h l hl)
  refine ⟨?_, h2⟩
  rw [tfm_map_get (by omega), h1, h.ctrl l hl, tfm_hit_popC h, tfm_hit_rdC h]
  rw [tfmIdx_split (H := cH + tfmSel c s) (K := cR) (R := cR + tfmReadC c s) (by omega) (by omega), List.map_append, tfmIdx_short hl hr.1]
  rw [tfmIdx_drop hl (tfm_sel_le c s) hd, List.map_drop]
  congr 1
  by_cases hh : tfmNx c.segs l cR < cR + tfmReadC c s
  · simp only [hh, decide_true, if_true, List.map_cons, List.map_nil]
    have hm := h.mem (tfmNx c.segs l cR) (Or.inr (tfmNx_ge _ _ _)) (by omega)
    rw [tfmNx_mod hl] at hm
    rw [h.rdAddrC l hl, hm]
  · simp [hh]

/-- The segments about to leave the data path are in its output registers. -/
theorem tfm_head_next (h : TfmInv c s A tk cR cH dR dH) (k : Nat) (h1 : cH ≤ k) (h2 : k < cH + tfmSel c s) :
    (tfmDataNext c s false (k % c.segs)).oV = true := by
  have hl := Nat.mod_lt k (tfm_segs_pos c)
  have hle := h.hle
  have hS := h.hS
  have hd := h.dle
  have hsel := tfm_sel_le c s
  have hcr := tfm_sel_cR h
  have hk : k < dR := by have := h.sync; omega
  have hx := tfmNx_unique hl h1 (by omega) rfl
  have e := tfmIdx_drop (S := c.segs) (l := k % c.segs) (H := dH) (R := dR) (n := cH - dH) hl (by omega) (by omega)
  rw [show dH + (cH - dH) = cH by omega] at e
  have hne : ((tfmDList (s.data (k % c.segs))).drop (tfmHit c s.off (tfmPop c s) (k % c.segs)).toNat) ≠ [] := by
    rw [h.data _ hl, tfm_hit_pop h, ← List.map_drop, ← e]
    intro hn
    have := List.map_eq_nil_iff.mp hn
    have := (tfmIdx_nil hl).mp this
    omega
  have hp := tfm_pop_oV h _ hl
  unfold tfmDataNext
  simp only []
  unfold tfmKeep
  unfold tfmDList at hne
  revert hne hp
  generalize tfmHit c s.off (tfmPop c s) (k % c.segs) = a
  generalize s.data (k % c.segs) = d
  cases d with
  | mk mV m oV o => cases a <;> cases mV <;> cases oV <;> simp

/-- The data path does not fall behind the control path. -/
theorem tfm_sync_next (h : TfmInv c s A tk cR cH dR dH) :
    cR + tfmReadC c s ≤ dR + tfmRead c s ∨ cH + 2 * c.segs ≤ dR + tfmRead c s := by
  have hpos := tfm_segs_pos c
  have hr := tfm_read_le h
  have hrc := tfm_readC_le h
  have hsync := h.sync
  have hS := h.hS
  have hle := h.hle
  have hd := h.dle
  by_cases hn : tfmRead c s = c.segs
  · omega
  · have hst := tfmLoop_stop c (fun g l => !tfmMem c s l && decide (g < s.count)) c.segs 0 (s.rd % c.segs)
      (Nat.mod_lt _ hpos) (by unfold tfmRead at *; omega)
    change (!tfmMem c s ((s.rd % c.segs + tfmRead c s) % c.segs) && decide (0 + tfmRead c s < s.count)) = false at hst
    rw [h.rd, tfm_ptr_mod, Nat.mod_add_mod, h.count, Nat.zero_add] at hst
    rw [Bool.and_eq_false_iff] at hst
    rcases hst with hst | hst
    · right
      have hl := Nat.mod_lt (dR + tfmRead c s) hpos
      generalize hlane : (dR + tfmRead c s) % c.segs = l at *
      have hm : tfmMem c s l = true := by simpa using hst
      unfold tfmMem tfmKeep at hm
      rw [Bool.and_eq_true, Bool.and_eq_true, Bool.not_eq_true', tfm_hit_pop h] at hm
      obtain ⟨hm1, hm2, hm3⟩ := hm
      have hlen : (tfmIdx c.segs l dH dR).length = 2 := by
        have := congrArg List.length (h.data l hl)
        rw [List.length_map] at this
        rw [← this]; unfold tfmDList; simp [hm1, hm2]
      have hge := of_decide_eq_false hm3
      generalize ha : tfmNx c.segs l dH = a at *
      have hamod : a % c.segs = l := by rw [← ha]; exact tfmNx_mod hl _
      have hadR : a < dR := by
        apply Classical.byContradiction
        intro hx
        rw [(tfmIdx_nil hl).mpr (by omega)] at hlen
        simp at hlen
      rw [tfmIdx_cons hl (by omega), ha] at hlen
      have h2 : a + c.segs < dR := by
        apply Classical.byContradiction
        intro hx
        rw [(tfmIdx_nil hl).mpr] at hlen
        · simp at hlen
        · rw [tfmNx_unique hl (k := a + c.segs) (by omega) (by omega) (by rw [Nat.add_mod_right]; exact hamod)]
          omega
      apply Classical.byContradiction
      intro hx
      have := tfm_mod_inj (S := c.segs) (a := a + c.segs) (b := dR + tfmRead c s)
        (by rw [Nat.add_mod_right, hamod, hlane]) (by omega) (by omega)
      omega
    · left
      have := of_decide_eq_false hst
      omega

/-! ### The write side -/

/-- The segments accepted in one cycle. -/
def tfmNew (c : TfmCfg) (s : Tfm) (i : TfmIn) : List TlpSeg := if tfmReady s then tfmSegs c i.valid i.seg else []

theorem tfm_new_cases (c : TfmCfg) (s : Tfm) (i : TfmIn) :
    (tfmAcc c s i = true ∧ s.full = false ∧ s.fullC = false ∧ tfmNew c s i = tfmPre i c.segs) ∨
    (tfmAcc c s i = false ∧ tfmNew c s i = []) := by
  unfold tfmAcc tfmNew
  cases hr : tfmReady s with
  | false => right; simp
  | true =>
    have hf : s.full = false ∧ s.fullC = false := by
      unfold tfmReady at hr
      cases h1 : s.full <;> cases h2 : s.fullC <;> simp [h1, h2] at hr ⊢
    cases ha : tfmAny c i.valid with
    | true => left; exact ⟨rfl, hf.1, hf.2, rfl⟩
    | false =>
      right
      refine ⟨rfl, ?_⟩
      unfold tfmAny at ha
      unfold tfmSegs
      simp only [if_true]
      rw [List.filter_eq_nil_iff.mpr]
      · rfl
      · intro l hl hv
        rw [List.any_eq_false] at ha
        exact ha l hl hv

theorem tfm_any_eop (c : TfmCfg) (i : TfmIn) :
    tfmAny c (fun g => (i.seg g).eop && i.valid g) = (tfmPre i c.segs).any (fun x => x.eop) := by
  unfold tfmAny tfmPre
  rw [List.any_map, List.any_filter]
  congr 1
  funext g
  simp [Bool.and_comm]

theorem tfm_pack_ok (h : TfmInv c s A tk cR cH dR dH) (i : TfmIn) : TfmPackOk c i A c.segs (tfmPack c s i) :=
  tfm_pack_loop c i A s.wrCur (by rw [h.wrCur, tfm_ptr_mod]) c.segs (Nat.le_refl _)

theorem tfm_wrCur_next (h : TfmInv c s A tk cR cH dR dH) (i : TfmIn) :
    tfmWrCurNext c s i = (A ++ tfmNew c s i).length % c.ptr := by
  unfold tfmWrCurNext
  rcases tfm_new_cases c s i with ⟨h1, -, -, h2⟩ | ⟨h1, h2⟩
  · rw [h1, h2, (tfm_pack_ok h i).cnt, h.wrCur, List.length_append]
    simp
  · rw [h1, h2, h.wrCur]; simp

theorem tfm_wr_next (h : TfmInv c s A tk cR cH dR dH) (i : TfmIn) :
    tfmWrNext c s i = (tlpWhole (A ++ tfmNew c s i)).length % c.ptr := by
  unfold tfmWrNext
  rcases tfm_new_cases c s i with ⟨h1, -, -, h2⟩ | ⟨h1, h2⟩
  · rw [h1, h2, tfm_any_eop, Bool.true_and]
    have hp := tfm_pack_ok h i
    cases he : (tfmPre i c.segs).any (fun x => x.eop) with
    | true =>
      rw [hp.eop he, h.wrCur]
      simp only [if_true]
      rw [Nat.add_assoc, Nat.mod_add_mod, ← Nat.add_assoc]
    | false =>
      rw [hp.none he, h.wr]; simp
  · rw [h1, h2, h.wr]; simp

theorem tfm_new_length (c : TfmCfg) (s : Tfm) (i : TfmIn) : (tfmNew c s i).length ≤ c.segs := by
  rcases tfm_new_cases c s i with ⟨-, -, -, h2⟩ | ⟨-, h2⟩
  · rw [h2]; exact tfmPre_length i _
  · rw [h2]; simp

/-! ### The output side -/

theorem tfm_word_seg (h : TfmInv c s A tk cR cH dR dH) (j : Nat) (hj : dH + j < cH) :
    (tfmWord s).seg j = tfmGet A (dH + j) := by
  have hl := Nat.mod_lt (dH + j) (tfm_segs_pos c)
  have hS := h.hS
  have hd := h.dle
  have hx := tfmNx_unique hl (N := dH) (k := dH + j) (by omega) (by omega) rfl
  have hv := h.head (dH + j) (by omega) hj
  have hdl := h.data _ hl
  rw [tfmIdx_cons hl (by omega), hx, List.map_cons] at hdl
  unfold tfmDList at hdl
  rw [hv] at hdl
  have ho := (List.cons.inj hdl).1
  unfold tfmWord
  simp only [h.iSel j hj, h.iSeg j hj, ho]

theorem tfm_filter_lt (n S : Nat) (hn : n ≤ S) : (List.range S).filter (fun j => decide (j < n)) = List.range n := by
  rw [show S = n + (S - n) by omega, List.range_add, List.filter_append]
  rw [List.filter_eq_self.mpr (by simp), List.filter_eq_nil_iff.mpr (by simp)]
  simp

theorem tfm_word_segs (h : TfmInv c s A tk cR cH dR dH) :
    (if tfmAny c s.int.valid then tfmSegs c (tfmWord s).valid (tfmWord s).seg else []) = (A.take cH).drop dH := by
  have hS := h.hS
  have hle := h.hle
  have hd := h.dle
  have hW := h.dW
  have hw := tlpWhole_length A
  have hpos := tfm_segs_pos c
  have hany : tfmAny c s.int.valid = decide (dH < cH) := by
    unfold tfmAny
    by_cases hlt : dH < cH
    · rw [decide_eq_true hlt, List.any_eq_true]
      exact ⟨0, by simpa using hpos, by rw [h.iV 0 hpos]; simpa using hlt⟩
    · rw [decide_eq_false hlt, List.any_eq_false]
      intro j hj
      rw [h.iV j (by simpa using hj)]
      simp; omega
  rw [hany]
  by_cases hlt : dH < cH
  · rw [decide_eq_true hlt]
    simp only [if_true]
    unfold tfmSegs
    have hf : (List.range c.segs).filter (tfmWord s).valid = List.range (cH - dH) := by
      rw [← tfm_filter_lt (cH - dH) c.segs (by omega)]
      apply List.filter_congr
      intro j hj
      change s.int.valid j = _
      rw [h.iV j (by simpa using hj)]
      congr 1
      apply propext; omega
    rw [hf]
    apply List.ext_getElem
    · simp; omega
    · intro j h1 h2
      simp only [List.length_map, List.length_range] at h1
      rw [List.getElem_map, List.getElem_range, tfm_word_seg h j (by omega), List.getElem_drop, List.getElem_take]
      unfold tfmGet
      rw [List.getD_eq_getElem?_getD, List.getElem?_eq_getElem (by omega)]
      rfl
  · rw [decide_eq_false hlt, List.drop_eq_nil_of_le (by rw [List.length_take]; omega)]
    rfl

end Verif.Proofs
