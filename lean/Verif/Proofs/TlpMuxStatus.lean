import Verif.Proofs.TlpMuxRun
/-! Lemmas on the TLP multiplexer: the sequence numbers reported. -/
namespace Verif.Proofs
open Verif Verif.Model Verif.Spec

/-- Whether a TLP starts after `l`. -/
def tmxEnd (b : Bool) (l : List (Nat × TlpSeg)) : Bool :=
  match l.getLast? with
  | none => b
  | some x => x.2.eop

theorem tmxEnd_append (b : Bool) (l u : List (Nat × TlpSeg)) : tmxEnd b (l ++ u) = tmxEnd (tmxEnd b l) u := by
  unfold tmxEnd
  rw [List.getLast?_append]
  cases u.getLast? <;> simp

theorem tmxStarts_append (b : Bool) (l u : List (Nat × TlpSeg)) :
    tmxStarts b (l ++ u) = tmxStarts b l ++ tmxStarts (tmxEnd b l) u := by
  induction l generalizing b with
  | nil => simp [tmxStarts, tmxEnd]
  | cons x l ih =>
    simp only [List.cons_append, tmxStarts, ih, List.append_assoc]
    rw [show x :: l = [x] ++ l from rfl, tmxEnd_append]
    simp [tmxEnd]

theorem tmx_filter_range (n a : Nat) : (List.range n).filter (fun p => p == a) = if a < n then [a] else [] := by
  induction n with
  | zero => simp
  | succ n ih =>
    rw [List.range_succ, List.filter_append, ih]
    by_cases h : n = a
    · subst h; simp
    · by_cases h2 : a < n
      · simp [h, h2]; omega
      · have : ¬ a < n + 1 := by omega
        simp [h, h2, this]

/-- The lanes `C` are all that is reported in one cycle. -/
theorem tmx_status (c : TmxCfg) (s : Tmx) (i : TmxIn) (hr : i.rst = false) (C : List (Nat × Nat))
    (h : TmxCom c s i (tmxVar1 c s i) C) (hl : (tmxVar1 c s i).sel.length = c.segs) :
    tmxStatus c (tmxStep c s i) =
      (tmxStarts (!s.frame) (C.map fun x => (x.1, tmxFull c s i x.1 x.2))).map fun x => (x.1, x.2.seq) := by
  have hn : C.length ≤ c.segs := by rw [← h.n, ← hl]; exact tmxCom_len h
  have hports := (tmxSeq_range c s i C h.seq 0).2.2
  have hget : ∀ (k : Nat) (x : Nat × Nat), C[k]? = some x → (tmxVar1 c s i).sel.getD k (0, 0) = x := by
    intro k x hx
    have hk := (List.getElem?_eq_some_iff.mp hx).1
    have e : C[k]? = (tmxVar1 c s i).sel[k]? := by
      rw [← h.sel, List.getElem?_take_of_lt (by rw [h.n]; exact hk)]
    rw [List.getD_eq_getElem?_getD, ← e, hx]; rfl
  have hend : ∀ l : List (Nat × Nat), tmxEnd (!s.frame) (l.map fun x => (x.1, tmxFull c s i x.1 x.2)) = true ↔
      tmxCur c s i l = none := by
    intro l
    unfold tmxEnd tmxCur
    rw [List.getLast?_map]
    cases l.getLast? with
    | none => cases s.frame <;> simp
    | some y => simp
  -- one segment of the report
  have hone : ∀ g, ((List.range c.ports).filter fun p => (tmxStep c s i).seqV p g).map (fun p => (p, (tmxStep c s i).seq g)) =
      match C[g]? with
      | none => []
      | some x => if tmxEnd (!s.frame) ((C.take g).map fun x => (x.1, tmxFull c s i x.1 x.2)) then
          [(x.1, (tmxFull c s i x.1 x.2).seq)] else [] := by
    intro g
    have e1 : ∀ p, (tmxStep c s i).seqV p g = (tmxVar1 c s i).seqN p g := by intro p; simp [tmxStep, hr]
    have e2 : (tmxStep c s i).seq g = ((tmxOut c s i).seg g).seq := by simp [tmxStep]
    simp only [e1, e2]
    cases hx : C[g]? with
    | none =>
      rw [List.filter_eq_nil_iff.mpr]
      · rfl
      · intro p _ hc
        obtain ⟨x, hx', -⟩ := (h.st p g).mp hc
        rw [hx] at hx'; cases hx'
    | some x =>
      have e3 : (tmxOut c s i).seg g = tmxFull c s i x.1 x.2 := by simp only [tmxOut, hget g x hx]
      rw [e3]
      simp only
      have hxp : x.1 < c.ports := hports x (List.mem_of_getElem? hx)
      by_cases hs : tmxEnd (!s.frame) ((C.take g).map fun x => (x.1, tmxFull c s i x.1 x.2)) = true
      · rw [if_pos hs]
        have e4 : (List.range c.ports).filter (fun p => (tmxVar1 c s i).seqN p g) =
            (List.range c.ports).filter (fun p => p == x.1) := by
          apply List.filter_congr
          intro p _
          rw [Bool.eq_iff_iff, h.st]
          constructor
          · rintro ⟨y, hy, rfl, -⟩
            rw [hx] at hy; simp at hy; simp [hy]
          · intro hp
            exact ⟨x, hx, by simpa using Eq.symm (beq_iff_eq.mp hp), (hend _).mp hs⟩
        rw [e4]
        have e5 : (List.range c.ports).filter (fun p => p == x.1) = [x.1] := by
          rw [tmx_filter_range, if_pos hxp]
        rw [e5]; rfl
      · rw [if_neg hs, List.filter_eq_nil_iff.mpr]
        · rfl
        · intro p _ hc
          obtain ⟨y, -, -, hy⟩ := (h.st p g).mp hc
          exact hs ((hend _).mpr hy)
  have key : ∀ n, n ≤ C.length → (List.range n).flatMap (fun g =>
      ((List.range c.ports).filter fun p => (tmxStep c s i).seqV p g).map (fun p => (p, (tmxStep c s i).seq g))) =
      (tmxStarts (!s.frame) ((C.take n).map fun x => (x.1, tmxFull c s i x.1 x.2))).map fun x => (x.1, x.2.seq) := by
    intro n hn
    induction n with
    | zero => simp [tmxStarts]
    | succ n ih =>
      rw [List.range_succ, List.flatMap_append, ih (by omega), List.flatMap_singleton, hone n,
        List.getElem?_eq_getElem (by omega), List.take_succ_eq_append_getElem (by omega), List.map_append, tmxStarts_append,
        List.map_append]
      simp only [List.map_cons, List.map_nil, tmxStarts, List.append_nil]
      congr 1
      split <;> rfl
  unfold tmxStatus
  obtain ⟨d, hd⟩ := Nat.exists_eq_add_of_le hn
  rw [hd, List.range_add, List.flatMap_append, key C.length (Nat.le_refl _), List.take_length]
  rw [show ((List.range d).map (C.length + ·)).flatMap (fun g =>
      ((List.range c.ports).filter fun p => (tmxStep c s i).seqV p g).map (fun p => (p, (tmxStep c s i).seq g))) = [] from ?_,
    List.append_nil]
  rw [List.flatMap_eq_nil_iff]
  intro g hg
  obtain ⟨j, -, rfl⟩ := List.mem_map.mp hg
  rw [hone, List.getElem?_eq_none (by omega)]

theorem tmx_status_stall (c : TmxCfg) (s : Tmx) (i : TmxIn) (hr : i.rst = false) (hk : s.skid.ready = false) :
    tmxStatus c (tmxStep c s i) = [] := by
  have e : ∀ g, (tmxVarN c s i g).seqN = fun _ _ => false := by
    intro g
    induction g with
    | zero => rfl
    | succ g ih => rw [tmxVarN_succ, hk]; simp only [tmxSeg, Bool.and_false, Bool.false_eq_true, if_false, ih]
  unfold tmxStatus
  rw [List.flatMap_eq_nil_iff]
  intro g _
  rw [List.filter_eq_nil_iff.mpr]
  · rfl
  · intro p _
    simp [tmxStep, hr, tmxVar1_eq, e]

/-- One cycle without free lanes: data, status and the state of the frame. -/
theorem tmx_exact (c : TmxCfg) (s : Tmx) (i : TmxIn) (hr : i.rst = false) (h0 : 0 < c.ports) (h1 : 0 < c.segs) (hk : TmxOk c s)
    (hc : TmxClosed c s i) :
    ∃ O, TmxRes c s i O ∧ tmxStatus c (tmxStep c s i) = (tmxStarts (!s.frame) O).map (fun x => (x.1, x.2.seq)) ∧
      (tmxStep c s i).frame = !tmxEnd (!s.frame) O := by
  cases hrd : s.skid.ready with
  | false =>
    refine ⟨[], tmxRes_stall c s i hk.port hrd, by rw [tmx_status_stall c s i hr hrd]; rfl, ?_⟩
    have := (tmxVarN_stall c s i hrd c.segs).2.2.1
    rw [← tmxVar1_eq] at this
    simp [tmxStep, hr, tmxEnd, this]
  | true =>
    have hcom : ∃ C, TmxCom c s i (tmxVar1 c s i) C ∧ (tmxVar1 c s i).sel.length = c.segs := by
      rcases tmx_loop c s i h0 hk.port hk.off hrd hc c.segs (Nat.le_refl _) with h | h
      · obtain ⟨C, hC⟩ := h.com; exact ⟨C, hC, h.len⟩
      · obtain ⟨C, hC⟩ := h.com; exact ⟨C, hC, h.len⟩
    obtain ⟨C, hC, hl⟩ := hcom
    refine ⟨_, tmxRes_com c s i h1 C hC hl hrd, tmx_status c s i hr C hC hl, ?_⟩
    have e : (tmxStep c s i).frame = (tmxVar1 c s i).frameN := by simp [tmxStep, hr]
    have hcur := hC.cur
    rw [e]
    unfold tmxEnd
    unfold tmxCur at hcur
    rw [List.getLast?_map]
    cases hx : C.getLast? with
    | none =>
      rw [hx] at hcur
      simp only at hcur
      cases hf : s.frame <;> cases hg : (tmxVar1 c s i).frameN <;> simp [hf, hg] at hcur ⊢
    | some y =>
      rw [hx] at hcur
      simp only at hcur
      cases hf : (tmxFull c s i y.1 y.2).eop <;> cases hg : (tmxVar1 c s i).frameN <;> simp [hf, hg] at hcur ⊢ <;> simp [hf]

theorem tmx_report_run (c : TmxCfg) (h0 : 0 < c.ports) (h1 : 0 < c.segs) (is : List TmxIn) (hi : ∀ i ∈ is, i.rst = false) (s : Tmx)
    (hw : TmxRegFull c s) (hf : ∀ i ∈ is, ∀ p < c.ports, TmxFull c (i.word p)) (t : List (Nat × TlpSeg))
    (A : Nat → List TlpSeg) (T : List TlpSeg) (hI : TmxInv c s t A T) (hfr : s.frame = !tmxEnd true t) :
    ∃ u, TmxInv c (tmxRun c s is) (t ++ u) (fun p => A p ++ tmxAccepted c p s is) (T ++ tmxTaken c s is) ∧
      (tmxStarts true t).map (fun x => (x.1, x.2.seq)) ++ tmxReported c s is =
        (tmxStarts true (t ++ u)).map (fun x => (x.1, x.2.seq)) := by
  induction is generalizing s t A T with
  | nil => exact ⟨[], by simpa [tmxRun, tmxAccepted, tmxTaken, tmxReported] using hI⟩
  | cons i is ih =>
    have hr := hi i (List.mem_cons_self ..)
    obtain ⟨O, hO, h2, h3⟩ := tmx_exact c s i hr h0 h1 hI.ok (tmxClosed_of c s i hI.ok hw (hf i (List.mem_cons_self ..)))
    rw [hfr, Bool.not_not] at h2 h3
    obtain ⟨u, hu, hv⟩ := ih (fun j hj => hi j (List.mem_cons_of_mem _ hj)) (tmxStep c s i)
      (tmxRegFull_step c s i hr O hO hI.ok hw (hf i (List.mem_cons_self ..)))
      (fun j hj => hf j (List.mem_cons_of_mem _ hj)) _ _ _ (tmxInv_step c s i hr h1 O hO t A T hI)
      (by rw [h3, tmxEnd_append])
    refine ⟨O ++ u, ?_, ?_⟩
    · simp only [tmxRun, tmxAccepted, tmxTaken]
      simpa only [List.append_assoc] using hu
    · rw [tmxReported, h2, ← List.append_assoc, ← List.append_assoc t, ← hv, tmxStarts_append, List.map_append]

end Verif.Proofs
