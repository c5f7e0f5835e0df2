import Verif.Proofs.DmaClientSource
/-! Histories of the AXI stream DMA source. -/
namespace Verif.Proofs
open Verif Verif.Model Verif.Spec

/-! ### Packets -/

theorem planFrom_range {c : SrcCfg} (off ids n : Nat) {a : Nat} (ha : a < 2 ^ c.ramW) :
    planFrom c off ids a n = (List.range (n + 1)).map fun j => ⟨(a + j * c.kw) % 2 ^ c.ramW, j == n, off, ids⟩ := by
  induction n generalizing a with
  | zero => simp [planFrom, Nat.mod_eq_of_lt ha]
  | succ n ih =>
    rw [planFrom, ih (Nat.mod_lt _ (Nat.two_pow_pos _)), List.range_succ_eq_map (n := n + 1)]
    simp only [List.map_cons, List.map_map, Nat.zero_mul, Nat.add_zero, Nat.mod_eq_of_lt ha, List.cons.injEq]
    refine ⟨by simp, List.map_congr_left fun j _ => ?_⟩
    simp only [Function.comp, SrcPlan.mk.injEq, and_true]
    refine ⟨?_, by simp⟩
    rw [Nat.mod_add_mod, Nat.succ_eq_add_one, Nat.add_mul, Nat.one_mul]
    congr 1; omega

theorem srcAlign_lt (c : SrcCfg) (a : Nat) : srcAlign c a < 2 ^ c.ramW :=
  Nat.lt_of_le_of_lt (Nat.div_mul_le_self _ _) (Nat.mod_lt _ (Nat.two_pow_pos _))

theorem word_bytes (kw : Nat) {m : Nat} (hm : m ≤ kw) (b : SrcBeat) (hk : b.keep = 2 ^ m - 1) :
    (srcWord kw b).bytes = (List.range m).map b.data := by
  unfold srcWord
  simp only [hk, Nat.testBit_two_pow_sub_one]
  obtain ⟨r, rfl⟩ : ∃ r, kw = m + r := ⟨kw - m, by omega⟩
  rw [List.range_add, List.filterMap_append]
  have h1 : (List.range m).filterMap (fun k => if decide (k < m) = true then some (b.data k) else none) =
      (List.range m).map b.data := by
    have : ∀ l : List Nat, (∀ k ∈ l, k < m) →
        l.filterMap (fun k => if decide (k < m) = true then some (b.data k) else none) = l.map b.data := by
      intro l hl
      induction l with
      | nil => rfl
      | cons x l ih =>
        rw [List.filterMap_cons, ih (fun k hk => hl k (List.mem_cons_of_mem _ hk))]
        simp [hl x List.mem_cons_self]
    exact this _ fun k hk => List.mem_range.mp hk
  have h2 : ((List.range r).map (m + ·)).filterMap (fun k => if decide (k < m) = true then some (b.data k) else none) = [] := by
    rw [List.filterMap_eq_nil_iff]
    intro k hk
    obtain ⟨j, -, rfl⟩ := List.mem_map.mp hk
    simp
  rw [h1, h2, List.append_nil]

theorem ones_shift {n m : Nat} (h : m ≤ n) : (2 ^ n - 1) >>> (n - m) = 2 ^ m - 1 := by
  apply Nat.eq_of_testBit_eq
  intro k
  rw [Nat.testBit_shiftRight, Nat.testBit_two_pow_sub_one, Nat.testBit_two_pow_sub_one]
  simp only [decide_eq_decide]; omega

theorem mod_add_lt {c : SrcCfg} (hc : SrcCfgOk c) {a b : Nat} (ha : a % c.kw = 0) (hb : b < c.kw) :
    a % 2 ^ c.ramW + b = (a + b) % 2 ^ c.ramW := by
  have hd : c.kw ∣ 2 ^ c.ramW := Nat.pow_dvd_pow 2 (by have := hc.ram; omega)
  have h1 : a % 2 ^ c.ramW % c.kw = 0 := by rw [Nat.mod_mod_of_dvd _ hd, ha]
  have h2 := Nat.mod_lt a (Nat.two_pow_pos c.ramW)
  obtain ⟨t, ht⟩ := hd
  have h3 : a % 2 ^ c.ramW + c.kw ≤ 2 ^ c.ramW := by
    obtain ⟨q, hq⟩ := Nat.dvd_of_mod_eq_zero h1
    rw [hq, ht] at h2 ⊢
    have hq' : q < t := Nat.lt_of_mul_lt_mul_left h2
    calc c.kw * q + c.kw = c.kw * (q + 1) := rfl
      _ ≤ c.kw * t := Nat.mul_le_mul_left _ hq'
  rw [← Nat.mod_add_mod, Nat.mod_eq_of_lt (by omega : a % 2 ^ c.ramW + b < 2 ^ c.ramW)]

theorem count_len {c : SrcCfg} (hc : SrcCfgOk c) {len : Nat} (h1 : 1 ≤ len) (h2 : len < 2 ^ c.lenW) :
    srcCount c len = (len - 1) / c.kw := by
  unfold srcCount srcLenDec
  rw [Nat.mod_eq_of_lt h2, if_neg (by omega), Nat.mod_eq_of_lt]
  have hp : 2 ^ c.lenW = c.kw * 2 ^ (c.lenW - c.kb) := by
    rw [SrcCfg.kw, ← Nat.pow_add]; congr 1; have := hc.len; omega
  have : (len - 1) / c.kw < 2 ^ (c.lenW - c.kb) := Nat.div_lt_of_lt_mul (by rw [← hp]; omega)
  refine Nat.lt_trans this ?_
  unfold SrcCfg.cycW
  exact Nat.pow_lt_pow_right (by omega) (by omega)

theorem ceil_len {kw len : Nat} (hk : 0 < kw) (h1 : 1 ≤ len) : (len + kw - 1) / kw = (len - 1) / kw + 1 := by
  rw [show len + kw - 1 = (len - 1) + kw by omega, Nat.add_div_right _ hk]

/-- The keep signal of a planned word. -/
theorem plan_keep {c : SrcCfg} (mem : Nat → UInt8) (p : SrcPlan) (ho : p.off < c.kw) :
    (planBeat c mem p).keep = 2 ^ (if p.last && decide (p.off > 0) then p.off else c.kw) - 1 := by
  unfold planBeat
  split
  · exact ones_shift (by omega)
  · rfl

theorem descPlan_packet {c : SrcCfg} (hc : SrcCfgOk c) (mem : Nat → UInt8) (d : SrcDesc) (ha : d.addr < 2 ^ c.ramW)
    (h1 : 1 ≤ d.len) (h2 : d.len < 2 ^ c.lenW) :
    (descPlan c d).map (fun p => srcWord c.kw (planBeat c mem p)) = srcPacket c mem d := by
  have hk := kw_pos c
  unfold descPlan srcPacket
  rw [count_len hc h1 h2, planFrom_range _ _ _ (srcAlign_lt c d.addr), ceil_len hk h1, List.map_map]
  simp only
  apply List.map_congr_left
  intro j hj
  have hj : j < (d.len - 1) / c.kw + 1 := List.mem_range.mp hj
  have hdm := Nat.div_add_mod (d.len - 1) c.kw
  have hml := Nat.mod_lt (d.len - 1) hk
  have hdm2 := Nat.div_add_mod d.len c.kw
  have hml2 := Nat.mod_lt d.len hk
  have halign : d.addr - d.addr % c.kw = srcAlign c d.addr := by
    unfold srcAlign
    rw [Nat.mod_eq_of_lt ha]
    have := Nat.div_add_mod d.addr c.kw
    rw [Nat.mul_comm] at this; omega
  simp only [Function.comp]
  generalize hp : (⟨(srcAlign c d.addr + j * c.kw) % 2 ^ c.ramW, j == (d.len - 1) / c.kw, d.len % c.kw, d.ids⟩ : SrcPlan) = p
  have hp1 : p.addr = (srcAlign c d.addr + j * c.kw) % 2 ^ c.ramW := by rw [← hp]
  have hp2 : p.last = (j == (d.len - 1) / c.kw) := by rw [← hp]
  have hp3 : p.off = d.len % c.kw := by rw [← hp]
  have hp4 : p.ids = d.ids := by rw [← hp]
  have hkeep := plan_keep mem p (by rw [hp3]; exact hml2)
  have hm : (if p.last && decide (p.off > 0) then p.off else c.kw) = min c.kw (d.len - j * c.kw) := by
    rw [hp2, hp3]
    by_cases hjn : j = (d.len - 1) / c.kw
    · subst hjn
      rw [Nat.mul_comm] at hdm
      simp only [beq_self_eq_true, Bool.true_and, decide_eq_true_eq]
      generalize (d.len - 1) / c.kw = q at *
      have hdiv : d.len / c.kw = q ∨ (d.len / c.kw = q + 1 ∧ d.len % c.kw = 0) := by
        by_cases hfull : (d.len - 1) % c.kw = c.kw - 1
        · right
          have : d.len = c.kw * (q + 1) := by rw [Nat.mul_add, Nat.mul_comm c.kw q]; omega
          rw [this]; exact ⟨Nat.mul_div_cancel_left _ hk, Nat.mul_mod_right _ _⟩
        · left
          have : d.len = c.kw * q + ((d.len - 1) % c.kw + 1) := by rw [Nat.mul_comm]; omega
          rw [this, Nat.mul_add_div hk, Nat.div_eq_of_lt (by omega), Nat.add_zero]
      rcases hdiv with hd | ⟨hd, h0⟩
      · rw [hd, Nat.mul_comm] at hdm2
        split <;> omega
      · rw [hd, Nat.mul_add, Nat.mul_comm] at hdm2
        rw [if_neg (by omega)]; omega
    · have : (j + 1) * c.kw ≤ (d.len - 1) / c.kw * c.kw := Nat.mul_le_mul_right _ (by omega)
      rw [Nat.add_mul, Nat.one_mul] at this
      rw [Nat.mul_comm] at hdm
      have hb : (j == (d.len - 1) / c.kw) = false := by simp [hjn]
      rw [hb]
      simp only [Bool.false_and, Bool.false_eq_true, if_false]
      omega
  rw [hm] at hkeep
  have hw := word_bytes c.kw (Nat.min_le_left _ _) _ hkeep
  have : srcWord c.kw (planBeat c mem p) =
      { bytes := (srcWord c.kw (planBeat c mem p)).bytes, last := p.last, ids := p.ids } := rfl
  rw [this, hw, hp2, hp4]
  simp only [StreamWord.mk.injEq, and_true]
  refine ⟨List.map_congr_left fun b hb => ?_, ?_⟩
  · have hb : b < c.kw := by have := List.mem_range.mp hb; omega
    simp only [planBeat, hb, if_true, hp1]
    rw [mod_add_lt hc (by rw [Nat.add_mul_mod_self_right]; exact srcAlign_mod c _) hb, halign, Nat.add_assoc]
  · by_cases hjn : j = (d.len - 1) / c.kw <;> simp [hjn]

/-! ### Descriptors in progress -/

/-- The descriptors that have not had their status. -/
def SrcRest (c : SrcCfg) (s : Src) (rest : List SrcDesc) : Prop :=
  ∃ d0 d1, rest = (if s.sending then [d0] else []) ++ (if s.cmdV then [d1] else []) ∧
    (s.sending = true → s.stTag = d0.tag ∧ sendPlan c s <:+ descPlan c d0) ∧
    (s.cmdV = true → s.cmdTag = d1.tag ∧ cmdPlan c s = descPlan c d1) ∧ (s.stV = true → s.sending = false)

theorem srcAccept_ready {c : SrcCfg} {s : Src} {pend : Nat → List Nat} {G : List Nat} (h : SrcInv c s pend G) (i : SrcIn) :
    (s.ready && i.valid) = srcAccept s i := by
  unfold srcAccept
  cases hr : s.ready with
  | false => simp
  | true => simp [(h.ready hr).2]

theorem srcRest_step {c : SrcCfg} {s : Src} {pend : Nat → List Nat} {G : List Nat} (h : SrcInv c s pend G) {i : SrcIn}
    (hr : i.rst = false) {rest : List SrcDesc} (hR : SrcRest c s rest) :
    ∃ fin rest', rest ++ (if srcAccept s i then [srcDescOf c i] else []) = fin ++ rest' ∧
      fin.map (·.tag) = (if (srcStep c s i).stV then [(srcStep c s i).stTag] else []) ∧
      SrcRest c (srcStep c s i) rest' := by
  obtain ⟨d0, d1, hrest, hs0, hs1, hst⟩ := hR
  obtain ⟨-, -, -, -, -, r6, r7, r8, r9, r10, r11, -⟩ := srcStep_read c s i hr
  obtain ⟨-, -, -, k4, k5, -, k7, k8⟩ := srcReadStep_same c s i
  -- the command
  have hcmd : ∃ d, (if srcLoad s then [] else if s.cmdV then [d1] else []) ++
        (if srcAccept s i then [srcDescOf c i] else []) = (if (srcStep c s i).cmdV then [d] else []) ∧
      ((srcStep c s i).cmdV = true → (srcStep c s i).cmdTag = d.tag ∧ cmdPlan c (srcStep c s i) = descPlan c d) := by
    unfold cmdPlan at hs1 ⊢
    rw [r6, r7, r8, r9, r10, r11]
    cases ha : srcAccept s i with
    | false =>
      have : (srcReadStep c s i).cmdV = (s.cmdV && !srcLoad s) ∧ (srcReadStep c s i).cmdAddr = s.cmdAddr ∧
          (srcReadStep c s i).cmdOff = s.cmdOff ∧ (srcReadStep c s i).cmdCount = s.cmdCount ∧
          (srcReadStep c s i).cmdIds = s.cmdIds ∧ (srcReadStep c s i).cmdTag = s.cmdTag := by
        unfold srcReadStep
        simp only [ha, Bool.false_eq_true, if_false]
        repeat' split
        all_goals exact ⟨rfl, rfl, rfl, rfl, rfl, rfl⟩
      obtain ⟨e1, e2, e3, e4, e5, e6⟩ := this
      rw [e1, e2, e3, e4, e5, e6]
      refine ⟨d1, ?_, ?_⟩
      · cases srcLoad s <;> cases s.cmdV <;> simp
      · intro hv
        simp only [Bool.and_eq_true] at hv
        have := hs1 hv.1
        rw [if_pos hv.1] at this
        rw [if_pos (by simpa using hv)]
        exact this
    | true =>
      have hcv : s.cmdV = false := by
        simp only [srcAccept, Bool.and_eq_true, Bool.not_eq_true'] at ha
        exact (h.ready ha.1.2).1
      obtain ⟨-, -, -, -, -, a6, a7, a8, a9, a10, a11⟩ := srcRead_accept c s i ha
      rw [a6, a7, a8, a9, a10, a11, hcv]
      refine ⟨srcDescOf c i, by simp, fun _ => ⟨rfl, ?_⟩⟩
      rw [descPlan_eq]; rfl
  obtain ⟨d, hd1, hd2⟩ := hcmd
  cases hs : s.sending with
  | false =>
    obtain ⟨e1, e2, -, e4, e5, -, e7, e8, e9⟩ := srcStep_idle c s i hr hs
    have hl : srcLoad s = s.cmdV := by simp [srcLoad, hs]
    refine ⟨[], (if s.cmdV then [d1] else []) ++ (if (srcStep c s i).cmdV then [d] else []), ?_, by simp [e9],
      d1, d, by rw [e1], ?_, hd2, by rw [e9]; simp⟩
    · rw [hrest, hs, ← hd1, hl]
      cases s.cmdV <;> simp
    · rw [e1, e8]
      intro hv
      refine ⟨(hs1 hv).1, ?_⟩
      have hp : sendPlan c (srcStep c s i) = cmdPlan c s := by
        unfold sendPlan cmdPlan; rw [e1, e2, e4, e5, e7]
      rw [hp, (hs1 hv).2]
      exact List.suffix_refl _
  | true =>
    have hl : srcLoad s = false := by simp [srcLoad, hs]
    rw [hl] at hd1
    simp only [Bool.false_eq_true, if_false] at hd1
    cases hm : srcMove c s i with
    | false =>
      obtain ⟨e1, e2, -, e4, e5, -, e7, e8, e9⟩ := srcStep_wait c s i hr hs hm
      obtain ⟨g1, g2, -, g4, g5, -, g7, g8⟩ := srcReadStep_same c s i
      refine ⟨[], [d0] ++ (if (srcStep c s i).cmdV then [d] else []), ?_, by simp [e9],
        d0, d, by rw [e1, g1, hs]; rfl, ?_, hd2, by rw [e9]; simp⟩
      · rw [hrest, hs, ← hd1]; simp
      · intro _
        rw [e8, g8]
        refine ⟨(hs0 hs).1, ?_⟩
        have hp : sendPlan c (srcStep c s i) = sendPlan c s := by
          unfold sendPlan; rw [e1, e2, e4, e5, e7, g1, g2, g4, g5, g7]
        rw [hp]; exact (hs0 hs).2
    | true =>
      obtain ⟨e1, e2, -, e4, e5, -, e7, e8, e9⟩ := srcStep_move c s i hr hm
      have hp : sendPlan c s = movePlan s :: sendPlan c (srcStep c s i) := by
        unfold sendPlan
        rw [e1, e2, e4, e5, e7, k4, k7, hs, h.lastC hs, planFrom_cons]
        simp only [if_true, movePlan, h.lastC hs]
        congr 1
        by_cases h0 : s.count = 0
        · simp [h0]
        · simp [h0, count_dec (h.count hs) h0]
      have hsuf : sendPlan c (srcStep c s i) <:+ descPlan c d0 :=
        List.IsSuffix.trans (by rw [hp]; exact List.suffix_cons _ _) (hs0 hs).2
      cases hlc : s.lastC with
      | false =>
        rw [hlc] at e1 e9
        refine ⟨[], [d0] ++ (if (srcStep c s i).cmdV then [d] else []), ?_, by simp [e9],
          d0, d, by rw [e1]; rfl, ?_, hd2, by rw [e9]; simp⟩
        · rw [hrest, hs, ← hd1]; simp
        · intro _
          rw [e8, k8]
          exact ⟨(hs0 hs).1, hsuf⟩
      | true =>
        rw [hlc] at e1 e9
        refine ⟨[d0], (if (srcStep c s i).cmdV then [d] else []), ?_, by simp [e9, e8, k8, (hs0 hs).1],
          d0, d, by rw [e1]; rfl, by rw [e1]; simp, hd2, by rw [e1]; simp⟩
        rw [hrest, hs, ← hd1]; simp

/-! ### Histories -/

theorem list_flow {α β : Type} (f : α → β) {Q Q' D S X : List β} {P P' M A T : List α}
    (hq : D ++ Q' = Q ++ M.map f) (hp : P ++ A = M ++ P') (ho : Q' ++ P'.map f ++ T.map f = S ++ X) :
    Q ++ P.map f ++ (A ++ T).map f = D ++ S ++ X := by
  calc Q ++ P.map f ++ (A ++ T).map f = Q ++ (P ++ A).map f ++ T.map f := by simp
    _ = (Q ++ M.map f) ++ P'.map f ++ T.map f := by rw [hp]; simp
    _ = D ++ (Q' ++ P'.map f ++ T.map f) := by rw [← hq]; simp
    _ = D ++ S ++ X := by rw [ho]; simp

theorem srcRun_inv {c : SrcCfg} (hc : SrcCfgOk c) (mem : Nat → UInt8) (is : List SrcIn) :
    ∀ (s : Src) (pend : Nat → List Nat) (G : List Nat) (rest : List SrcDesc),
    SrcInv c s pend G → SrcRest c s rest → (∀ i ∈ is, i.rst = false) → SrcRamOk c mem pend s is →
    (∃ G', SrcInv c (srcRun c s is) (srcPendRun c pend s is) G') ∧
    outQ 5 s.out ++ (sendPlan c s ++ cmdPlan c s).map (planBeat c mem) ++
      ((srcAccepted c s is).flatMap (descPlan c)).map (planBeat c mem) =
      srcSent c s is ++ (outQ 5 (srcRun c s is).out ++
        (sendPlan c (srcRun c s is) ++ cmdPlan c (srcRun c s is)).map (planBeat c mem)) ∧
    ∃ fin rest', rest ++ srcAccepted c s is = fin ++ rest' ∧ SrcRest c (srcRun c s is) rest' ∧
      (if s.stV then [s.stTag] else []) ++ fin.map (·.tag) =
        srcStatus c s is ++ (if (srcRun c s is).stV then [(srcRun c s is).stTag] else []) := by
  induction is with
  | nil =>
    intro s pend G rest h hR _ _
    refine ⟨⟨G, h⟩, ?_, [], rest, ?_, hR, ?_⟩ <;> simp [srcAccepted, srcSent, srcStatus, srcTrace, srcRun] <;> rfl
  | cons i is ih =>
    intro s pend G rest h hR hrst hram
    have hr : i.rst = false := hrst i List.mem_cons_self
    have h' := srcInv_step hc h hr hram.1
    obtain ⟨fin0, rest0, hf0, hf1, hR'⟩ := srcRest_step h hr hR
    obtain ⟨hG, hout, fin, rest', hf2, hR2, hst⟩ :=
      ih _ _ _ rest0 h' hR' (fun j hj => hrst j (List.mem_cons_of_mem _ hj)) hram.2
    have hacc : srcAccepted c s (i :: is) =
        (if srcAccept s i then [srcDescOf c i] else []) ++ srcAccepted c (srcStep c s i) is := by
      unfold srcAccepted
      simp only [srcTrace, List.filterMap_cons, srcAccept_ready h]
      cases srcAccept s i <;> simp
    have hsent : srcSent c s (i :: is) =
        (if s.out.valid && i.tready then [s.out.out] else []) ++ srcSent c (srcStep c s i) is := by
      unfold srcSent
      simp only [srcTrace, List.filterMap_cons]
      cases (s.out.valid && i.tready) <;> simp
    have hstat : srcStatus c s (i :: is) = (if s.stV then [s.stTag] else []) ++ srcStatus c (srcStep c s i) is := by
      unfold srcStatus
      simp only [srcTrace, List.filterMap_cons]
      cases s.stV <;> simp
    refine ⟨hG, ?_, fin0 ++ fin, rest', ?_, hR2, ?_⟩
    · rw [hacc, hsent, List.flatMap_append]
      have hq := (outFifo_step 5 (by omega) s.out (srcMove c s i) (srcBeat c s i) i.tready h.out (by
        intro hm
        simp only [srcMove, Bool.and_eq_true, Bool.not_eq_true'] at hm
        exact hm.2)).2
      have hso : (srcStep c s i).out = outFifoStep 5 false s.out (srcMove c s i) (srcBeat c s i) i.tready := by
        rw [srcStep_out, hr]
      rw [← hso] at hq
      have hmv : (if srcMove c s i then [srcBeat c s i] else []) =
          (if srcMove c s i then [movePlan s] else []).map (planBeat c mem) := by
        cases hm : srcMove c s i with
        | false => rfl
        | true => simp [(move_head hc h hram.1 hm).2]
      rw [hmv] at hq
      have hd : (if srcAccept s i then [srcDescOf c i] else []).flatMap (descPlan c) =
          (if srcAccept s i then descPlan c (srcDescOf c i) else []) := by
        cases srcAccept s i <;> simp
      rw [hd]
      exact list_flow _ hq (sendPlan_step h i hr) hout
    · rw [hacc, ← List.append_assoc, hf0, List.append_assoc, hf2, List.append_assoc]
    · rw [hstat, List.map_append, hf1, hst, List.append_assoc]
      rfl

theorem srcInv_reset {c : SrcCfg} (s : Src) (r : SrcIn) (hr : r.rst = true) :
    SrcInv c (srcStep c s r) (fun _ => []) [] ∧ SrcRest c (srcStep c s r) [] ∧ outQ 5 (srcStep c s r).out = [] ∧
    sendPlan c (srcStep c s r) ++ cmdPlan c (srcStep c s r) = [] ∧ (srcStep c s r).stV = false := by
  have h1 : (srcStep c s r).reading = false ∧ (srcStep c s r).sending = false ∧ (srcStep c s r).cmdV = false ∧
      (srcStep c s r).ready = false ∧ (srcStep c s r).stV = false ∧ (srcStep c s r).ramV = fun _ => false := by
    unfold srcStep
    simp only [hr, if_true, and_self]
  obtain ⟨a1, a2, a3, a4, a5, a6⟩ := h1
  have ho : (srcStep c s r).out = outFifoStep 5 true s.out (srcMove c s r) (srcBeat c s r) r.tready := by
    rw [srcStep_out, hr]
  obtain ⟨o1, o2⟩ := outFifo_rst 5 s.out (srcMove c s r) (srcBeat c s r) r.tready
  refine ⟨⟨by simp [a4], by rw [ho]; exact o1, by simp [a1], by simp [a2], by simp [a2], by simp [a1], by simp [a2],
    by simp [a3], by simp [a2], by simp [a3], by simp [a6], by simp [readPlan, sendPlan, cmdPlan, a1, a2, a3]⟩,
    ⟨⟨0, 0, 0, 0⟩, ⟨0, 0, 0, 0⟩, by simp [a2, a3], by simp [a2], by simp [a3], by simp [a5]⟩, by rw [ho]; exact o2,
    by simp [sendPlan, cmdPlan, a2, a3], a5⟩

/-- What the descriptors on the inputs look like. -/
theorem accepted_desc {c : SrcCfg} {is : List SrcIn} {s : Src} {d : SrcDesc} (hd : d ∈ srcAccepted c s is) :
    ∃ i ∈ is, d = srcDescOf c i := by
  induction is generalizing s with
  | nil => simp [srcAccepted, srcTrace] at hd
  | cons i is ih =>
    simp only [srcAccepted, srcTrace, List.filterMap_cons] at hd
    split at hd
    · obtain ⟨j, hj, e⟩ := ih (s := srcStep c s i) hd
      exact ⟨j, List.mem_cons_of_mem _ hj, e⟩
    · next x hx =>
      rcases List.mem_cons.mp hd with rfl | hd
      · split at hx
        · exact ⟨i, List.mem_cons_self, (Option.some.inj hx).symm⟩
        · cases hx
      · obtain ⟨j, hj, e⟩ := ih (s := srcStep c s i) hd
        exact ⟨j, List.mem_cons_of_mem _ hj, e⟩

theorem plans_packets {c : SrcCfg} (hc : SrcCfgOk c) (mem : Nat → UInt8) (ds : List SrcDesc)
    (h : ∀ d ∈ ds, d.addr < 2 ^ c.ramW ∧ 1 ≤ d.len ∧ d.len < 2 ^ c.lenW) :
    ((ds.flatMap (descPlan c)).map (planBeat c mem)).map (srcWord c.kw) = ds.flatMap (srcPacket c mem) := by
  induction ds with
  | nil => rfl
  | cons d ds ih =>
    obtain ⟨h1, h2, h3⟩ := h d List.mem_cons_self
    rw [List.flatMap_cons, List.flatMap_cons, List.map_append, List.map_append,
      ih (fun x hx => h x (List.mem_cons_of_mem _ hx)), ← descPlan_packet hc mem d h1 h2 h3, List.map_map]
    rfl

theorem plan_off {c : SrcCfg} {off ids n : Nat} {a : Nat} {p : SrcPlan} (h : p ∈ planFrom c off ids a n) : p.off = off := by
  induction n generalizing a with
  | zero => simp [planFrom] at h; rw [h]
  | succ n ih =>
    rcases List.mem_cons.mp h with rfl | h
    · rfl
    · exact ih h

/-- The addresses of the words for a descriptor are in its range. -/
theorem descPlan_addr {c : SrcCfg} (hc : SrcCfgOk c) {d : SrcDesc} (ha : d.addr < 2 ^ c.ramW)
    (h1 : 1 ≤ d.len) (h2 : d.len < 2 ^ c.lenW) {p : SrcPlan} (hp : p ∈ descPlan c d) :
    ∃ n < d.len, p.addr = (d.addr - d.addr % c.kw + n) % 2 ^ c.ramW := by
  unfold descPlan at hp
  rw [count_len hc h1 h2, planFrom_range _ _ _ (srcAlign_lt c d.addr)] at hp
  obtain ⟨j, hj, rfl⟩ := List.mem_map.mp hp
  have hj := List.mem_range.mp hj
  have halign : d.addr - d.addr % c.kw = srcAlign c d.addr := by
    unfold srcAlign
    rw [Nat.mod_eq_of_lt ha]
    have := Nat.div_add_mod d.addr c.kw
    rw [Nat.mul_comm] at this; omega
  refine ⟨j * c.kw, ?_, by rw [halign]⟩
  have : j * c.kw ≤ (d.len - 1) / c.kw * c.kw := Nat.mul_le_mul_right _ (by omega)
  have := Nat.div_mul_le_self (d.len - 1) c.kw
  omega

end Verif.Proofs
