import Verif.Proofs.DrdBeat
import Verif.Proofs.Ring
import Verif.Proofs.Tags
import Verif.Basic.Clog2
/-! Initialisation and tags of the PCIe DMA read interface. -/
namespace Verif.Proofs
open Verif Verif.Model Verif.Spec

/-! ### Lists -/

theorem ringMove_list {α : Type} {aw : Nat} {r : Ring α} (h : RingOk aw r) {we rd : Bool} {x : α}
    (hw : we = true → ringCount aw r < 2 ^ aw) (hr : rd = true → 0 < ringCount aw r) :
    RingOk aw (ringMove aw r we x rd) ∧
    (if rd then [ringHead aw r] else []) ++ ringList aw (ringMove aw r we x rd) = ringList aw r ++ (if we then [x] else []) := by
  unfold ringMove
  cases we with
  | false =>
    cases rd with
    | false => exact ⟨h, by simp⟩
    | true =>
      obtain ⟨p1, _, p3⟩ := ring_pop aw r h (hr rfl)
      refine ⟨p1, ?_⟩
      simp only [if_true, Bool.false_eq_true, if_false, List.append_nil]
      exact p3.symm
  | true =>
    obtain ⟨q1, q2, q3⟩ := ring_push aw r x h (hw rfl)
    cases rd with
    | false => exact ⟨q1, by simp [q3]⟩
    | true =>
      have hr := hr rfl
      obtain ⟨p1, _, p3⟩ := ring_pop aw r h hr
      obtain ⟨s1, _, s3⟩ := ring_pop aw (ringPush aw r x) q1 (by omega)
      refine ⟨s1, ?_⟩
      simp only [if_true]
      rw [q3, p3, List.cons_append] at s3
      injection s3 with s3 s4
      rw [p3, List.cons_append, List.cons_append, ← s4]; rfl

theorem ringMove_count {aw : Nat} {r : Ring Nat} (h : RingOk aw r) {we rd : Bool} {x : Nat}
    (hw : we = true → ringCount aw r < 2 ^ aw) (hr : rd = true → 0 < ringCount aw r) (t : Nat) :
    (rd && ringHead aw r == t).toNat + (ringList aw (ringMove aw r we x rd)).count t =
      (ringList aw r).count t + (we && x == t).toNat := by
  have := congrArg (List.count t) (ringMove_list (x := x) h hw hr).2
  rw [List.count_append, List.count_append] at this
  have e : ∀ a : Nat, List.count t [a] = (a == t).toNat := fun a => by
    rw [List.count_cons, List.count_nil]; cases a == t <;> rfl
  cases we <;> cases rd <;>
    simp only [if_true, Bool.false_eq_true, if_false, e, List.count_nil, Bool.true_and, Bool.false_and, Bool.toNat_false] at this ⊢ <;>
    omega

theorem ringMove_mem {α : Type} {aw : Nat} {r : Ring α} (h : RingOk aw r) {we rd : Bool} {x : α}
    (hw : we = true → ringCount aw r < 2 ^ aw) (hr : rd = true → 0 < ringCount aw r) {y : α}
    (hy : y ∈ ringList aw (ringMove aw r we x rd)) : y ∈ ringList aw r ∨ (we = true ∧ y = x) := by
  have e := (ringMove_list (x := x) h hw hr).2
  have : y ∈ ringList aw r ++ (if we then [x] else []) := by rw [← e]; simp [hy]
  rw [List.mem_append] at this
  rcases this with h | h
  · exact .inl h
  · right; cases we <;> simp at h; exact ⟨rfl, h⟩

/-- A list of different numbers of an interval, without one of them. -/
theorem count_length_lt {l : List Nat} {a n x : Nat} (h1 : ∀ y ∈ l, a ≤ y ∧ y < n) (h2 : ∀ t, l.count t ≤ 1)
    (hx : a ≤ x ∧ x < n) (hn : x ∉ l) : l.length < n - a := by
  have hnd : (x :: l).Nodup := by
    rw [List.nodup_cons]
    exact ⟨hn, List.nodup_iff_count.2 h2⟩
  have hsub : ∀ y ∈ x :: l, y ∈ (List.range (n - a)).map (a + ·) := by
    intro y hy
    have hy : a ≤ y ∧ y < n := by
      rcases List.mem_cons.1 hy with h | h
      · rw [h]; exact hx
      · exact h1 y h
    exact List.mem_map.2 ⟨y - a, List.mem_range.2 (by omega), by omega⟩
  have := nodup_length_le _ _ hnd hsub
  simp at this
  omega

/-! ### Initialisation -/

/-- The initialisation counter. -/
structure InitOk (c : DrdCfg) (n : DrdInit) : Prop where
  busy : n.done = false → n.tag = decide (n.count < 2 ^ c.tagW) ∧ n.op = decide (n.count < 2 ^ c.opW) ∧ n.count < 2 ^ c.initW
  fin : n.done = true → n.tag = false ∧ n.op = false

/-- The number of tags that are initialised. -/
def tagN (c : DrdCfg) (n : DrdInit) : Nat := if n.tag then n.count else 2 ^ c.tagW

/-- The number of operation tags that are initialised. -/
def opN (c : DrdCfg) (n : DrdInit) : Nat := if n.op then n.count else 2 ^ c.opW

theorem init_step {c : DrdCfg} {n : DrdInit} (h : InitOk c n) :
    InitOk c (drdInitStep c n) ∧ tagN c (drdInitStep c n) = tagN c n + n.tag.toNat ∧
    opN c (drdInitStep c n) = opN c n + n.op.toNat ∧
    ((drdInitStep c n).done = false → n.done = false) ∧
    (n.tag = true → n.done = false ∧ n.count < 2 ^ c.tagW) ∧ (n.op = true → n.done = false ∧ n.count < 2 ^ c.opW) ∧
    ((drdInitStep c n).tag = true → n.tag = true) ∧ ((drdInitStep c n).op = true → n.op = true) := by
  have hT : 2 ^ c.tagW ≤ 2 ^ c.initW := Nat.pow_le_pow_right (by omega) (by unfold DrdCfg.initW; split <;> omega)
  have hO : 2 ^ c.opW ≤ 2 ^ c.initW := Nat.pow_le_pow_right (by omega) (by unfold DrdCfg.initW; split <;> omega)
  cases hd : n.done with
  | true =>
    obtain ⟨h1, h2⟩ := h.fin hd
    have e : drdInitStep c n = n := by unfold drdInitStep; simp [hd]
    rw [e, h1, h2]
    exact ⟨h, rfl, rfl, by simp [hd], by simp, by simp, by simp, by simp⟩
  | false =>
    obtain ⟨h1, h2, h3⟩ := h.busy hd
    have e : drdInitStep c n =
      { count := (n.count + 1) % 2 ^ c.initW
        done := (n.count + 1) / 2 ^ c.initW % 2 == 1
        tag := decide (n.count + 1 < 2 ^ c.tagW)
        op := decide (n.count + 1 < 2 ^ c.opW) } := by unfold drdInitStep; simp [hd]
    have hdone : (drdInitStep c n).done = decide (n.count + 1 = 2 ^ c.initW) := by
      rw [e]
      simp only
      by_cases hl : n.count + 1 = 2 ^ c.initW
      · rw [hl, Nat.div_self (by omega)]; simp
      · rw [Nat.div_eq_of_lt (by omega)]; simp [hl]
    have hcnt : n.count + 1 < 2 ^ c.initW → (drdInitStep c n).count = n.count + 1 := by
      intro hl; rw [e]; exact Nat.mod_eq_of_lt hl
    have htag : (drdInitStep c n).tag = decide (n.count + 1 < 2 ^ c.tagW) := by rw [e]
    have hop : (drdInitStep c n).op = decide (n.count + 1 < 2 ^ c.opW) := by rw [e]
    generalize drdInitStep c n = n' at *
    clear e
    refine ⟨⟨?_, ?_⟩, ?_, ?_, fun _ => rfl, ?_, ?_, ?_, ?_⟩
    · intro h'
      rw [hdone] at h'
      simp only [decide_eq_false_iff_not] at h'
      have := hcnt (by omega)
      rw [this, htag, hop]
      exact ⟨rfl, rfl, by omega⟩
    · intro h'
      rw [hdone] at h'
      simp only [decide_eq_true_eq] at h'
      rw [htag, hop]
      exact ⟨by rw [decide_eq_false_iff_not]; omega, by rw [decide_eq_false_iff_not]; omega⟩
    · unfold tagN
      rw [htag, h1]
      by_cases ha : n.count + 1 < 2 ^ c.tagW
      · rw [hcnt (by omega)]; simp [ha, show n.count < 2 ^ c.tagW by omega]
      · by_cases hb : n.count < 2 ^ c.tagW
        · simp [ha, hb]; omega
        · simp [ha, hb]
    · unfold opN
      rw [hop, h2]
      by_cases ha : n.count + 1 < 2 ^ c.opW
      · rw [hcnt (by omega)]; simp [ha, show n.count < 2 ^ c.opW by omega]
      · by_cases hb : n.count < 2 ^ c.opW
        · simp [ha, hb]; omega
        · simp [ha, hb]
    · intro h'; rw [h1] at h'; exact ⟨rfl, of_decide_eq_true h'⟩
    · intro h'; rw [h2] at h'; exact ⟨rfl, of_decide_eq_true h'⟩
    · intro h'; rw [htag] at h'; rw [h1]; simp only [decide_eq_true_eq] at h' ⊢; omega
    · intro h'; rw [hop] at h'; rw [h2]; simp only [decide_eq_true_eq] at h' ⊢; omega

/-- During initialisation nothing is started. -/
structure DrdQuiet (s : Drd) : Prop where
  start : s.req.start = false
  ready : s.req.ready = false
  rx : s.rx.ready = false
  fin : s.rx.finish = false
  en : s.startEn = false

theorem quiet_step {c : DrdCfg} {s : Drd} {i : DrdIn} (h : DrdQuiet s) (hd : s.init.done = false) :
    DrdQuiet (drdNext c s i) ∧ drdIssue c s i = false ∧ drdTransfer s i = false := by
  have hi : drdIssue c s i = false := by unfold drdIssue; simp [h.start]
  have ha : drdAccept s i = false := by unfold drdAccept; simp [h.ready]
  have ht : drdBeat s i = false := by unfold drdBeat; simp [h.rx]
  have hh : drdHead s i = false := by unfold drdHead; simp [ht]
  have hsp : drdSpace c s = false := by unfold drdSpace; simp [hd]
  have hreq : (drdNext c s i).req = { s.req with ready := false } := by
    show drdReqStep c s i = _
    unfold drdReqStep
    simp [h.start, ha, hd]
  have hrx : (drdNext c s i).rx = { drdRxIdle s.rx i with ready := false } := by
    show drdRxStep c s i = _
    unfold drdRxStep
    cases s.rx.st <;> simp [hh, ht, hsp, hd]
  refine ⟨⟨?_, ?_, ?_, ?_, hi⟩, hi, ht⟩
  · rw [hreq]; exact h.start
  · rw [hreq]
  · rw [hrx]
  · rw [hrx]; rfl

/-! ### Tags -/

/-- Each tag that is initialised is in one place. -/
structure TagOk (c : DrdCfg) (s : Drd) (out : List RdReq) : Prop where
  r1 : RingOk c.tagW1 s.fifo1
  r2 : RingOk c.tagW2 s.fifo2
  lt1 : ∀ x ∈ ringList c.tagW1 s.fifo1, x < 2 ^ c.tagW1
  ge2 : ∀ x ∈ ringList c.tagW2 s.fifo2, 2 ^ c.tagW1 ≤ x
  cnt : ∀ t, (ringList c.tagW1 s.fifo1).count t + (ringList c.tagW2 s.fifo2).count t + (s.tagV && s.tag == t).toNat +
    (out.map (·.tag)).count t + (s.rx.finish && s.rx.tag == t).toNat = if t < tagN c s.init then 1 else 0

theorem tagN_le {c : DrdCfg} {n : DrdInit} (h : InitOk c n) : tagN c n ≤ 2 ^ c.tagW := by
  unfold tagN
  split
  · have := (init_step h).2.2.2.2.1 (by assumption); omega
  · omega

theorem tagW1_le {c : DrdCfg} : c.tagW1 ≤ c.tagW := by unfold DrdCfg.tagW1; split <;> omega

theorem tagW1_eq {c : DrdCfg} (h : c.tagCount2 = 0) : c.tagW1 = c.tagW := by
  unfold DrdCfg.tagCount2 at h
  unfold DrdCfg.tagW1
  split
  · rename_i h5
    rw [if_pos h5] at h
    have : 2 ^ 6 ≤ 2 ^ c.tagW := Nat.pow_le_pow_right (by omega) h5
    simp only [Nat.reducePow] at this; omega
  · rfl

theorem tagW2_cap {c : DrdCfg} (h : c.tagCount2 ≠ 0) : 2 ^ c.tagW - 2 ^ c.tagW1 ≤ 2 ^ c.tagW2 := by
  have := le_two_pow_clog2 c.tagCount2
  unfold DrdCfg.tagW2
  have e : 2 ^ c.tagW - 2 ^ c.tagW1 = c.tagCount2 := by
    unfold DrdCfg.tagCount2 at h ⊢
    unfold DrdCfg.tagW1
    split <;> simp_all
  omega

/-- How the tag FIFOs and the tag register change in a cycle. -/
theorem tag_flow {c : DrdCfg} {s : Drd} {i : DrdIn} {out out1 : List RdReq} (hi : InitOk c s.init)
    (hq : s.init.done = false → DrdQuiet s) (h : TagOk c s out)
    (hout : ∀ t, (out1.map (·.tag)).count t + ((drdNext c s i).rx.finish && (drdNext c s i).rx.tag == t).toNat =
      (out.map (·.tag)).count t + (drdIssue c s i && s.tag == t).toNat) : TagOk c (drdNext c s i) out1 := by
  obtain ⟨_, iN, _, _, it, _⟩ := init_step hi
  have hNle := tagN_le hi
  have hcnt := h.cnt
  -- the tag that is written
  have hwt : drdTagWe s = true → drdTagWr c s < 2 ^ c.tagW ∧
      (ringList c.tagW1 s.fifo1).count (drdTagWr c s) = 0 ∧ (ringList c.tagW2 s.fifo2).count (drdTagWr c s) = 0 := by
    intro hwe
    by_cases hT : s.init.tag = true
    · have hlt := (it hT).2
      have e : drdTagWr c s = s.init.count := by unfold drdTagWr; rw [if_pos hT, Nat.mod_eq_of_lt hlt]
      rw [e]
      have := hcnt s.init.count
      rw [if_neg (by unfold tagN; rw [if_pos hT]; omega)] at this
      omega
    · have hf : s.rx.finish = true := by
        unfold drdTagWe at hwe; simp only [hT, Bool.false_or] at hwe; simpa using hwe
      have e : drdTagWr c s = s.rx.tag := by unfold drdTagWr; rw [if_neg hT]
      rw [e]
      have := hcnt s.rx.tag
      rw [hf] at this
      simp only [Bool.true_and, beq_self_eq_true, Bool.toNat_true] at this
      split at this <;> omega
  have hlow : drdTagWe s = true → drdTagLow c s = true → drdTagWr c s < 2 ^ c.tagW1 := by
    intro hwe hl
    unfold drdTagLow at hl
    simp only [Bool.or_eq_true, decide_eq_true_eq, beq_iff_eq] at hl
    rcases hl with hl | hl
    · exact hl
    · rw [tagW1_eq hl]; exact (hwt hwe).1
  have hhigh : drdTagLow c s = false → 2 ^ c.tagW1 ≤ drdTagWr c s ∧ c.tagCount2 ≠ 0 := by
    intro hl
    unfold drdTagLow at hl
    simp only [Bool.or_eq_false_iff, decide_eq_false_iff_not, beq_eq_false_iff_ne] at hl
    exact ⟨by omega, hl.2⟩
  have hle1 : ∀ t, (ringList c.tagW1 s.fifo1).count t ≤ 1 := fun t => by
    have := hcnt t; split at this <;> omega
  have hle2 : ∀ t, (ringList c.tagW2 s.fifo2).count t ≤ 1 := fun t => by
    have := hcnt t; split at this <;> omega
  have hw1 : (drdTagWe s && drdTagLow c s) = true → ringCount c.tagW1 s.fifo1 < 2 ^ c.tagW1 := by
    intro h'
    simp only [Bool.and_eq_true] at h'
    have := count_length_lt (l := ringList c.tagW1 s.fifo1) (a := 0) (n := 2 ^ c.tagW1) (x := drdTagWr c s)
      (fun y hy => ⟨by omega, h.lt1 y hy⟩) hle1 ⟨by omega, hlow h'.1 h'.2⟩ (List.count_eq_zero.1 (hwt h'.1).2.1)
    rw [ringList_length] at this; omega
  have hw2 : (drdTagWe s && !drdTagLow c s) = true → ringCount c.tagW2 s.fifo2 < 2 ^ c.tagW2 := by
    intro h'
    simp only [Bool.and_eq_true, Bool.not_eq_true'] at h'
    obtain ⟨g1, g2⟩ := hhigh h'.2
    have := count_length_lt (l := ringList c.tagW2 s.fifo2) (a := 2 ^ c.tagW1) (n := 2 ^ c.tagW) (x := drdTagWr c s)
      (fun y hy => ⟨h.ge2 y hy, by
        have h1 := hcnt y
        have h2 := List.count_pos_iff.2 hy
        split at h1 <;> omega⟩) hle2 ⟨g1, (hwt h'.1).1⟩ (List.count_eq_zero.1 (hwt h'.1).2.2)
    have hcap := tagW2_cap g2
    rw [ringList_length] at this; omega
  have hrd1 : drdTagRd1 c s i = true → 0 < ringCount c.tagW1 s.fifo1 := by
    intro h'
    unfold drdTagRd1 at h'
    rw [ring_empty c.tagW1 s.fifo1 h.r1] at h'
    simp only [Bool.and_eq_true, Bool.not_eq_true', decide_eq_false_iff_not] at h'
    omega
  have hrd2 : drdTagRd2 c s i = true → 0 < ringCount c.tagW2 s.fifo2 := by
    intro h'
    unfold drdTagRd2 at h'
    rw [ring_empty c.tagW2 s.fifo2 h.r2] at h'
    simp only [Bool.and_eq_true, Bool.not_eq_true', decide_eq_false_iff_not] at h'
    omega
  have hF1 : (drdNext c s i).fifo1 =
      ringMove c.tagW1 s.fifo1 (drdTagWe s && drdTagLow c s) (drdTagWr c s % 2 ^ c.tagW1) (drdTagRd1 c s i) := rfl
  have hF2 : (drdNext c s i).fifo2 =
      ringMove c.tagW2 s.fifo2 (drdTagWe s && !drdTagLow c s) (drdTagWr c s) (drdTagRd2 c s i) := rfl
  have hI : (drdNext c s i).init = drdInitStep c s.init := rfl
  have hTV : (drdNext c s i).tagV = (drdTagRd1 c s i || drdTagRd2 c s i || (s.tagV && !drdIssue c s i)) := rfl
  have hTg : (drdNext c s i).tag = if drdTagRd1 c s i then ringHead c.tagW1 s.fifo1 else if drdTagRd2 c s i then
      ringHead c.tagW2 s.fifo2 else s.tag := rfl
  refine ⟨?_, ?_, ?_, ?_, fun t => ?_⟩
  · rw [hF1]; exact (ringMove_list h.r1 hw1 hrd1).1
  · rw [hF2]; exact (ringMove_list h.r2 hw2 hrd2).1
  · rw [hF1]; intro x hx
    rcases ringMove_mem h.r1 hw1 hrd1 hx with h' | ⟨_, h'⟩
    · exact h.lt1 x h'
    · rw [h']; exact Nat.mod_lt _ (Nat.two_pow_pos _)
  · rw [hF2]; intro x hx
    rcases ringMove_mem h.r2 hw2 hrd2 hx with h' | ⟨h2, h'⟩
    · exact h.ge2 x h'
    · simp only [Bool.and_eq_true, Bool.not_eq_true'] at h2
      rw [h']; exact (hhigh h2.2).1
  · have c1 := ringMove_count h.r1 hw1 hrd1 (x := drdTagWr c s % 2 ^ c.tagW1) t
    have c2 := ringMove_count h.r2 hw2 hrd2 (x := drdTagWr c s) t
    rw [← hF1] at c1
    rw [← hF2] at c2
    have c3 := hcnt t
    have c4 := hout t
    -- the tag register
    have hissue : drdIssue c s i = true → s.tagV = true := by
      intro h'; unfold drdIssue at h'; simp only [Bool.and_eq_true] at h'; exact h'.1.1.1.2
    have hneed : (drdTagRd1 c s i || drdTagRd2 c s i) = true → (!s.tagV || drdIssue c s i) = true := by
      unfold drdTagRd1 drdTagRd2 drdTagNeed; grind
    have hexcl : drdTagRd1 c s i = true → drdTagRd2 c s i = false := by
      unfold drdTagRd1 drdTagRd2; grind
    have c5 : ((drdNext c s i).tagV && (drdNext c s i).tag == t).toNat + (drdIssue c s i && s.tag == t).toNat =
        (drdTagRd1 c s i && ringHead c.tagW1 s.fifo1 == t).toNat + (drdTagRd2 c s i && ringHead c.tagW2 s.fifo2 == t).toNat +
          (s.tagV && s.tag == t).toNat := by
      rw [hTV, hTg]
      generalize drdTagRd1 c s i = a1 at *
      generalize drdTagRd2 c s i = a2 at *
      generalize drdIssue c s i = a3 at *
      generalize s.tagV = a4 at *
      cases a1 <;> cases a2 <;> cases a3 <;> cases a4 <;> simp at hissue hneed hexcl ⊢
    -- the tag that is written
    have c6 : (drdTagWe s && drdTagLow c s && drdTagWr c s % 2 ^ c.tagW1 == t).toNat +
        (drdTagWe s && !drdTagLow c s && drdTagWr c s == t).toNat =
        (s.rx.finish && s.rx.tag == t).toNat + (s.init.tag && s.init.count == t).toNat := by
      have e : (drdTagWe s && drdTagLow c s && drdTagWr c s % 2 ^ c.tagW1 == t) =
          (drdTagWe s && drdTagLow c s && drdTagWr c s == t) := by
        by_cases hh : drdTagWe s = true ∧ drdTagLow c s = true
        · rw [Nat.mod_eq_of_lt (hlow hh.1 hh.2)]
        · cases h1 : drdTagWe s <;> cases h2 : drdTagLow c s <;> simp [h1, h2] at hh ⊢
      rw [e]
      have e2 : (drdTagWe s && drdTagLow c s && drdTagWr c s == t).toNat +
          (drdTagWe s && !drdTagLow c s && drdTagWr c s == t).toNat = (drdTagWe s && drdTagWr c s == t).toNat := by
        cases drdTagWe s <;> cases drdTagLow c s <;> simp
      rw [e2]
      unfold drdTagWe drdTagWr
      by_cases hT : s.init.tag = true
      · have hlt := (it hT).2
        have hfin := (hq (it hT).1).fin
        rw [hfin, hT, if_pos rfl, Nat.mod_eq_of_lt hlt]
        simp
      · simp only [hT, Bool.false_or, Bool.false_and]
        simp
    rw [hI, iN]
    have c7 : (if t < tagN c s.init + s.init.tag.toNat then 1 else 0) =
        (if t < tagN c s.init then 1 else 0) + (s.init.tag && s.init.count == t).toNat := by
      by_cases hT : s.init.tag = true
      · have : tagN c s.init = s.init.count := by unfold tagN; rw [if_pos hT]
        rw [this, hT]
        simp only [Bool.toNat_true, Bool.true_and]
        by_cases h1 : t < s.init.count
        · rw [if_pos (by omega), if_pos h1]
          have : (s.init.count == t) = false := by rw [beq_eq_false_iff_ne]; omega
          rw [this]; rfl
        · by_cases h2 : s.init.count = t
          · rw [if_pos (by omega), if_neg h1]; simp [h2]
          · rw [if_neg (by omega), if_neg h1]
            have : (s.init.count == t) = false := by simpa using h2
            rw [this]; rfl
      · simp [hT]
    rw [c7, ← c3]
    omega

end Verif.Proofs
