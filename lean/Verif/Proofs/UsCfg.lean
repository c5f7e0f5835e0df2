import Verif.Spec.UsCfg
/-! Lemmas on the configuration reader for the UltraScale core. -/
namespace Verif.Proofs
open Verif Verif.Model Verif.Spec

theorem ucLatest_append (c : UcCfg) (f : Nat) (rs : List UcRead) (r : UcRead) :
    ucLatest c f (rs ++ [r]) = if r.fn = ucNum c f then r.data else ucLatest c f rs := by
  unfold ucLatest
  rw [List.filter_append]
  by_cases h : r.fn = ucNum c f
  · simp [h]
  · simp [h]

theorem ucNum_inj (c : UcCfg) (hc : UcOk c) (f g : Nat) (hf : f < c.fcount) (hg : g < c.fcount) (h : ucNum c f = ucNum c g) :
    f = g := by
  unfold ucNum UcCfg.fcount UcOk at *
  obtain ⟨h1, h2, h3⟩ := hc
  by_cases hv : 0 < c.vf
  · have := h3 hv
    split at h <;> split at h <;> omega
  · split at h <;> split at h <;> omega

theorem ucOk_le (c : UcCfg) (hc : UcOk c) : 0 < c.fcount ∧ c.fcount ≤ 256 := by
  unfold UcCfg.fcount UcOk at *
  obtain ⟨h1, h2, h3⟩ := hc
  by_cases hv : 0 < c.vf
  · have := h3 hv; omega
  · omega

/-- The function after `f`. -/
def ucSucc (c : UcCfg) (f : Nat) : Nat := if f = c.fcount - 1 then 0 else f + 1

theorem ucNum_succ (c : UcCfg) (hc : UcOk c) (f : Nat) (hf : f < c.fcount) :
    (if f = c.fcount - 1 then 0 else if f = c.pf - 1 then c.vfOffset % 256 else (ucNum c f + 1) % 256) = ucNum c (ucSucc c f) := by
  unfold ucNum ucSucc UcCfg.fcount UcOk at *
  obtain ⟨h1, h2, h3⟩ := hc
  by_cases hv : 0 < c.vf
  · have := h3 hv
    by_cases e1 : f = c.pf + c.vf - 1
    · simp [e1, h1]
    · rw [if_neg e1, if_neg e1]
      by_cases e2 : f = c.pf - 1
      · rw [if_pos e2, if_neg (by omega), Nat.mod_eq_of_lt (by omega)]; omega
      · rw [if_neg e2]
        by_cases e3 : f < c.pf
        · rw [if_pos e3, if_pos (by omega), Nat.mod_eq_of_lt (by omega)]
        · rw [if_neg e3, if_neg (by omega), Nat.mod_eq_of_lt (by omega)]; omega
  · by_cases e1 : f = c.pf + c.vf - 1
    · simp [e1, h1]
    · rw [if_neg e1, if_neg e1]
      rw [if_neg (by omega), if_pos (by omega), if_pos (by omega), Nat.mod_eq_of_lt (by omega)]

/-- The state after reads `rs`; `b` says whether the read under way is finished. -/
structure UcInv (c : UcCfg) (s : Uc) (b : Bool) (rs : List UcRead) : Prop where
  delay : s.delay ≤ 255
  cnt : s.cnt < c.fcount
  fn : s.fn = ucNum c s.cnt
  write : s.write = false
  idle : 0 < s.delay → s.read = false
  addr : s.read = true → s.addr = ucAddr c
  late : s.delay < 255 → s.done = true → s.delay = 0 ∧ s.read = true
  fin : s.read = true → b = s.done
  out : ∃ rs', rs = (if ucFin s then rs' ++ [⟨s.fn, ucAddr c, s.data⟩] else rs') ∧ ∀ f < c.fcount,
    s.ext f = (ucLatest c f rs').testBit 8 ∧ s.mrrs f = (ucLatest c f rs' >>> 12) % 8 ∧ s.mps f = (ucLatest c f rs' >>> 5) % 8

/-- What one cycle adds to the reads. -/
def ucNew (s : Uc) (b : Bool) (i : UcIn) : List UcRead :=
  if s.read && i.done && !b then [⟨s.fn, s.addr, i.data⟩] else []

theorem ucReads_cons (c : UcCfg) (b : Bool) (s : Uc) (i : UcIn) (is : List UcIn) :
    ucReads c b s (i :: is) = ucNew s b i ++ ucReads c (s.read && (b || i.done)) (ucStep c s i) is := by
  unfold ucNew
  rw [ucReads]
  cases s.read <;> simp

theorem uc_out (c : UcCfg) (hc : UcOk c) (s : Uc) (i : UcIn) (hr : i.rst = false) (b : Bool) (rs : List UcRead)
    (h : UcInv c s b rs) (f : Nat) (hf : f < c.fcount) :
    (ucStep c s i).ext f = (ucLatest c f rs).testBit 8 ∧ (ucStep c s i).mrrs f = (ucLatest c f rs >>> 12) % 8 ∧
      (ucStep c s i).mps f = (ucLatest c f rs >>> 5) % 8 := by
  obtain ⟨rs', e, ho⟩ := h.out
  obtain ⟨o1, o2, o3⟩ := ho f hf
  cases hfin : ucFin s with
  | false =>
    rw [hfin] at e; simp only [Bool.false_eq_true, if_false] at e; subst e
    simp [ucStep, hr, hfin, o1, o2, o3]
  | true =>
    rw [hfin] at e; simp only [if_true] at e; subst e
    rw [ucLatest_append]
    by_cases hfc : f = s.cnt
    · subst hfc
      simp [ucStep, hr, hfin, h.fn]
    · have : s.fn ≠ ucNum c f := by
        intro hx
        rw [h.fn] at hx
        exact hfc (ucNum_inj c hc _ _ h.cnt hf hx).symm
      rw [if_neg this]
      simp [ucStep, hr, hfin, hfc, o1, o2, o3]

theorem ucInv_step (c : UcCfg) (hc : UcOk c) (s : Uc) (i : UcIn) (hr : i.rst = false) (ho : i.done = true → s.read = true)
    (b : Bool) (rs : List UcRead) (h : UcInv c s b rs) :
    UcInv c (ucStep c s i) (s.read && (b || i.done)) (rs ++ ucNew s b i) := by
  have hout := uc_out c hc s i hr b rs h
  have hle := ucOk_le c hc
  have hcnt := h.cnt
  have e1 : (ucStep c s i).cnt = if ucFin s then ucSucc c s.cnt else s.cnt := by
    simp only [ucStep, hr, ucSucc, Bool.false_eq_true, if_false]
    split
    · by_cases e : s.cnt = c.fcount - 1
      · simp [e]
      · rw [if_neg e, if_neg e, Nat.mod_eq_of_lt (by omega)]
    · rfl
  have e2 : (ucStep c s i).fn = if ucFin s then ucNum c (ucSucc c s.cnt) else s.fn := by
    simp only [ucStep, hr, Bool.false_eq_true, if_false, h.fn, ucNum_succ c hc s.cnt h.cnt]
  have e3 : (ucStep c s i).delay = if s.delay = 0 then (if s.done then 255 else 0) else s.delay - 1 := by
    simp [ucStep, hr]
  have e4 : (ucStep c s i).read = if s.delay = 0 then !s.done else s.read && !i.done := by simp [ucStep, hr]
  have e5 : (ucStep c s i).done = i.done := by simp [ucStep, hr]
  have e6 : (ucStep c s i).addr = if s.delay = 0 then ucAddr c else s.addr := by simp [ucStep, hr]
  have e7 : (ucStep c s i).data = i.data := rfl
  have e8 : (ucStep c s i).write = false := by simp [ucStep, hr, h.write]
  have hd := h.delay
  have hid := h.idle
  have hla := h.late
  have had := h.addr
  have hfi := h.fin
  have hfdef : ucFin s = (s.delay == 0 && s.done) := rfl
  refine ⟨?_, ?_, ?_, e8, ?_, ?_, ?_, ?_, ?_⟩
  · rw [e3]; split
    · split <;> omega
    · omega
  · rw [e1]; split
    · unfold ucSucc; split <;> omega
    · exact hcnt
  · rw [e1, e2]; split
    · rfl
    · exact h.fn
  · rw [e3, e4]
    intro hp
    by_cases hz : s.delay = 0
    · rw [if_pos hz] at hp ⊢
      cases hx : s.done with
      | true => rfl
      | false => rw [hx] at hp; simp at hp
    · simp [hz, hid (by omega)]
  · rw [e4, e6]
    intro hp
    by_cases hz : s.delay = 0
    · simp [hz]
    · simp [hz, hid (by omega)] at hp
  · rw [e3, e5, e4]
    intro hl hdn
    have hrd := ho hdn
    have hz : s.delay = 0 := by
      apply Classical.byContradiction
      intro hn
      rw [hid (by omega)] at hrd; cases hrd
    rw [if_pos hz] at hl
    rw [if_pos hz, if_pos hz]
    cases hx : s.done with
    | true => rw [hx] at hl; simp at hl
    | false => simp
  · rw [e4, e5]
    intro hp
    by_cases hz : s.delay = 0
    · rw [if_pos hz] at hp
      have hdf : s.done = false := by simpa using hp
      cases hrd : s.read with
      | false =>
        cases hx : i.done with
        | false => rfl
        | true => rw [ho hx] at hrd; cases hrd
      | true => rw [hfi hrd, hdf]; simp
    · simp [hz, hid (by omega)] at hp
  · refine ⟨rs, ?_, hout⟩
    have hfin : ucFin (ucStep c s i) = (s.read && i.done && !b) := by
      rw [ucFin, e3, e5]
      cases hx : i.done with
      | false => simp
      | true =>
        have hrd := ho hx
        have hz : s.delay = 0 := by
          apply Classical.byContradiction
          intro hn
          rw [hid (by omega)] at hrd; cases hrd
        rw [hfi hrd, if_pos hz, hrd]
        cases s.done <;> simp
    rw [hfin, ucNew]
    cases hx : s.read && i.done && !b with
    | false => simp
    | true =>
      simp only [Bool.and_eq_true, Bool.not_eq_true'] at hx
      obtain ⟨⟨hrd, hdn⟩, hb⟩ := hx
      have hz : s.delay = 0 := by
        apply Classical.byContradiction
        intro hn
        rw [hid (by omega)] at hrd; cases hrd
      have hnf : ucFin s = false := by rw [hfdef, ← hfi hrd, hb]; simp
      rw [hnf] at e2
      simp only [if_true, e2, e7, had hrd, Bool.false_eq_true, if_false]

theorem ucInv_init (c : UcCfg) (hc : UcOk c) (s : Uc) (r : UcIn) (hr : r.rst = true) (b : Bool) : UcInv c (ucStep c s r) b [] := by
  have := ucOk_le c hc
  have hp : 0 < c.pf := hc.1
  refine ⟨?_, ?_, ?_, ?_, ?_, ?_, ?_, ?_, [], ?_, ?_⟩ <;> simp [ucStep, hr, this.1, ucFin, ucLatest, ucNum, hp]

/-- Whether the read under way is finished, after a history. -/
def ucB (c : UcCfg) : Bool → Uc → List UcIn → Bool
  | b, _, [] => b
  | b, s, i :: is => ucB c (s.read && (b || i.done)) (ucStep c s i) is

theorem ucReads_append (c : UcCfg) (b : Bool) (s : Uc) (is js : List UcIn) :
    ucReads c b s (is ++ js) = ucReads c b s is ++ ucReads c (ucB c b s is) (ucRun c s is) js := by
  induction is generalizing b s with
  | nil => rfl
  | cons i is ih => rw [List.cons_append, ucReads_cons, ucReads_cons, ih, List.append_assoc]; rfl

theorem ucInv_run (c : UcCfg) (hc : UcOk c) (is : List UcIn) (hi : ∀ i ∈ is, i.rst = false) (s : Uc) (ho : UcObeys c s is)
    (b : Bool) (rs : List UcRead) (h : UcInv c s b rs) : UcInv c (ucRun c s is) (ucB c b s is) (rs ++ ucReads c b s is) := by
  induction is generalizing s b rs with
  | nil => simpa [ucRun, ucReads, ucB] using h
  | cons i is ih =>
    have := ucInv_step c hc s i (hi i (List.mem_cons_self ..)) ho.1 b rs h
    have h' := ih (fun j hj => hi j (List.mem_cons_of_mem _ hj)) _ ho.2 _ _ this
    rw [ucReads_cons, ← List.append_assoc]; exact h'

theorem uc_append (c : UcCfg) (s : Uc) (is js : List UcIn) (h : UcObeys c s (is ++ js)) :
    UcObeys c s is ∧ UcObeys c (ucRun c s is) js := by
  induction is generalizing s with
  | nil => exact ⟨trivial, h⟩
  | cons i is ih => exact ⟨⟨h.1, (ih _ h.2).1⟩, (ih _ h.2).2⟩

theorem ucRun_append (c : UcCfg) (s : Uc) (is js : List UcIn) : ucRun c s (is ++ js) = ucRun c (ucRun c s is) js := by
  induction is generalizing s with
  | nil => rfl
  | cons i is ih => exact ih _

/-! ### Progress -/

/-- Cycles until the next read is finished, at most. -/
def ucRank (d : Nat) (w : Nat) (s : Uc) : Nat :=
  if s.delay = 0 then (if s.done then d + 259 else if s.read then d - w + 1 else d + 2) else s.delay + d + 2

theorem uc_next (c : UcCfg) (hc : UcOk c) (d : Nat) (is : List UcIn) (hi : ∀ i ∈ is, i.rst = false) (s : Uc) (ho : UcObeys c s is)
    (b : Bool) (rs : List UcRead) (h : UcInv c s b rs) (hf : ucFin s = false) (w : Nat)
    (ha : UcAnswers c d w s is) (hl : ucRank d w s ≤ is.length) :
    ∃ j k x, is = j ++ x :: k ∧ ucReads c b s j = [] ∧ (ucRun c s j).read = true ∧ x.done = true ∧ ucFin (ucRun c s j) = false ∧
      (ucRun c s j).cnt = s.cnt ∧ j.length < ucRank d w s := by
  induction is generalizing s b rs w with
  | nil => exfalso; unfold ucRank at hl; simp only [List.length_nil] at hl; split at hl; split at hl; omega; split at hl <;> omega; omega
  | cons i is ih =>
    have hr := hi i (List.mem_cons_self ..)
    by_cases hx : s.read = true ∧ i.done = true
    · refine ⟨[], is, i, rfl, rfl, hx.1, hx.2, hf, rfl, ?_⟩
      unfold ucRank; simp only [List.length_nil]; split; split; omega; split <;> omega; omega
    · have hdn : i.done = false := by
        cases hdn : i.done with
        | false => rfl
        | true => exact absurd ⟨ho.1 hdn, hdn⟩ hx
      have hs := ucInv_step c hc s i hr ho.1 b rs h
      have e3 : (ucStep c s i).delay = if s.delay = 0 then (if s.done then 255 else 0) else s.delay - 1 := by
        simp [ucStep, hr]
      have e4 : (ucStep c s i).read = if s.delay = 0 then !s.done else s.read && !i.done := by simp [ucStep, hr]
      have e5 : (ucStep c s i).done = false := by simp [ucStep, hr, hdn]
      have hn : ucNew s b i = [] := by simp [ucNew, hdn]
      have e1 : (ucStep c s i).cnt = s.cnt := by simp [ucStep, hr, hf]
      have hrank : ∃ w', UcAnswers c d w' (ucStep c s i) is ∧
          ucRank d w' (ucStep c s i) + 1 ≤ ucRank d w s := by
        have ha' := ha
        rw [UcAnswers, hdn] at ha'
        by_cases hz : s.delay = 0
        · have hdf : s.done = false := by unfold ucFin at hf; simpa [hz] using hf
          cases hrd : s.read with
          | true =>
            simp only [hrd, Bool.not_false, Bool.and_self, if_true] at ha'
            refine ⟨w + 1, ha'.2, ?_⟩
            simp only [ucRank, e3, e4, e5, hz, hdf, hrd]; simp; omega
          | false =>
            simp only [hrd, Bool.false_and, Bool.false_eq_true, if_false] at ha'
            refine ⟨0, ha', ?_⟩
            simp only [ucRank, e3, e4, e5, hz, hdf, hrd]; simp
        · have hrd := h.idle (by omega)
          simp only [hrd, Bool.false_and, Bool.false_eq_true, if_false] at ha'
          refine ⟨0, ha', ?_⟩
          simp only [ucRank, e3, e4, e5, hz, hrd]
          simp
          split <;> omega
      obtain ⟨w', g3, g4⟩ := hrank
      simp only [List.length_cons] at hl
      obtain ⟨j, k, x, q1, q2, q3, q4, q5, q6, q7⟩ := ih (fun j hj => hi j (List.mem_cons_of_mem _ hj)) _ ho.2 _ _ hs
        (by simp [ucFin, e5]) w' g3 (by omega)
      refine ⟨i :: j, k, x, by rw [q1]; rfl, ?_, q3, q4, q5, by rw [← e1]; exact q6, by simp only [List.length_cons]; omega⟩
      rw [ucReads_cons, hn, q2]; rfl

theorem ucAnswers_append (c : UcCfg) (d w : Nat) (s : Uc) (is js : List UcIn) (h : UcAnswers c d w s (is ++ js)) :
    ∃ w', UcAnswers c d w' (ucRun c s is) js := by
  induction is generalizing w s with
  | nil => exact ⟨w, h⟩
  | cons i is ih =>
    rw [List.cons_append, UcAnswers] at h
    split at h
    · exact ih _ _ h.2
    · exact ih _ _ h

/-- The function read next. -/
def ucEff (c : UcCfg) (s : Uc) : Nat := if ucFin s then ucSucc c s.cnt else s.cnt

def ucSuccN (c : UcCfg) : Nat → Nat → Nat
  | 0, f => f
  | n + 1, f => ucSuccN c n (ucSucc c f)

theorem uc_first (c : UcCfg) (hc : UcOk c) (d : Nat) (is : List UcIn) (hi : ∀ i ∈ is, i.rst = false) (s : Uc)
    (ho : UcObeys c s is) (b : Bool) (rs : List UcRead) (h : UcInv c s b rs) (w : Nat) (ha : UcAnswers c d w s is)
    (hl : d + 260 ≤ is.length) : ∃ j k x, is = j ++ x :: k ∧ (ucRun c s j).read = true ∧ x.done = true ∧
      ucFin (ucRun c s j) = false ∧ (ucRun c s j).cnt = ucEff c s ∧ j.length < d + 260 := by
    cases hf : ucFin s with
    | false =>
      have hd := h.delay
      have hrk : ucRank d w s ≤ d + 259 := by unfold ucRank; split; split; omega; split <;> omega; omega
      obtain ⟨j, k, x, q1, -, q3, q4, q5, q6, q7⟩ := uc_next c hc d is hi s ho b rs h hf w ha
        (Nat.le_trans hrk (by omega))
      exact ⟨j, k, x, q1, q3, q4, q5, by rw [q6, ucEff, hf]; rfl, by omega⟩
    | true =>
      cases is with
      | nil => exact absurd hl (by rw [List.length_nil]; omega)
      | cons i is =>
        have hr := hi i (List.mem_cons_self ..)
        have hs := ucInv_step c hc s i hr ho.1 b rs h
        have hf' := hf
        simp only [ucFin, Bool.and_eq_true, beq_iff_eq] at hf'
        have e3 : (ucStep c s i).delay = 255 := by simp [ucStep, hr, hf'.1, hf'.2]
        have e4 : (ucStep c s i).read = false := by simp [ucStep, hr, hf'.1, hf'.2]
        have e1 : (ucStep c s i).cnt = ucEff c s := by
          have hcnt := h.cnt
          have := ucOk_le c hc
          simp only [ucStep, hr, ucEff, hf, ucSucc, Bool.false_eq_true, if_false, if_true]
          by_cases e : s.cnt = c.fcount - 1
          · simp [e]
          · rw [if_neg e, if_neg e, Nat.mod_eq_of_lt (by omega)]
        obtain ⟨w', hw'⟩ := ucAnswers_append c d w s [i] is ha
        rw [List.length_cons] at hl
        obtain ⟨j, k, x, q1, -, q3, q4, q5, q6, q7⟩ := uc_next c hc d is (fun j hj => hi j (List.mem_cons_of_mem _ hj)) _ ho.2
          _ _ hs (by simp [ucFin, e3]) w' hw' (by unfold ucRank; rw [e3]; simp; omega)
        have : ucRank d w' (ucStep c s i) = d + 257 := by unfold ucRank; rw [e3]; simp; omega
        exact ⟨i :: j, k, x, by rw [q1]; rfl, q3, q4, q5, by rw [← e1]; exact q6, by simp only [List.length_cons]; omega⟩

theorem uc_fresh (c : UcCfg) (hc : UcOk c) (d n : Nat) (is : List UcIn) (hi : ∀ i ∈ is, i.rst = false) (s : Uc)
    (ho : UcObeys c s is) (b : Bool) (rs : List UcRead) (h : UcInv c s b rs) (w : Nat) (ha : UcAnswers c d w s is)
    (hl : (n + 1) * (d + 260) ≤ is.length) :
    ∃ r ∈ ucReads c b s is, r.fn = ucNum c (ucSuccN c n (ucEff c s)) ∧ r.addr = ucAddr c := by
  induction n generalizing is s b rs w with
  | zero =>
    obtain ⟨j, k, x, rfl, q3, q4, q5, q6, q7⟩ := uc_first c hc d is hi s ho b rs h w ha
      (by simp only [Nat.add_mul, Nat.one_mul, Nat.zero_mul, Nat.zero_add] at hl; omega)
    have hj := ucInv_run c hc j (fun i hi' => hi i (List.mem_append_left _ hi')) s (uc_append c s j _ ho).1 b rs h
    have hb : ucB c b s j = false := by
      rw [hj.fin q3]
      have hz : (ucRun c s j).delay = 0 := by
        apply Classical.byContradiction
        intro hn
        have := hj.idle (by omega)
        rw [q3] at this; cases this
      simpa [ucFin, hz] using q5
    have hnew : ucNew (ucRun c s j) (ucB c b s j) x = [⟨ucNum c (ucEff c s), ucAddr c, x.data⟩] := by
      rw [ucNew, q3, q4, hb, hj.fn, q6, hj.addr q3]; rfl
    refine ⟨⟨ucNum c (ucEff c s), ucAddr c, x.data⟩, ?_, rfl, rfl⟩
    rw [ucReads_append, ucReads_cons, hnew]
    simp
  | succ n ih =>
    obtain ⟨j, k, x, rfl, q3, q4, q5, q6, q7⟩ := uc_first c hc d is hi s ho b rs h w ha
      (by have e := Nat.succ_mul (n + 1) (d + 260); rw [Nat.succ_eq_add_one] at e; omega)
    have hj := ucInv_run c hc j (fun i hi' => hi i (List.mem_append_left _ hi')) s (uc_append c s j _ ho).1 b rs h
    have hb : ucB c b s j = false := by
      rw [hj.fin q3]
      have hz : (ucRun c s j).delay = 0 := by
        apply Classical.byContradiction
        intro hn
        have := hj.idle (by omega)
        rw [q3] at this; cases this
      simpa [ucFin, hz] using q5
    have hnew : ucNew (ucRun c s j) (ucB c b s j) x = [⟨ucNum c (ucEff c s), ucAddr c, x.data⟩] := by
      rw [ucNew, q3, q4, hb, hj.fn, q6, hj.addr q3]; rfl
    have hox := uc_append c s j _ ho
    have hrx := hi x (by simp)
    have hs := ucInv_step c hc _ x hrx hox.2.1 _ _ hj
    obtain ⟨w1, hw1⟩ := ucAnswers_append c d w s j _ ha
    obtain ⟨w2, hw2⟩ := ucAnswers_append c d w1 _ [x] k hw1
    have heff : ucEff c (ucStep c (ucRun c s j) x) = ucSucc c (ucEff c s) := by
      have hz : (ucRun c s j).delay = 0 := by
        apply Classical.byContradiction
        intro hn
        have := hj.idle (by omega)
        rw [q3] at this; cases this
      have hnd : (ucRun c s j).done = false := by simpa [ucFin, hz] using q5
      have e3 : (ucStep c (ucRun c s j) x).delay = 0 := by simp [ucStep, hrx, hz, hnd]
      have e5 : (ucStep c (ucRun c s j) x).done = true := by simp [ucStep, hrx, q4]
      have e1 : (ucStep c (ucRun c s j) x).cnt = ucEff c s := by simp [ucStep, hrx, q5, q6]
      rw [ucEff, ucFin, e3, e5, e1]; rfl
    obtain ⟨r, hr1, hr2, hr3⟩ := ih k (fun i hi' => hi i (by simp [hi'])) _ hox.2.2 _ _ hs w2 hw2 (by
      rw [List.length_append, List.length_cons] at hl
      clear ih
      generalize d + 260 = D at hl q7 ⊢
      have e := Nat.succ_mul (n + 1) D
      rw [Nat.succ_eq_add_one] at e
      omega)
    refine ⟨r, ?_, by rw [hr2, heff]; rfl, hr3⟩
    rw [ucReads_append, ucReads_cons]
    simp only [List.mem_append]
    exact Or.inr (Or.inr hr1)

theorem ucSuccN_all (c : UcCfg) (f g : Nat) (hf : f < c.fcount) (hg : g < c.fcount) :
    ∃ n < c.fcount, ucSuccN c n f = g := by
  have up : ∀ n f, f + n < c.fcount → ucSuccN c n f = f + n := by
    intro n
    induction n with
    | zero => intro f _; rfl
    | succ n ih =>
      intro f hf
      rw [ucSuccN, ucSucc, if_neg (by omega), ih _ (by omega)]; omega
  have add : ∀ m n f, ucSuccN c (m + n) f = ucSuccN c n (ucSuccN c m f) := by
    intro m
    induction m with
    | zero => intro n f; rw [Nat.zero_add]; rfl
    | succ m ih => intro n f; rw [Nat.succ_add, ucSuccN, ih]; rfl
  by_cases hle : f ≤ g
  · exact ⟨g - f, by omega, by rw [up _ _ (by omega)]; omega⟩
  · refine ⟨c.fcount - 1 - f + (1 + g), by omega, ?_⟩
    rw [add (c.fcount - 1 - f) (1 + g), up (c.fcount - 1 - f) f (by omega), add 1 g, show f + (c.fcount - 1 - f) = c.fcount - 1 by omega]
    rw [show ucSuccN c 1 (c.fcount - 1) = 0 by simp [ucSuccN, ucSucc], up _ _ (by omega)]; omega

end Verif.Proofs
