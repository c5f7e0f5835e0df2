import Verif.Spec.TlpMux
/-! Lemmas on the TLP multiplexer: one clock cycle. -/
namespace Verif.Proofs
open Verif Verif.Model Verif.Spec

/-! ### Arbitration -/

def tmxIter (c : TmxCfg) : Nat → Nat → Nat
  | 0, p => p
  | n + 1, p => tmxIter c n (tmxNext c p)

theorem tmxNext_lt (c : TmxCfg) (h : 0 < c.ports) (p : Nat) (hp : p < c.ports) : tmxNext c p < c.ports := by
  unfold tmxNext; split <;> split <;> omega

theorem tmxFirst_lt (c : TmxCfg) (h : 0 < c.ports) (p : Nat) (hp : p < c.ports) : tmxFirst c p < c.ports := by
  unfold tmxFirst; split
  · exact tmxNext_lt c h p hp
  · split <;> omega

theorem tmxScan_found (c : TmxCfg) (h : 0 < c.ports) (v : Nat → Bool) (n cur last : Nat) (hc : cur < c.ports)
    (hl : last < c.ports) :
    (tmxScan c v n cur last).1 < c.ports ∧ ((tmxScan c v n cur last).2 = true → v (tmxScan c v n cur last).1 = true) := by
  induction n generalizing cur last with
  | zero => exact ⟨hl, by simp [tmxScan]⟩
  | succ n ih =>
    rw [tmxScan]
    split
    next e => exact ⟨hc, fun _ => e⟩
    next => exact ih _ _ (tmxNext_lt c h cur hc) hc

theorem tmxScan_none (c : TmxCfg) (v : Nat → Bool) (n cur last : Nat) (h : (tmxScan c v n cur last).2 = false) (j : Nat)
    (hj : j < n) : v (tmxIter c j cur) = false := by
  induction n generalizing cur last j with
  | zero => omega
  | succ n ih =>
    rw [tmxScan] at h
    split at h
    next => cases h
    next e =>
      cases j with
      | zero => simpa [tmxIter] using e
      | succ j => exact ih _ _ h j (by omega)

theorem tmxIter_lsb (c : TmxCfg) (hl : c.lsb = true) (j p : Nat) (hp : p < c.ports) (hj : j ≤ c.ports) :
    tmxIter c j p = if p + j < c.ports then p + j else p + j - c.ports := by
  induction j generalizing p with
  | zero => simp [tmxIter, hp]
  | succ j ih =>
    rw [tmxIter, ih _ (tmxNext_lt c (by omega) p hp) (by omega)]
    simp only [tmxNext, hl, if_true]
    split <;> split <;> split <;> omega

theorem tmxIter_msb (c : TmxCfg) (hl : c.lsb = false) (j p : Nat) (hp : p < c.ports) (hj : j ≤ c.ports) :
    tmxIter c j p = if j ≤ p then p - j else p + c.ports - j := by
  induction j generalizing p with
  | zero => simp [tmxIter]
  | succ j ih =>
    rw [tmxIter, ih _ (tmxNext_lt c (by omega) p hp) (by omega)]
    simp only [tmxNext, hl, Bool.false_eq_true, if_false]
    split <;> split <;> split <;> omega

theorem tmxIter_all (c : TmxCfg) (cur p : Nat) (hc : cur < c.ports) (hp : p < c.ports) :
    ∃ j, j < c.ports ∧ tmxIter c j cur = p := by
  cases hl : c.lsb with
  | true =>
    by_cases h : cur ≤ p
    · exact ⟨p - cur, by omega, by rw [tmxIter_lsb c hl _ _ hc (by omega)]; split <;> omega⟩
    · exact ⟨p + c.ports - cur, by omega, by rw [tmxIter_lsb c hl _ _ hc (by omega)]; split <;> omega⟩
  | false =>
    by_cases h : p ≤ cur
    · exact ⟨cur - p, by omega, by rw [tmxIter_msb c hl _ _ hc (by omega)]; split <;> omega⟩
    · exact ⟨cur + c.ports - p, by omega, by rw [tmxIter_msb c hl _ _ hc (by omega)]; split <;> omega⟩

theorem tmxScan_idle (c : TmxCfg) (v : Nat → Bool) (cur last : Nat) (hc : cur < c.ports)
    (h : (tmxScan c v c.ports cur last).2 = false) (p : Nat) (hp : p < c.ports) : v p = false := by
  obtain ⟨j, hj, rfl⟩ := tmxIter_all c cur p hc hp
  exact tmxScan_none c v _ _ _ h j hj

theorem tmxScan_all (c : TmxCfg) (v : Nat → Bool) (h : 0 < c.ports) (n cur last : Nat) (hc : cur < c.ports)
    (hv : ∀ p < c.ports, v p = false) : (tmxScan c v n cur last).2 = false := by
  induction n generalizing cur last with
  | zero => rfl
  | succ n ih => rw [tmxScan, hv cur hc]; exact ih _ _ (tmxNext_lt c h cur hc)

/-! ### Selected lanes -/

def tmxCnt (p : Nat) (l : List (Nat × Nat)) : Nat := (l.filter fun x => x.1 == p).length

theorem tmxCnt_snoc (p q k : Nat) (l : List (Nat × Nat)) :
    tmxCnt p (l ++ [(q, k)]) = tmxCnt p l + if p = q then 1 else 0 := by
  unfold tmxCnt
  rw [List.filter_append, List.length_append]
  by_cases h : p = q
  · subst h; simp
  · have : (q == p) = false := by simp; omega
    simp [this, h]

theorem tmxCnt_le (p : Nat) (l : List (Nat × Nat)) : tmxCnt p l ≤ l.length := List.length_filter_le ..

def tmxCur (c : TmxCfg) (s : Tmx) (i : TmxIn) (l : List (Nat × Nat)) : Option Nat :=
  match l.getLast? with
  | none => if s.frame then some s.port else none
  | some x => if (tmxFull c s i x.1 x.2).eop then none else some x.1

theorem tmxCur_snoc (c : TmxCfg) (s : Tmx) (i : TmxIn) (l : List (Nat × Nat)) (x : Nat × Nat) :
    tmxCur c s i (l ++ [x]) = if (tmxFull c s i x.1 x.2).eop then none else some x.1 := by
  simp [tmxCur]

/-- A list of lanes taken in turn from the ports, each valid, TLPs not mixed. -/
inductive TmxSeq (c : TmxCfg) (s : Tmx) (i : TmxIn) : List (Nat × Nat) → Prop
  | nil : TmxSeq c s i []
  | snoc (l : List (Nat × Nat)) (p : Nat) (h : TmxSeq c s i l) (hp : p < c.ports)
      (hv : tmxFullV c s i p (s.off p + tmxCnt p l) = true) (hc : ∀ q, tmxCur c s i l = some q → q = p) :
      TmxSeq c s i (l ++ [(p, s.off p + tmxCnt p l)])

theorem tmxSeq_range (c : TmxCfg) (s : Tmx) (i : TmxIn) (l : List (Nat × Nat)) (h : TmxSeq c s i l) (p : Nat) :
    (l.filter fun x => x.1 == p).map (·.2) = List.range' (s.off p) (tmxCnt p l) ∧
    (∀ k, s.off p ≤ k → k < s.off p + tmxCnt p l → tmxFullV c s i p k = true) ∧ (∀ x ∈ l, x.1 < c.ports) := by
  induction h with
  | nil => simp [tmxCnt]; omega
  | snoc l q h hp hv hc ih =>
    obtain ⟨i1, i2, i3⟩ := ih
    rw [tmxCnt_snoc]
    refine ⟨?_, ?_, ?_⟩
    · rw [List.filter_append, List.map_append, i1]
      by_cases e : p = q
      · subst e; simp [List.range'_concat]
      · have : (q == p) = false := by simp; omega
        simp [this, e]
    · intro k h1 h2
      by_cases e : p = q
      · subst e
        simp only [if_true] at h2
        by_cases h3 : k < s.off p + tmxCnt p l
        · exact i2 k h1 h3
        · rw [show k = s.off p + tmxCnt p l by omega]; exact hv
      · simp only [e, if_false] at h2; exact i2 k h1 (by omega)
    · intro x hx
      rcases List.mem_append.mp hx with hx | hx
      · exact i3 x hx
      · rw [List.mem_singleton.mp hx]; exact hp

theorem tmxSeq_valid (c : TmxCfg) (s : Tmx) (i : TmxIn) (l : List (Nat × Nat)) (h : TmxSeq c s i l) :
    ∀ x ∈ l, tmxFullV c s i x.1 x.2 = true := by
  induction h with
  | nil => simp
  | snoc l q h hp hv hc ih =>
    intro x hx
    rcases List.mem_append.mp hx with hx | hx
    · exact ih x hx
    · rw [List.mem_singleton.mp hx]; exact hv

theorem tmxSeq_whole (c : TmxCfg) (s : Tmx) (i : TmxIn) (l : List (Nat × Nat)) (h : TmxSeq c s i l) :
    FramesWhole (fun x : TlpSeg => x.eop) (l.map fun x => (x.1, tmxFull c s i x.1 x.2)) ∧
    (s.frame = true → ∀ x, l.head? = some x → x.1 = s.port) := by
  induction h with
  | nil => exact ⟨fun k a b ha => by simp at ha, fun _ x hx => by simp at hx⟩
  | snoc l q h hp hv hc ih =>
    obtain ⟨i1, i2⟩ := ih
    constructor
    · intro k a b ha hb he
      have hb' := (List.getElem?_eq_some_iff.mp hb).1
      simp only [List.length_map, List.length_append, List.length_singleton] at hb'
      by_cases hk : k + 1 < l.length
      · refine i1 k a b ?_ ?_ he
        · rw [← ha, List.map_append, List.getElem?_append_left (by simp; omega)]
        · rw [← hb, List.map_append, List.getElem?_append_left (by simp; omega)]
      · have hk2 : k + 1 = l.length := by omega
        rw [List.map_append, List.getElem?_append_right (by simp; omega)] at hb
        simp [hk2] at hb
        rw [List.map_append, List.getElem?_append_left (by simp; omega), List.getElem?_map] at ha
        have hlast : l.getLast? = l[k]? := by rw [List.getLast?_eq_getElem?, ← hk2]; rfl
        cases e : l[k]? with
        | none => rw [e] at ha; simp at ha
        | some x =>
          rw [e] at ha; simp at ha
          have := hc x.1 (by unfold tmxCur; rw [hlast, e]; simp; rw [← ha] at he; simpa using he)
          rw [← hb, ← ha]; simp [this]
    · intro hf x hx
      cases l with
      | nil =>
        simp at hx; rw [← hx]
        exact (hc s.port (by simp [tmxCur, hf])).symm
      | cons y l => exact i2 hf x (by simpa using hx)

/-! ### The loop over the segments -/

/-- Segment `h` starts a TLP of port `q`. -/
def TmxBegins (c : TmxCfg) (s : Tmx) (i : TmxIn) (l : List (Nat × Nat)) (q h : Nat) : Prop :=
  ∃ x, l[h]? = some x ∧ x.1 = q ∧ tmxCur c s i (l.take h) = none

/-- What is committed: the lanes `C`. -/
structure TmxCom (c : TmxCfg) (s : Tmx) (i : TmxIn) (v : TmxVar) (C : List (Nat × Nat)) : Prop where
  seq : TmxSeq c s i C
  n : v.n = C.length
  sel : v.sel.take v.n = C
  off : ∀ p, v.offN p = s.off p + tmxCnt p C
  cur : (if v.frameN then some v.portN else none) = tmxCur c s i C
  port : v.portN < c.ports
  st : ∀ q h, v.seqN q h = true ↔ TmxBegins c s i C q h

/-- Up to now every segment of the output word has been filled. -/
structure TmxLive (c : TmxCfg) (s : Tmx) (i : TmxIn) (v : TmxVar) (g : Nat) : Prop where
  seq : TmxSeq c s i v.sel
  len : v.sel.length = g
  cur : (if v.frame then some v.port else none) = tmxCur c s i v.sel
  port : v.port < c.ports
  pv : ∀ p k, v.pv p k = (tmxVar0 c s i).pv p (tmxCnt p v.sel + k)
  pe : ∀ p k, v.pe p k = (tmxVar0 c s i).pe p (tmxCnt p v.sel + k)
  off : v.frame = true → v.segOff = s.off v.port + tmxCnt v.port v.sel
  abort : v.abort = false
  com : ∃ C, TmxCom c s i v C
  all : v.frame = false → v.n = g
  tail : ∀ q, q ≠ v.port → v.offN q = s.off q + tmxCnt q v.sel
  st : ∀ q h, v.seqC q h = true ↔ TmxBegins c s i v.sel q h

/-- Nothing more can be committed. -/
structure TmxDead (c : TmxCfg) (s : Tmx) (i : TmxIn) (v : TmxVar) (g : Nat) : Prop where
  len : v.sel.length = g
  port : v.port < c.ports
  com : ∃ C, TmxCom c s i v C
  idle : v.abort = true ∨ v.frame = false ∧ ∀ p < c.ports, ∀ k, g + k < c.segs → v.pv p k = false

theorem tmxCom_len {c : TmxCfg} {s : Tmx} {i : TmxIn} {v : TmxVar} {C : List (Nat × Nat)} (h : TmxCom c s i v C) :
    v.n ≤ v.sel.length := by
  have := congrArg List.length h.sel
  rw [List.length_take, ← h.n] at this
  omega

theorem tmxCom_more {c : TmxCfg} {s : Tmx} {i : TmxIn} {v : TmxVar} {C : List (Nat × Nat)} (h : TmxCom c s i v C)
    (w : TmxVar) (x : Nat × Nat) (h1 : w.sel = v.sel ++ [x]) (h2 : w.n = v.n) (h3 : w.offN = v.offN)
    (h4 : w.frameN = v.frameN) (h5 : w.portN = v.portN) (h6 : w.seqN = v.seqN) : TmxCom c s i w C :=
  ⟨h.seq, by rw [h2, h.n], by rw [h2, h1, List.take_append_of_le_length (tmxCom_len h), h.sel], by rw [h3]; exact h.off,
   by rw [h4, h5]; exact h.cur, by rw [h5]; exact h.port, by rw [h6]; exact h.st⟩

theorem tmxPv0 (c : TmxCfg) (s : Tmx) (i : TmxIn) (p k : Nat) (h : s.off p + k < 2 * c.segs) :
    (tmxVar0 c s i).pv p k = (!i.pause p && tmxFullV c s i p (s.off p + k)) := by
  simp only [tmxVar0, Nat.mod_eq_of_lt h]
  have : k < 2 * c.segs := by omega
  simp [this]

theorem tmxPe0 (c : TmxCfg) (s : Tmx) (i : TmxIn) (p k : Nat) (h : s.off p + k < 2 * c.segs) :
    (tmxVar0 c s i).pe p k = (tmxFull c s i p (s.off p + k)).eop := by
  simp only [tmxVar0, Nat.mod_eq_of_lt h]
  have : k < 2 * c.segs := by omega
  simp [this]

/-- The lane that port `p` offers next is filled with segment `g`. -/
theorem tmxLive_take (c : TmxCfg) (s : Tmx) (i : TmxIn) (v : TmxVar) (g : Nat) (h : TmxLive c s i v g) (hg : g < c.segs)
    (ho : ∀ p < c.ports, s.off p < c.segs) (ha : (tmxArb c v).2 = true) (hp : (tmxArb c v).1 < c.ports)
    (hf : v.frame = true → (tmxArb c v).1 = v.port) (hv : v.pv (tmxArb c v).1 0 = true) :
    TmxLive c s i (tmxSeg c true v g) (g + 1) := by
  generalize hpp : (tmxArb c v).1 = p at hp hf hv
  have hcnt : tmxCnt p v.sel ≤ g := by rw [← h.len]; exact tmxCnt_le ..
  have hlt : s.off p + tmxCnt p v.sel < 2 * c.segs := by have := ho p hp; omega
  have hso : (if v.frame then v.segOff else v.offN p) = s.off p + tmxCnt p v.sel := by
    cases e : v.frame with
    | true => simp only [if_true]; rw [h.off e, hf e]
    | false =>
      obtain ⟨C, hC⟩ := h.com
      have : C = v.sel := by
        rw [← hC.sel, h.all e, ← h.len]; exact List.take_length
      simp only [Bool.false_eq_true, if_false]
      rw [hC.off, this]
  have hvv : tmxFullV c s i p (s.off p + tmxCnt p v.sel) = true := by
    rw [h.pv, Nat.add_zero, tmxPv0 c s i p _ hlt] at hv
    simp at hv; exact hv.2
  have hee : v.pe p 0 = (tmxFull c s i p (s.off p + tmxCnt p v.sel)).eop := by
    rw [h.pe, Nat.add_zero, tmxPe0 c s i p _ hlt]
  have hsel : (tmxSeg c true v g).sel = v.sel ++ [(p, s.off p + tmxCnt p v.sel)] := by
    simp only [tmxSeg, hpp, hso]
  have hseq : TmxSeq c s i (tmxSeg c true v g).sel := by
    rw [hsel]
    refine .snoc _ _ h.seq hp hvv ?_
    intro q hq
    rw [← h.cur] at hq
    split at hq
    next e => simp at hq; rw [← hq, hf e]
    next => simp at hq
  have hcur : (if (if v.pe p 0 then false else true) then some p else none) =
      tmxCur c s i (v.sel ++ [(p, s.off p + tmxCnt p v.sel)]) := by
    rw [tmxCur_snoc, hee]; split <;> simp_all
  have htl : ∀ q, q ≠ p → v.offN q = s.off q + tmxCnt q v.sel := by
    intro q e
    cases ef : v.frame with
    | false =>
      obtain ⟨C, hC⟩ := h.com
      rw [hC.off, show C = v.sel by rw [← hC.sel, h.all ef, ← h.len]; exact List.take_length]
    | true => exact h.tail q (by rw [← hf ef]; exact e)
  have hst : ∀ q k, (tmxSeg c true v g).seqC q k = true ↔ TmxBegins c s i (tmxSeg c true v g).sel q k := by
    intro q k
    have e : (tmxSeg c true v g).seqC q k = if !v.frame && decide (q = p ∧ k = g) then true else v.seqC q k := by
      simp only [tmxSeg, hpp, ha, Bool.and_true]
    rw [e, hsel]
    unfold TmxBegins
    rcases Nat.lt_trichotomy k g with hk | hk | hk
    · rw [List.getElem?_append_left (by rw [h.len]; exact hk), List.take_append_of_le_length (by rw [h.len]; omega)]
      have : ¬ (q = p ∧ k = g) := by omega
      simp only [this, decide_false, Bool.and_false, Bool.false_eq_true, if_false]
      exact h.st q k
    · have h1 : ¬ v.seqC q k = true := by
        rw [h.st]
        rintro ⟨x, hx, -⟩
        rw [List.getElem?_eq_none (by rw [h.len]; omega)] at hx; cases hx
      rw [List.getElem?_append_right (by rw [h.len]; omega), h.len, hk, Nat.sub_self,
        List.take_append_of_le_length (by rw [h.len]; exact Nat.le_refl _), show v.sel.take g = v.sel by rw [← h.len]; exact List.take_length,
        ← h.cur]
      rw [hk] at h1
      by_cases hq : q = p
      · subst hq
        cases v.frame <;> simp [h1]
      · have : ¬ p = q := fun e => hq e.symm
        simp [hq, h1, this]
    · have h1 : ¬ v.seqC q k = true := by
        rw [h.st]
        rintro ⟨x, hx, -⟩
        rw [List.getElem?_eq_none (by rw [h.len]; omega)] at hx; cases hx
      have h2 : ¬ (q = p ∧ k = g) := by omega
      simp only [h2, decide_false, Bool.and_false, Bool.false_eq_true, if_false, h1, false_iff]
      rintro ⟨x, hx, -⟩
      rw [List.getElem?_eq_none (by simp [h.len]; omega)] at hx; cases hx
  refine ⟨hseq, by rw [hsel]; simp [h.len], ?_, ?_, ?_, ?_, ?_, ?_, ?_, ?_, ?_, ?_⟩
  · rw [hsel, ← hcur]; simp only [tmxSeg, hpp, ha]
  · simp only [tmxSeg, hpp]; exact hp
  · intro q k
    rw [hsel, tmxCnt_snoc]
    simp only [tmxSeg, hpp]
    split
    next e => rw [h.pv]; congr 1; omega
    next e => rw [h.pv]; rfl
  · intro q k
    rw [hsel, tmxCnt_snoc]
    simp only [tmxSeg, hpp]
    split
    next e => rw [h.pe]; congr 1; omega
    next e => rw [h.pe]; rfl
  · intro _
    rw [hsel]
    simp only [tmxSeg, hpp, hso]
    rw [tmxCnt_snoc]; simp; omega
  · simp only [tmxSeg, hpp, ha, h.abort, hv]; rfl
  · by_cases hcm : (v.pe p 0 || decide (g = c.segs - 1)) = true
    · refine ⟨_, hseq, ?_, ?_, ?_, ?_, ?_, ?_⟩
      · rw [hsel]; simp only [tmxSeg, hpp, ha, h.abort, hv, hcm]; simp [h.len]
      · have e1 : (tmxSeg c true v g).n = (tmxSeg c true v g).sel.length := by
          rw [hsel]; simp only [tmxSeg, hpp, ha, h.abort, hv, hcm]; simp [h.len]
        rw [e1]; exact List.take_length
      · intro q
        rw [hsel, tmxCnt_snoc]
        simp only [tmxSeg, hpp, ha, h.abort, hv, hcm, hso]
        simp only [Bool.not_false, Bool.and_true, Bool.true_and]
        by_cases e : q = p
        · subst e; simp; omega
        · simp only [e, decide_false, if_false, Bool.false_eq_true, Nat.add_zero]
          exact htl q e
      · rw [hsel, ← hcur]; simp only [tmxSeg, hpp, ha, h.abort, hv, hcm]; simp
      · simp only [tmxSeg, hpp, ha, h.abort, hv, hcm]; simp; exact hp
      · intro q k
        rw [← hst q k]
        simp only [tmxSeg, hpp, ha, h.abort, hv, hcm]; simp
    · obtain ⟨C, hC⟩ := h.com
      have hcm' : (v.pe p 0 || decide (g = c.segs - 1)) = false := by simpa using hcm
      refine ⟨C, tmxCom_more hC _ _ hsel ?_ ?_ ?_ ?_ ?_⟩ <;> simp only [tmxSeg, hpp, hcm'] <;> simp
  · intro hfr
    simp only [tmxSeg, hpp, ha] at hfr
    have e : v.pe p 0 = true := by
      cases e : v.pe p 0 with
      | true => rfl
      | false => rw [e] at hfr; simp at hfr
    simp only [tmxSeg, hpp, ha, h.abort, hv, e]; simp
  · intro q hq
    have e : q ≠ p := by simpa only [tmxSeg, hpp] using hq
    rw [hsel, tmxCnt_snoc]
    simp only [tmxSeg, hpp, e, decide_false, Bool.and_false, Bool.false_eq_true, if_false, Nat.add_zero]
    exact htl q e
  · exact hst

theorem tmxArb_port (c : TmxCfg) (h : 0 < c.ports) (v : TmxVar) (hp : v.port < c.ports) : (tmxArb c v).1 < c.ports := by
  unfold tmxArb; split
  · exact hp
  · exact (tmxScan_found c h _ _ _ _ (tmxFirst_lt c h _ hp) hp).1

/-- One pass: the word is filled further, or nothing more happens. -/
theorem tmxLive_step (c : TmxCfg) (s : Tmx) (i : TmxIn) (v : TmxVar) (g : Nat) (h : TmxLive c s i v g) (hg : g < c.segs)
    (h0 : 0 < c.ports) (ho : ∀ p < c.ports, s.off p < c.segs) :
    TmxLive c s i (tmxSeg c true v g) (g + 1) ∨
    (tmxSeg c true v g).sel.length = g + 1 ∧ (tmxSeg c true v g).port < c.ports ∧
      (∃ C, TmxCom c s i (tmxSeg c true v g) C) ∧
      ((tmxSeg c true v g).abort = true ∨
        v.frame = false ∧ (∀ p < c.ports, v.pv p 0 = false) ∧ (tmxArb c v).2 = false) := by
  have hp := tmxArb_port c h0 v h.port
  by_cases hv : (tmxArb c v).2 = true ∧ v.pv (tmxArb c v).1 0 = true
  · exact .inl (tmxLive_take c s i v g h hg ho hv.1 hp (fun e => by simp [tmxArb, e]) hv.2)
  · right
    refine ⟨by simp [tmxSeg, h.len], by simpa only [tmxSeg] using hp, ?_, ?_⟩
    · obtain ⟨C, hC⟩ := h.com
      have hc : ((tmxArb c v).2 && !v.abort && v.pv (tmxArb c v).1 0 &&
          (v.pe (tmxArb c v).1 0 || decide (g = c.segs - 1)) && true) = false := by
        rw [Bool.eq_false_iff]; intro e; simp at e; exact hv ⟨e.1.1.1, e.1.2⟩
      refine ⟨C, tmxCom_more hC _ _ rfl ?_ ?_ ?_ ?_ ?_⟩ <;> simp only [tmxSeg, hc] <;> simp
    · by_cases ha : (tmxArb c v).2 = true
      · left
        have : v.pv (tmxArb c v).1 0 = false := by
          rw [Bool.eq_false_iff]; exact fun e => hv ⟨ha, e⟩
        simp [tmxSeg, ha, this]
      · right
        have ha : (tmxArb c v).2 = false := by simpa using ha
        have hf : v.frame = false := by
          cases e : v.frame with
          | false => rfl
          | true => simp [tmxArb, e] at ha
        refine ⟨hf, ?_, ha⟩
        simp only [tmxArb, hf, Bool.false_eq_true, if_false] at ha
        exact tmxScan_idle c _ _ _ (tmxFirst_lt c h0 _ h.port) ha

theorem tmxDead_step (c : TmxCfg) (s : Tmx) (i : TmxIn) (v : TmxVar) (g : Nat) (h : TmxDead c s i v g) (hg : g < c.segs)
    (h0 : 0 < c.ports) : TmxDead c s i (tmxSeg c true v g) (g + 1) := by
  have hp := tmxArb_port c h0 v h.port
  obtain ⟨C, hC⟩ := h.com
  rcases h.idle with ha | ⟨hf, hi⟩
  · refine ⟨by simp [tmxSeg, h.len], by simpa only [tmxSeg] using hp, ⟨C, tmxCom_more hC _ _ rfl ?_ ?_ ?_ ?_ ?_⟩, .inl ?_⟩ <;>
      simp [tmxSeg, ha]
  · have ha : (tmxArb c v).2 = false := by
      simp only [tmxArb, hf, Bool.false_eq_true, if_false]
      exact tmxScan_all c _ h0 _ _ _ (tmxFirst_lt c h0 _ h.port) (fun p hp => hi p hp 0 (by omega))
    refine ⟨by simp [tmxSeg, h.len], by simpa only [tmxSeg] using hp, ⟨C, tmxCom_more hC _ _ rfl ?_ ?_ ?_ ?_ ?_⟩, .inr ⟨?_, ?_⟩⟩
    · simp [tmxSeg, ha]
    · simp [tmxSeg, ha]
    · simp [tmxSeg, ha]
    · simp [tmxSeg, ha]
    · simp [tmxSeg, ha]
    · simp [tmxSeg, ha]
    · intro p hp k hk
      simp only [tmxSeg]
      split
      · exact hi p hp (k + 1) (by omega)
      · exact hi p hp k (by omega)

/-- Within one word's worth of lanes, a lane that is not valid is not followed by a valid one. -/
def TmxClosed (c : TmxCfg) (s : Tmx) (i : TmxIn) : Prop :=
  ∀ p < c.ports, ∀ k k', k ≤ k' → k' < c.segs → (tmxVar0 c s i).pv p k = false → (tmxVar0 c s i).pv p k' = false

theorem tmxLive_init (c : TmxCfg) (s : Tmx) (i : TmxIn) (hp : s.port < c.ports) : TmxLive c s i (tmxVar0 c s i) 0 := by
  refine ⟨.nil, rfl, rfl, hp, ?_, ?_, fun _ => rfl, rfl, ⟨[], .nil, rfl, rfl, fun _ => rfl, rfl, hp, ?_⟩,
    fun _ => rfl, fun _ _ => rfl, ?_⟩
  · intro p k; simp [tmxVar0, tmxCnt]
  · intro p k; simp [tmxVar0, tmxCnt]
  · intro q h; simp [tmxVar0, TmxBegins]
  · intro q h; simp [tmxVar0, TmxBegins]

def tmxVarN (c : TmxCfg) (s : Tmx) (i : TmxIn) (g : Nat) : TmxVar :=
  (List.range g).foldl (tmxSeg c s.skid.ready) (tmxVar0 c s i)

theorem tmxVarN_succ (c : TmxCfg) (s : Tmx) (i : TmxIn) (g : Nat) :
    tmxVarN c s i (g + 1) = tmxSeg c s.skid.ready (tmxVarN c s i g) g := by
  simp [tmxVarN, List.range_succ]

theorem tmx_loop (c : TmxCfg) (s : Tmx) (i : TmxIn) (h0 : 0 < c.ports) (hp : s.port < c.ports)
    (ho : ∀ p < c.ports, s.off p < c.segs) (hr : s.skid.ready = true) (hc : TmxClosed c s i) (g : Nat) (hg : g ≤ c.segs) :
    TmxLive c s i (tmxVarN c s i g) g ∨ TmxDead c s i (tmxVarN c s i g) g := by
  induction g with
  | zero => exact .inl (tmxLive_init c s i hp)
  | succ g ih =>
    rw [tmxVarN_succ, hr]
    rcases ih (by omega) with h | h
    · rcases tmxLive_step c s i _ g h (by omega) h0 ho with h' | ⟨h1, h2, h3, h4⟩
      · exact .inl h'
      · right
        refine ⟨h1, h2, h3, ?_⟩
        rcases h4 with h4 | ⟨h5, h6, h7⟩
        · exact .inl h4
        · refine .inr ⟨by simp [tmxSeg, h7], ?_⟩
          have key : ∀ p < c.ports, ∀ k, g + k < c.segs → (tmxVarN c s i g).pv p k = false := by
            intro p hp k hk
            have h8 := h6 p hp
            have hle := tmxCnt_le p (tmxVarN c s i g).sel
            rw [h.len] at hle
            rw [h.pv] at h8 ⊢
            exact hc p hp _ _ (by omega) (by omega) h8
          intro p hp k hk
          simp only [tmxSeg]
          split
          · exact key p hp (k + 1) (by omega)
          · exact key p hp k (by omega)
    · exact .inr (tmxDead_step c s i _ g h (by omega) h0)

/-! ### What one cycle does -/

/-- In one cycle the segments `O`, with their ports, go into the output registers. -/
structure TmxRes (c : TmxCfg) (s : Tmx) (i : TmxIn) (O : List (Nat × TlpSeg)) : Prop where
  out : tmxItems c (tmxOut c s i) = O.map (·.2)
  ports : ∀ x ∈ O, x.1 < c.ports
  per : ∀ p, ofPort p O = ((List.range' (s.off p) ((tmxVar1 c s i).offN p - s.off p)).filter (tmxFullV c s i p)).map
    (tmxFull c s i p)
  ge : ∀ p, s.off p ≤ (tmxVar1 c s i).offN p
  le : ∀ p, (tmxVar1 c s i).offN p ≤ s.off p + c.segs
  beyond : ∀ p k, c.segs ≤ k → s.off p ≤ k → k < (tmxVar1 c s i).offN p → tmxFullV c s i p k = true
  empty : ∀ p < c.ports, (∀ k < c.segs, (s.reg p).valid k = false) → s.off p = 0 → (tmxVar1 c s i).offN p = 0
  first : s.frame = true → ∀ x, O.head? = some x → x.1 = s.port
  whole : FramesWhole (fun x : TlpSeg => x.eop) O
  last : ∀ x, O.getLast? = some x → x.2.eop = false → (tmxVar1 c s i).frameN = true ∧ (tmxVar1 c s i).portN = x.1
  keep : O = [] → s.frame = true → (tmxVar1 c s i).frameN = true ∧ (tmxVar1 c s i).portN = s.port
  port : (tmxVar1 c s i).portN < c.ports
  ready : s.skid.ready = false → O = []
  frame : (tmxVar1 c s i).frameN = true → (∃ x, O.getLast? = some x ∧ x.2.eop = false) ∨
    (O = [] ∧ s.frame = true ∧ (tmxVar1 c s i).portN = s.port) ∨
    (c.segs = 2 ∧ tmxFullV c s i (tmxVar1 c s i).portN (s.off (tmxVar1 c s i).portN) = false ∧
      tmxFullV c s i (tmxVar1 c s i).portN (s.off (tmxVar1 c s i).portN + 1) = true ∧
      (tmxVar1 c s i).offN (tmxVar1 c s i).portN = s.off (tmxVar1 c s i).portN + 1)

theorem tmxVar1_eq (c : TmxCfg) (s : Tmx) (i : TmxIn) : tmxVar1 c s i = tmxVarN c s i c.segs := rfl

theorem tmx_items_take (c : TmxCfg) (w : TmxWord) (C : List (Nat × Nat)) (f : Nat × Nat → TlpSeg) (hn : C.length ≤ c.segs)
    (hv : ∀ k < c.segs, w.valid k = decide (k < C.length)) (hs : ∀ (k : Nat) (h : k < C.length), w.seg k = f C[k]) :
    tmxItems c w = C.map f := by
  unfold tmxItems
  have h1 : (List.range c.segs).filter w.valid = List.range C.length := by
    have : (List.range c.segs).filter w.valid = (List.range c.segs).filter fun k => decide (k < C.length) :=
      List.filter_congr fun k hk => hv k (List.mem_range.mp hk)
    rw [this]
    obtain ⟨d, hd⟩ := Nat.exists_eq_add_of_le hn
    rw [hd, List.range_add, List.filter_append, List.filter_eq_self.mpr, List.filter_eq_nil_iff.mpr, List.append_nil]
    · intro a ha; simp at ha; simp; omega
    · intro a ha; simp at ha; simpa using ha
  rw [h1]
  apply List.ext_getElem
  · simp
  · intro k a b
    simp at a ⊢
    exact hs k a

theorem tmxRes_com (c : TmxCfg) (s : Tmx) (i : TmxIn) (h0 : 0 < c.segs) (C : List (Nat × Nat)) (h : TmxCom c s i (tmxVar1 c s i) C)
    (hl : (tmxVar1 c s i).sel.length = c.segs) (hr : s.skid.ready = true) :
    TmxRes c s i (C.map fun x => (x.1, tmxFull c s i x.1 x.2)) := by
  have hn : C.length ≤ c.segs := by rw [← h.n, ← hl]; exact tmxCom_len h
  have hget : ∀ (k : Nat) (hk : k < C.length), (tmxVar1 c s i).sel.getD k (0, 0) = C[k] := by
    intro k hk
    have e : C[k]? = (tmxVar1 c s i).sel[k]? := by
      rw [← h.sel, List.getElem?_take_of_lt (by rw [h.n]; exact hk)]
    rw [List.getD_eq_getElem?_getD, ← e, List.getElem?_eq_getElem hk]; rfl
  have hval := tmxSeq_valid c s i C h.seq
  have hoff : ∀ p, (tmxVar1 c s i).offN p - s.off p = tmxCnt p C := fun p => by rw [h.off]; omega
  refine ⟨?_, ?_, ?_, ?_, ?_, ?_, ?_, ?_, ?_, ?_, ?_, h.port, ?_, ?_⟩
  · rw [List.map_map]
    refine tmx_items_take c _ C _ hn ?_ ?_
    · intro k hk
      simp only [tmxOut, h.n]
      by_cases hc : k < C.length
      · rw [hget k hc, hval _ (List.getElem_mem hc)]; simp
      · simp [hc]
    · intro k hk
      simp only [tmxOut, hget k hk]; rfl
  · intro x hx
    obtain ⟨y, hy, rfl⟩ := List.mem_map.mp hx
    exact (tmxSeq_range c s i C h.seq 0).2.2 y hy
  · intro p
    obtain ⟨e1, e2, -⟩ := tmxSeq_range c s i C h.seq p
    rw [hoff, List.filter_eq_self.mpr, ← e1]
    · unfold ofPort
      rw [List.filter_map, List.map_map, List.map_map]
      apply List.map_congr_left
      intro x hx
      have := (List.mem_filter.mp hx).2
      simp at this
      simp [this]
    · intro k hk
      simp [List.mem_range'] at hk
      obtain ⟨j, hj, rfl⟩ := hk
      exact e2 _ (by omega) (by omega)
  · intro p; rw [h.off]; omega
  · intro p; rw [h.off]; have := tmxCnt_le p C; omega
  · intro p k h1 h2 h3
    rw [h.off] at h3
    exact (tmxSeq_range c s i C h.seq p).2.1 k h2 h3
  · intro p hp he ho
    rw [h.off, ho, Nat.zero_add]
    apply Classical.byContradiction
    intro hne
    have := (tmxSeq_range c s i C h.seq p).2.1 0 (by omega) (by omega)
    rw [tmxFullV, if_pos h0, he 0 h0] at this
    cases this
  · intro hf x hx
    rw [List.head?_map] at hx
    cases e : C.head? with
    | none => rw [e] at hx; simp at hx
    | some y =>
      rw [e] at hx; simp at hx
      rw [← hx]; exact (tmxSeq_whole c s i C h.seq).2 hf y e
  · exact (tmxSeq_whole c s i C h.seq).1
  · intro x hx he
    rw [List.getLast?_map] at hx
    have hc := h.cur
    unfold tmxCur at hc
    cases e : C.getLast? with
    | none => rw [e] at hx; simp at hx
    | some y =>
      rw [e] at hx hc; simp at hx hc
      rw [← hx] at he; simp at he
      rw [he] at hc; simp at hc
      rw [← hx]; exact hc
  · intro hn hf
    have hC : C = [] := by simpa using hn
    have hc := h.cur
    rw [hC] at hc
    simp [tmxCur, hf] at hc
    exact hc
  · intro h; rw [hr] at h; cases h
  · intro hf
    have hc := h.cur
    rw [hf, if_pos rfl] at hc
    unfold tmxCur at hc
    cases e : C.getLast? with
    | none =>
      right; left
      rw [e] at hc
      simp only at hc
      have hC : C = [] := List.getLast?_eq_none_iff.mp e
      split at hc
      next e2 => exact ⟨by rw [hC]; rfl, e2, by simpa using hc⟩
      next => cases hc
    | some y =>
      left
      rw [e] at hc
      simp only at hc
      refine ⟨(y.1, tmxFull c s i y.1 y.2), by rw [List.getLast?_map, e]; rfl, ?_⟩
      split at hc
      next => cases hc
      next e2 => simpa using e2

theorem tmxVarN_stall (c : TmxCfg) (s : Tmx) (i : TmxIn) (hr : s.skid.ready = false) (g : Nat) :
    (tmxVarN c s i g).offN = s.off ∧ (tmxVarN c s i g).n = 0 ∧ (tmxVarN c s i g).frameN = s.frame ∧
      (tmxVarN c s i g).portN = s.port := by
  induction g with
  | zero => exact ⟨rfl, rfl, rfl, rfl⟩
  | succ g ih =>
    rw [tmxVarN_succ, hr]
    simp only [tmxSeg, Bool.and_false, Bool.false_and, Bool.false_eq_true, if_false]
    exact ih

theorem tmxItems_none (c : TmxCfg) (w : TmxWord) (h : ∀ k < c.segs, w.valid k = false) : tmxItems c w = [] := by
  unfold tmxItems
  rw [List.filter_eq_nil_iff.mpr]
  · rfl
  · intro k hk; rw [h k (List.mem_range.mp hk)]; simp

theorem tmxRes_stall (c : TmxCfg) (s : Tmx) (i : TmxIn) (hp : s.port < c.ports)
    (hr : s.skid.ready = false) : TmxRes c s i [] := by
  obtain ⟨e1, e2, e3, e4⟩ := tmxVarN_stall c s i hr c.segs
  rw [← tmxVar1_eq] at e1 e2 e3 e4
  refine ⟨?_, by simp, ?_, ?_, ?_, ?_, ?_, by simp, fun k a b ha => by simp at ha, by simp, ?_, by rw [e4]; exact hp, fun _ => rfl,
    fun h => .inr (.inl ⟨rfl, by rw [← e3]; exact h, e4⟩)⟩
  · exact tmxItems_none c _ fun k hk => by simp [tmxOut, e2]
  · intro p; simp [e1, ofPort]
  · intro p; rw [e1]; exact Nat.le_refl _
  · intro p; rw [e1]; omega
  · intro p k h1 h2 h3; rw [e1] at h3; omega
  · intro p hp h1 h2; rw [e1]; exact h2
  · intro _ hf; rw [e3, e4]; exact ⟨hf, rfl⟩

/-- With two segments per word, a free lane that is passed over does no harm to the data. -/
theorem tmxRes_two (c : TmxCfg) (s : Tmx) (i : TmxIn) (h2 : c.segs = 2) (h0 : 0 < c.ports) (hp : s.port < c.ports)
    (ho : ∀ p < c.ports, s.off p < c.segs) (hr : s.skid.ready = true) :
    ∃ O, TmxRes c s i O := by
  have hL := tmxLive_init c s i hp
  have e2 : tmxVar1 c s i = tmxSeg c true (tmxSeg c true (tmxVar0 c s i) 0) 1 := by
    rw [tmxVar1_eq, h2, tmxVarN_succ, tmxVarN_succ, hr]; rfl
  have fin : ∀ C, TmxCom c s i (tmxVar1 c s i) C → (tmxVar1 c s i).sel.length = 2 → ∃ O, TmxRes c s i O :=
    fun C hC hl => ⟨_, tmxRes_com c s i (by omega) C hC (by rw [hl, h2]) hr⟩
  rcases tmxLive_step c s i _ 0 hL (by omega) h0 ho with h | ⟨h3, h4, h5, h6⟩
  · rcases tmxLive_step c s i _ 1 h (by omega) h0 ho with h | ⟨h3, -, ⟨C, h5⟩, -⟩
    · obtain ⟨C, hC⟩ := h.com
      exact fin C (by rw [e2]; exact hC) (by rw [e2]; exact h.len)
    · exact fin C (by rw [e2]; exact h5) (by rw [e2]; exact h3)
  · rcases h6 with h6 | ⟨h6, h7, h8⟩
    · have hd := tmxDead_step c s i _ 1 ⟨h3, h4, h5, .inl h6⟩ (by omega) h0
      obtain ⟨C, hC⟩ := hd.com
      exact fin C (by rw [e2]; exact hC) (by rw [e2]; exact hd.len)
    · have hf : s.frame = false := h6
      have f1 : (tmxVar0 c s i).n = 0 := rfl
      have f2 : (tmxVar0 c s i).sel = [] := rfl
      have f3 : (tmxVar0 c s i).offN = s.off := rfl
      have f4 : (tmxVar0 c s i).abort = false := rfl
      have f5 : ∀ p, (tmxVar0 c s i).pv p 1 = true → i.pause p = false := by
        intro p h; simp [tmxVar0] at h; exact h.1.2
      have f6 : ∀ p < c.ports, (tmxVar0 c s i).pv p 0 = (!i.pause p && tmxFullV c s i p (s.off p)) := by
        intro p h; rw [tmxPv0 c s i p 0 (by have := ho p h; omega)]; rfl
      have f7 : ∀ p < c.ports, (tmxVar0 c s i).pv p 1 = (!i.pause p && tmxFullV c s i p (s.off p + 1)) := by
        intro p h; rw [tmxPv0 c s i p 1 (by have := ho p h; omega)]
      have hlp : (tmxArb c (tmxVar0 c s i)).1 < c.ports := tmxArb_port c h0 _ hp
      generalize tmxVar0 c s i = v0 at *
      generalize hl : (tmxArb c v0).1 = l at *
      have g1 : (tmxSeg c true v0 0).n = 0 := by simp [tmxSeg, h8, f1]
      have g2 : (tmxSeg c true v0 0).sel = [(l, s.off l)] := by simp [tmxSeg, hl, h6, f2, f3]
      have g3 : (tmxSeg c true v0 0).frame = false := by simp [tmxSeg, h8]
      have g4 : (tmxSeg c true v0 0).offN = s.off := by simp [tmxSeg, h8, f3]
      have g5 : (tmxSeg c true v0 0).abort = false := by simp [tmxSeg, h8, f4]
      have g6 : ∀ q, (tmxSeg c true v0 0).pv q 0 = if q = l then v0.pv q 1 else v0.pv q 0 := by
        intro q; simp [tmxSeg, hl]
      obtain ⟨C, hC⟩ := h5
      have hC0 : C = [] := by rw [← List.length_eq_zero_iff, ← hC.n, g1]
      generalize tmxSeg c true v0 0 = v1 at *
      have hq := tmxArb_port c h0 v1 h4
      by_cases ha : (tmxArb c v1).2 = true
      · have hv : v1.pv (tmxArb c v1).1 0 = true := by
          simp only [tmxArb, g3, Bool.false_eq_true, if_false] at ha ⊢
          exact (tmxScan_found c h0 _ _ _ _ (tmxFirst_lt c h0 _ h4) h4).2 ha
        have hql : (tmxArb c v1).1 = l := by
          apply Classical.byContradiction
          intro hne
          rw [g6, if_neg hne, h7 _ hq] at hv; cases hv
        rw [hql, g6, if_pos rfl] at hv
        have hpz := f5 l hv
        have hfree : tmxFullV c s i l (s.off l) = false := by
          have := h7 l hlp
          rw [f6 l hlp, hpz] at this; simpa using this
        have k1 : (tmxVar1 c s i).n = 2 := by rw [e2]; simp [tmxSeg, ha, g5, hql, g6, hv, h2]
        have k2 : (tmxVar1 c s i).sel = [(l, s.off l), (l, s.off l)] := by rw [e2]; simp [tmxSeg, hql, g2, g3, g4]
        have k3 : ∀ p, (tmxVar1 c s i).offN p = if p = l then s.off l + 1 else s.off p := by
          intro p; rw [e2]; simp [tmxSeg, ha, g5, hql, g6, hv, h2, g3, g4]
        have k4 : (tmxVar1 c s i).portN = l := by rw [e2]; simp [tmxSeg, ha, g5, hql, g6, hv, h2]
        refine ⟨[], ?_, by simp, ?_, ?_, ?_, ?_, ?_, by simp, fun k a b ha => by simp at ha, by simp, ?_, by rw [k4]; exact hlp,
          fun _ => rfl, fun _ => .inr (.inr ⟨h2, by rw [k4]; exact hfree, ?_, by rw [k4, k3, if_pos rfl]⟩)⟩
        · refine tmxItems_none c _ fun k hk => ?_
          simp only [tmxOut, k1, k2]
          have : k = 0 ∨ k = 1 := by omega
          rcases this with rfl | rfl <;> simp [hfree]
        · intro p
          rw [k3]
          split
          next e => subst e; simp [ofPort, hfree]
          next e => simp [ofPort]
        · intro p; rw [k3]; split
          next e => subst e; omega
          next => omega
        · intro p; rw [k3]; split
          next e => subst e; omega
          next => omega
        · intro p k h1 h9 h3; rw [k3] at h3
          split at h3
          next e => have := ho l hlp; omega
          next => omega
        · intro p hp he hz
          rw [k3]
          split
          next e =>
            subst e
            rw [f7 p hp, hz, tmxFullV, if_pos (by omega), he 1 (by omega)] at hv
            simp at hv
          next => exact hz
        · intro _ h; rw [hf] at h; cases h
        · rw [k4]; rw [f7 l hlp, hpz] at hv; simpa using hv
      · have ha : (tmxArb c v1).2 = false := by simpa using ha
        refine fin [] ?_ (by rw [e2]; simp [tmxSeg, g2])
        rw [e2, ← hC0]
        refine tmxCom_more hC _ _ rfl ?_ ?_ ?_ ?_ ?_ <;> simp [tmxSeg, ha]

/-- One cycle, with words the multiplexer can cope with. -/
theorem tmxRes_all (c : TmxCfg) (s : Tmx) (i : TmxIn) (h0 : 0 < c.ports) (h1 : 0 < c.segs) (hp : s.port < c.ports)
    (ho : ∀ p < c.ports, s.off p < c.segs)
    (hw : c.segs ≤ 2 ∨ TmxClosed c s i) : ∃ O, TmxRes c s i O := by
  cases hr : s.skid.ready with
  | false => exact ⟨[], tmxRes_stall c s i hp hr⟩
  | true =>
    by_cases h2 : c.segs = 2
    · exact tmxRes_two c s i h2 h0 hp ho hr
    · have hc : TmxClosed c s i := by
        rcases hw with h | h
        · intro p _ k k' a b e
          rw [show k' = k by omega]; exact e
        · exact h
      rcases tmx_loop c s i h0 hp ho hr hc c.segs (Nat.le_refl _) with h | h
      · obtain ⟨C, hC⟩ := h.com
        exact ⟨_, tmxRes_com c s i h1 C hC h.len hr⟩
      · obtain ⟨C, hC⟩ := h.com
        exact ⟨_, tmxRes_com c s i h1 C hC h.len hr⟩

end Verif.Proofs
