import Verif.Spec.TlpFifo
/-! Proofs about the TLP FIFO with one segment per word. -/
namespace Verif.Proofs
open Verif.Model Verif.Spec

theorem tlpWhole_snoc (l : List TlpSeg) (x : TlpSeg) : tlpWhole (l ++ [x]) = if x.eop then l ++ [x] else tlpWhole l := by
  unfold tlpWhole
  rw [List.reverse_append, List.reverse_cons, List.reverse_nil, List.nil_append, List.singleton_append, List.dropWhile_cons]
  cases x.eop <;> simp

theorem tlpWhole_prefix (l : List TlpSeg) : tlpWhole l <+: l := by
  obtain ⟨t, ht⟩ := List.dropWhile_suffix (l := l.reverse) (fun x => !x.eop)
  refine ⟨t.reverse, ?_⟩
  rw [tlpWhole, ← List.reverse_append, ht, List.reverse_reverse]

theorem tlpWhole_length (l : List TlpSeg) : (tlpWhole l).length ≤ l.length := (tlpWhole_prefix l).length_le

theorem tlpWhole_take (l : List TlpSeg) : tlpWhole l = l.take (tlpWhole l).length :=
  List.prefix_iff_eq_take.mp (tlpWhole_prefix l)

theorem tlpWhole_mono (l m : List TlpSeg) : (tlpWhole l).length ≤ (tlpWhole (l ++ m)).length := by
  induction m generalizing l with
  | nil => simp
  | cons x m ih =>
    have h1 := ih (l ++ [x])
    rw [List.append_assoc, List.singleton_append] at h1
    refine Nat.le_trans ?_ h1
    rw [tlpWhole_snoc]
    split
    · have := tlpWhole_length l; simp; omega
    · exact Nat.le_refl _

/-- The register behind the memory. -/
def tffMid (s : Tff) : List TlpSeg := if s.rdV then [s.rdSeg] else []

/-- Invariant: `acc` has been accepted, `tk` taken and `R` words read from the memory. -/
structure TffInv (c : TffCfg) (s : Tff) (acc tk : List TlpSeg) (R : Nat) : Prop where
  front : tk ++ tffShown s ++ tffMid s = acc.take R
  rle : R ≤ (tlpWhole acc).length
  wr : s.wr = (tlpWhole acc).length % 2 ^ (c.addrW + 1)
  wrCur : s.wrCur = acc.length % 2 ^ (c.addrW + 1)
  rd : s.rd = R % 2 ^ (c.addrW + 1)
  wrAddr : s.wrAddr = acc.length % 2 ^ c.addrW
  rdAddr : s.rdAddr = R % 2 ^ c.addrW
  mem : ∀ k, R ≤ k → (h : k < acc.length) → s.mem (k % 2 ^ c.addrW) = acc[k]
  room : acc.length + 1 ≤ R + c.words
  notFull : s.full = false → acc.length + 2 ≤ R + c.words

theorem tff_mod_ne {n m k : Nat} (h1 : m ≤ n) (h2 : n < m + k) : (n % k != m % k) = decide (m < n) := by
  by_cases h : m = n
  · subst h; simp
  · have h3 : n % k ≠ m % k := by
      intro he
      have e : (n - m) % k = 0 := Nat.sub_mod_eq_zero_of_mod_eq he
      rw [Nat.mod_eq_of_lt (by omega)] at e
      omega
    rw [decide_eq_true (by omega)]
    simpa using h3

theorem tff_count_eq {c : TffCfg} {s : Tff} {acc tk : List TlpSeg} {R : Nat} (hc : TffOk c) (h : TffInv c s acc tk R) :
    tffCount c s = acc.length - R := by
  have h1 := Nat.le_trans h.rle (tlpWhole_length acc)
  have h2 := h.room
  have h3 := hc.fit
  have hp : 2 ^ (c.addrW + 1) = 2 * 2 ^ c.addrW := by rw [Nat.pow_succ, Nat.mul_comm]
  have hpos : 0 < 2 ^ c.addrW := Nat.two_pow_pos _
  unfold tffCount
  rw [h.wrCur, h.rd, hp]
  generalize hM : 2 * 2 ^ c.addrW = M
  have hR : R % M ≤ M := Nat.le_of_lt (Nat.mod_lt _ (by omega))
  have e1 := Nat.div_add_mod acc.length M
  have e2 := Nat.div_add_mod R M
  have hlt : acc.length - R < M := by omega
  have : (acc.length % M + M - R % M + M * (acc.length / M)) = (acc.length - R) + M * (R / M + 1) := by
    rw [Nat.mul_add]; omega
  have h4 : (acc.length % M + M - R % M + M * (acc.length / M)) % M = ((acc.length - R) + M * (R / M + 1)) % M := by rw [this]
  rw [Nat.add_mul_mod_self_left, Nat.add_mul_mod_self_left, Nat.mod_eq_of_lt hlt] at h4
  exact h4

theorem tff_nonempty {c : TffCfg} {s : Tff} {acc tk : List TlpSeg} {R : Nat} (hc : TffOk c) (h : TffInv c s acc tk R) :
    (s.wr != s.rd) = decide (R < (tlpWhole acc).length) := by
  have h1 := tlpWhole_length acc
  have h2 := h.room
  have h3 := hc.fit
  have hp : 2 ^ (c.addrW + 1) = 2 * 2 ^ c.addrW := by rw [Nat.pow_succ, Nat.mul_comm]
  have hpos : 0 < 2 ^ c.addrW := Nat.two_pow_pos _
  rw [h.wr, h.rd, hp]
  exact tff_mod_ne h.rle (by omega)

/-- The next number of words read. -/
def tffR (s : Tff) (i : TffIn) (R : Nat) : Nat := if tffRead s i then R + 1 else R

/-- The accepted segments after one more cycle. -/
def tffA (s : Tff) (i : TffIn) (acc : List TlpSeg) : List TlpSeg := acc ++ (if tffReady s && i.valid then [i.seg] else [])

theorem tff_step {c : TffCfg} {s : Tff} {acc tk : List TlpSeg} {R : Nat} (hc : TffOk c) (h : TffInv c s acc tk R)
    (i : TffIn) (hr : i.rst = false) :
    TffInv c (tffStep c s i) (tffA s i acc) (tk ++ (if i.ready then tffShown s else [])) (tffR s i R) := by
  have hne := tff_nonempty hc h
  have hcnt := tff_count_eq hc h
  have hpos : 0 < 2 ^ c.addrW := Nat.two_pow_pos _
  have hp : 2 ^ (c.addrW + 1) = 2 * 2 ^ c.addrW := by rw [Nat.pow_succ, Nat.mul_comm]
  have hl := tlpWhole_length acc
  have hRle : tffR s i R ≤ (tlpWhole acc).length := by
    have := h.rle
    unfold tffR tffRead
    rw [hne]
    split
    · rename_i hh; simp at hh; omega
    · exact this
  have hRge : R ≤ tffR s i R := by unfold tffR; split <;> omega
  have hRlt : tffRead s i = true → R < (tlpWhole acc).length := by
    intro hh; unfold tffRead at hh; rw [hne] at hh; simp at hh; exact hh.2
  have hacc : tffAcc s i = (tffReady s && i.valid) := rfl
  have hmono : (tlpWhole acc).length ≤ (tlpWhole (tffA s i acc)).length := tlpWhole_mono _ _
  have hAlen : (tffA s i acc).length = acc.length + (if tffAcc s i then 1 else 0) := by
    unfold tffA; rw [List.length_append, ← hacc]; split <;> rfl
  refine ⟨?_, ?_, ?_, ?_, ?_, ?_, ?_, ?_, ?_, ?_⟩
  · -- front
    have hto : (tffA s i acc).take (tffR s i R) = acc.take (tffR s i R) := by
      unfold tffA; rw [List.take_append_of_le_length (by omega)]
    have hnext : acc.take (tffR s i R) = acc.take R ++ (if tffRead s i then [s.mem s.rdAddr] else []) := by
      unfold tffR
      cases hh : tffRead s i with
      | false => simp
      | true =>
        have := hRlt hh
        have hk : R < acc.length := by omega
        simp only [if_true]
        rw [List.take_succ_eq_append_getElem hk, h.rdAddr, h.mem R (Nat.le_refl _) hk]
    rw [hto, hnext, ← h.front]
    have eo : (tffStep c s i).out = if tffTake s i then s.rdSeg else s.out := rfl
    have eov : (tffStep c s i).outV = if tffTake s i then s.rdV else s.outV := by simp [tffStep, hr]
    have em : (tffStep c s i).rdSeg = if tffRead s i then s.mem s.rdAddr else s.rdSeg := rfl
    have emv : (tffStep c s i).rdV = if tffLoad s i then s.wr != s.rd else s.rdV := by simp [tffStep, hr]
    unfold tffShown tffMid
    rw [eo, eov, em, emv]
    have hrd : tffRead s i = (tffLoad s i && s.wr != s.rd) := rfl
    have hld : tffLoad s i = (!s.rdV || tffTake s i) := rfl
    have htk : tffTake s i = (!s.outV || i.ready) := rfl
    rw [hrd, hld, htk]
    cases s.outV <;> cases i.ready <;> cases s.rdV <;> cases (s.wr != s.rd) <;> simp
  · exact Nat.le_trans hRle hmono
  · have e : (tffStep c s i).wr = if tffAcc s i && i.seg.eop then tffWrNext c s i else s.wr := by simp [tffStep, hr]
    rw [e]
    unfold tffA
    rw [← hacc]
    cases ha : tffAcc s i with
    | false => simpa using h.wr
    | true =>
      simp only [if_true, Bool.true_and]
      rw [tlpWhole_snoc]
      cases i.seg.eop with
      | false => simpa using h.wr
      | true => simp [tffWrNext, ha, h.wrCur]
  · have e : (tffStep c s i).wrCur = tffWrNext c s i := by simp [tffStep, hr]
    rw [e, hAlen, tffWrNext]
    split
    · rw [h.wrCur]; simp
    · exact h.wrCur
  · have e : (tffStep c s i).rd = tffRdNext c s i := by simp [tffStep, hr]
    rw [e, tffRdNext, tffR]
    split
    · rw [h.rd]; simp
    · exact h.rd
  · have e : (tffStep c s i).wrAddr = if tffAcc s i then tffWrNext c s i % 2 ^ c.addrW else s.wrAddr := by simp [tffStep, hr]
    rw [e, hAlen, tffWrNext]
    split
    · rw [h.wrCur, Nat.mod_mod_of_dvd _ ⟨2, by rw [hp, Nat.mul_comm]⟩, Nat.add_mod, Nat.mod_mod_of_dvd _ ⟨2, by rw [hp, Nat.mul_comm]⟩, ← Nat.add_mod]
    · exact h.wrAddr
  · have e : (tffStep c s i).rdAddr = if tffRead s i then tffRdNext c s i % 2 ^ c.addrW else s.rdAddr := by simp [tffStep, hr]
    rw [e, tffRdNext, tffR]
    split
    · rw [h.rd, Nat.mod_mod_of_dvd _ ⟨2, by rw [hp, Nat.mul_comm]⟩, Nat.add_mod, Nat.mod_mod_of_dvd _ ⟨2, by rw [hp, Nat.mul_comm]⟩, ← Nat.add_mod]
    · exact h.rdAddr
  · intro k hk hk'
    have e : (tffStep c s i).mem = fun k => if tffAcc s i && k == s.wrAddr then i.seg else s.mem k := rfl
    rw [e]
    have hfit := hc.fit
    have hroom := h.room
    unfold tffA at hk' ⊢
    simp only [← hacc] at hk' ⊢
    rcases Bool.eq_false_or_eq_true (tffAcc s i) with ha | ha
    rotate_left
    · simp only [ha, Bool.false_eq_true, if_false, Bool.false_and, List.append_nil] at hk' ⊢
      exact h.mem k (by omega) hk'
    · simp only [ha, if_true, Bool.true_and] at hk' ⊢
      by_cases hkl : k < acc.length
      · have hn : (k % 2 ^ c.addrW == s.wrAddr) = false := by
          rw [h.wrAddr]
          have := tff_mod_ne (n := acc.length) (m := k) (k := 2 ^ c.addrW) (by omega) (by omega)
          rw [decide_eq_true hkl] at this
          simp at this ⊢
          exact fun e => this e.symm
        rw [hn]
        simp only [Bool.false_eq_true, if_false]
        rw [List.getElem_append_left hkl]
        exact h.mem k (by omega) hkl
      · have : k = acc.length := by simp at hk'; omega
        subst this
        rw [h.wrAddr]
        simp
  · rw [hAlen]
    have h1 := h.room
    have h2 := h.notFull
    split
    · rename_i ha
      have : s.full = false := by
        unfold tffAcc tffReady at ha
        simp at ha
        exact ha.1
      have := h2 this
      omega
    · omega
  · intro hf
    have e : (tffStep c s i).full = decide (c.words - 2 ≤ tffCount c s) := by simp [tffStep, hr]
    rw [e, hcnt] at hf
    simp only [decide_eq_false_iff_not] at hf
    have h1 := h.rle
    rw [hAlen]
    split <;> omega

theorem tff_reset (c : TffCfg) (hc : TffOk c) (s : Tff) (r : TffIn) (hr : r.rst = true) : TffInv c (tffStep c s r) [] [] 0 := by
  have := hc.two
  refine ⟨?_, ?_, ?_, ?_, ?_, ?_, ?_, ?_, ?_, ?_⟩ <;> simp [tffStep, hr, tffShown, tffMid, tlpWhole] <;> omega

theorem tff_run {c : TffCfg} (hc : TffOk c) (is : List TffIn) {s : Tff} {acc tk : List TlpSeg} {R : Nat}
    (h : TffInv c s acc tk R) (hi : ∀ i ∈ is, i.rst = false) :
    ∃ R', R ≤ R' ∧ TffInv c (tffRun c s is) (acc ++ tffAccepted c s is) (tk ++ tffTaken c s is) R' := by
  induction is generalizing s acc tk R with
  | nil => exact ⟨R, Nat.le_refl _, by simpa [tffRun, tffAccepted, tffTaken] using h⟩
  | cons i is ih =>
    have h1 := tff_step hc h i (hi i (by simp))
    obtain ⟨R', hR, h2⟩ := ih h1 (fun x hx => hi x (by simp [hx]))
    refine ⟨R', Nat.le_trans ?_ hR, ?_⟩
    · unfold tffR; split <;> omega
    · simpa [tffRun, tffAccepted, tffTaken, tffA, List.append_assoc] using h2

/-- With the receiver ready, everything complete is read, one word per cycle. -/
theorem tff_drain {c : TffCfg} (hc : TffOk c) (is : List TffIn) {s : Tff} {acc tk : List TlpSeg} {R : Nat}
    (h : TffInv c s acc tk R) (hi : ∀ i ∈ is, i.rst = false) (hrd : ∀ i ∈ is, i.ready = true) :
    ∃ R', TffInv c (tffRun c s is) (acc ++ tffAccepted c s is) (tk ++ tffTaken c s is) R' ∧
      ((tlpWhole acc).length ≤ R' ∨ R + is.length ≤ R') := by
  induction is generalizing s acc tk R with
  | nil => exact ⟨R, by simpa [tffRun, tffAccepted, tffTaken] using h, Or.inr (by simp)⟩
  | cons i is ih =>
    have h1 := tff_step hc h i (hi i (by simp))
    obtain ⟨R', h2, h3⟩ := ih h1 (fun x hx => hi x (by simp [hx])) (fun x hx => hrd x (by simp [hx]))
    refine ⟨R', by simpa [tffRun, tffAccepted, tffTaken, tffA, List.append_assoc] using h2, ?_⟩
    have hm : (tlpWhole acc).length ≤ (tlpWhole (tffA s i acc)).length := tlpWhole_mono _ _
    rcases h3 with h3 | h3
    · left; omega
    · have hR : tffRead s i = decide (R < (tlpWhole acc).length) := by
        unfold tffRead tffLoad tffTake
        rw [hrd i (by simp), tff_nonempty hc h]
        simp
      unfold tffR at h3
      rw [hR] at h3
      by_cases hlt : R < (tlpWhole acc).length
      · right
        simp only [hlt, decide_true, if_true, List.length_cons] at h3 ⊢
        omega
      · left
        simp only [hlt, decide_false, Bool.false_eq_true, if_false] at h3
        omega

/-- Two more cycles, and what was read is taken. -/
theorem tff_two {c : TffCfg} (hc : TffOk c) {s : Tff} {acc tk : List TlpSeg} {R : Nat} (h : TffInv c s acc tk R)
    (i j : TffIn) (hi : i.rst = false) (hri : i.ready = true) (hrj : j.ready = true) :
    tk ++ tffTaken c s [i, j] = acc.take R := by
  rw [← h.front]
  have eo : (tffStep c s i).out = if tffTake s i then s.rdSeg else s.out := rfl
  have eov : (tffStep c s i).outV = if tffTake s i then s.rdV else s.outV := by simp [tffStep, hi]
  have ht : tffTake s i = true := by simp [tffTake, hri]
  rw [ht] at eo eov
  have : tffShown (tffStep c s i) = tffMid s := by
    unfold tffShown tffMid; rw [eo, eov]; simp
  simp [tffTaken, hri, hrj, this]

/-- The number of segments inside, as seen from outside. -/
theorem tff_occupancy (c : TffCfg) (hc : TffOk c) (s : Tff) (r : TffIn) (hr : r.rst = true) (is : List TffIn)
    (hi : ∀ i ∈ is, i.rst = false) :
    (tffTaken c (tffStep c s r) is).length + tffCount c (tffRun c (tffStep c s r) is) ≤ (tffAccepted c (tffStep c s r) is).length ∧
    (tffAccepted c (tffStep c s r) is).length ≤ (tffTaken c (tffStep c s r) is).length + tffCount c (tffRun c (tffStep c s r) is) + 2 ∧
    tffCount c (tffRun c (tffStep c s r) is) + 1 ≤ c.words := by
  obtain ⟨R, -, h⟩ := tff_run hc is (tff_reset c hc s r hr) hi
  have hf := congrArg List.length h.front
  have hle := Nat.le_trans h.rle (tlpWhole_length _)
  have hro := h.room
  have hcnt := tff_count_eq hc h
  rw [List.length_take, Nat.min_eq_left hle] at hf
  simp only [List.nil_append, List.length_append] at hf hle hro hcnt
  have h1 : (tffShown (tffRun c (tffStep c s r) is)).length ≤ 1 := by unfold tffShown; split <;> simp
  have h2 : (tffMid (tffRun c (tffStep c s r) is)).length ≤ 1 := by unfold tffMid; split <;> simp
  rw [hcnt]
  omega

theorem tffTaken_append (c : TffCfg) (s : Tff) (a b : List TffIn) :
    tffTaken c s (a ++ b) = tffTaken c s a ++ tffTaken c (tffRun c s a) b := by
  induction a generalizing s with
  | nil => rfl
  | cons x a ih => simp only [List.cons_append, tffTaken, tffRun, ih, List.append_assoc]

theorem tffAccepted_append (c : TffCfg) (s : Tff) (a b : List TffIn) :
    tffAccepted c s (a ++ b) = tffAccepted c s a ++ tffAccepted c (tffRun c s a) b := by
  induction a generalizing s with
  | nil => rfl
  | cons x a ih => simp only [List.cons_append, tffAccepted, tffRun, ih, List.append_assoc]

theorem tffRun_append (c : TffCfg) (s : Tff) (a b : List TffIn) : tffRun c s (a ++ b) = tffRun c (tffRun c s a) b := by
  induction a generalizing s with
  | nil => rfl
  | cons x a ih => simp only [List.cons_append, tffRun, ih]

theorem tff_last_two (js : List TffIn) (h : 2 ≤ js.length) : ∃ ks x y, js = ks ++ [x, y] := by
  have h1 : js ≠ [] := by intro e; simp [e] at h
  have h2 : js.dropLast ≠ [] := by
    intro e
    have := List.length_dropLast (xs := js)
    rw [e] at this
    simp at this
    omega
  refine ⟨js.dropLast.dropLast, js.dropLast.getLast h2, js.getLast h1, ?_⟩
  have e1 := List.dropLast_concat_getLast h1
  have e2 := List.dropLast_concat_getLast h2
  calc js = js.dropLast ++ [js.getLast h1] := e1.symm
    _ = (js.dropLast.dropLast ++ [js.dropLast.getLast h2]) ++ [js.getLast h1] := by rw [e2]
    _ = _ := by simp

theorem tff_split (js : List TffIn) (n : Nat) (h : n + 2 ≤ js.length) : ∃ ks x y ls, js = ks ++ x :: y :: ls ∧ ks.length = n := by
  refine ⟨js.take n, js[n], js[n + 1], js.drop (n + 2), ?_, by simp; omega⟩
  rw [List.getElem_cons_drop, List.getElem_cons_drop, List.take_append_drop]

theorem tffEverReady_append (c : TffCfg) (s : Tff) (a b : List TffIn) :
    tffEverReady c s (a ++ b) ↔ tffEverReady c s a ∨ tffEverReady c (tffRun c s a) b := by
  induction a generalizing s with
  | nil => simp [tffEverReady, tffRun]
  | cons x a ih => simp only [List.cons_append, tffEverReady, tffRun, ih, or_assoc]

theorem tffAccepted_none (c : TffCfg) (s : Tff) (a : List TffIn) (h : ¬ tffEverReady c s a) : tffAccepted c s a = [] := by
  induction a generalizing s with
  | nil => rfl
  | cons x a ih =>
    have h := not_or.mp h
    rw [tffAccepted, ih _ h.2]
    simp [h.1]

theorem tff_stuck {c : TffCfg} (hc : TffOk c) (js : List TffIn) {s : Tff} {acc tk : List TlpSeg} {R : Nat}
    (h : TffInv c s acc tk R) (hu : (tlpWhole acc).length + (c.words - 2) ≤ acc.length) (hf : tffReady s = false)
    (hj : ∀ j ∈ js, j.rst = false) : ¬ tffEverReady c s js := by
  induction js generalizing s tk R with
  | nil => exact id
  | cons j js ih =>
    have h1 := tff_step hc h j (hj j (by simp))
    have hA : tffA s j acc = acc := by simp [tffA, hf]
    rw [hA] at h1
    have hfull : (tffStep c s j).full = decide (c.words - 2 ≤ tffCount c s) := by simp [tffStep, hj j (by simp)]
    have hr := h.rle
    have h2 := ih h1 (by rw [tffReady, hfull, tff_count_eq hc h, decide_eq_true (by omega)]; rfl)
      (fun x hx => hj x (by simp [hx]))
    rintro (h3 | h3)
    · rw [hf] at h3; simp at h3
    · exact h2 h3

end Verif.Proofs
