import Verif.Proofs.Msi
/-!
C53, C54, C55: the MSI shims of the UltraScale and Stratix 10 cores.

`s10MsiStep n s r` and `usMsiStep n s r` with `r.rst = true` are the states after a reset, from any state.
-/
namespace Verif.Props
open Verif Verif.Model Verif.Spec Verif.Proofs

/-! ### C53: messages have causes -/

/-- **C53**, common part of the two proofs. -/
theorem core_last {n : Nat} (hn : 0 < n) (is : List MsiCoreIn) (i : MsiCoreIn)
    (hr : ∀ j ∈ is, j.rst = false) (hd : ∀ j ∈ is, j.clear = true → j.done = true)
    (before : List MsiObs) (o : MsiObs) (he : coreObs n {} (is ++ [i]) = before ++ [o]) (k : Nat)
    (hf : o.flight = some k) : k < n ∧ msiSent k before < irqEdges k false before := by
  rw [coreObs_append] at he
  obtain ⟨h1, h2⟩ := List.append_inj' he rfl
  simp only [coreObs, List.cons.injEq, and_true] at h2
  subst h1
  rw [← h2] at hf
  have h0 := (coreInv_reset n {} { rst := true, irq := fun _ => false, enable := false, start := false, multiple := 0
                                   masked := fun _ => false, done := false, clear := false } rfl).2
  refine ⟨?_, core_cause hn k is {} h0 rfl rfl hr hd hf⟩
  have hg := (coreInv_run hn is {} h0)
  unfold coreFlight at hf
  cases hac : (coreRun n {} is).active with
  | false => simp only [hac] at hf; simp at hf
  | true =>
    simp only [hac] at hf; simp at hf
    rcases hg.grant with ⟨g, -⟩ | ⟨-, g, -⟩
    · rw [hg.act hac] at g; simp at g
    · rw [hf] at g; exact g

/-- **C53**, Stratix 10. After a reset and any history: when a message is in flight in some cycle, it is the message of
an existing vector, and fewer messages of this vector have been sent before than its interrupt input had rising
edges. So messages never outnumber interrupts. -/
theorem C53_s10_cause (n : Nat) (hn : 0 < n) (h32 : n ≤ 32) (s : S10Msi) (r : S10MsiIn) (hrst : r.rst = true)
    (is : List S10MsiIn) (i : S10MsiIn) (hr : ∀ j ∈ is, j.rst = false) (before : List MsiObs) (o : MsiObs)
    (he : s10Obs n (s10MsiStep n s r) (is ++ [i]) = before ++ [o]) (k : Nat) (hf : o.flight = some k) :
    k < n ∧ msiSent k before < irqEdges k false before := by
  obtain ⟨e, h⟩ := s10Inv_reset n s r hrst
  rw [e, s10Obs_core hn h32 _ _ h, List.map_append] at he
  refine core_last hn (is.map S10MsiIn.core) i.core ?_ ?_ before o he k hf
  · intro j hj; obtain ⟨x, hx, rfl⟩ := List.mem_map.mp hj; exact hr x hx
  · intro j hj; obtain ⟨x, hx, rfl⟩ := List.mem_map.mp hj; exact id

/-- **C53**, UltraScale. -/
theorem C53_us_cause (n : Nat) (hn : 0 < n) (s : UsMsi) (r : UsMsiIn) (hrst : r.rst = true)
    (is : List UsMsiIn) (i : UsMsiIn) (hr : ∀ j ∈ is, j.rst = false) (hri : i.rst = false) (before : List MsiObs) (o : MsiObs)
    (he : usObs n none (usMsiStep n s r) (is ++ [i]) = before ++ [o]) (k : Nat) (hf : o.flight = some k) :
    k < n ∧ msiSent k before < irqEdges k false before := by
  obtain ⟨e, h⟩ := usInv_reset n s r hrst
  rw [e, usObs_core hn _ _ _ (by
    intro j hj
    rcases List.mem_append.mp hj with hj | hj
    · exact hr j hj
    · rw [List.mem_singleton.mp hj]; exact hri) h, List.map_append] at he
  refine core_last hn (is.map UsMsiIn.core) i.core ?_ ?_ before o he k hf
  · intro j hj; obtain ⟨x, hx, rfl⟩ := List.mem_map.mp hj; exact hr x hx
  · intro j hj; obtain ⟨x, hx, rfl⟩ := List.mem_map.mp hj; intro hc
    show (x.sent || x.fail) = true
    have : x.sent = true := hc
    simp [this]

/-- **C53**, Stratix 10: a request is held with its number until it is acknowledged. -/
theorem C53_s10_held (n : Nat) (hn : 0 < n) (h32 : n ≤ 32) (s : S10Msi) (r : S10MsiIn) (hrst : r.rst = true)
    (is : List S10MsiIn) (i : S10MsiIn) (hi : i.rst = false) (hack : i.ack = false)
    (hreq : (s10MsiRun n (s10MsiStep n s r) is).core.active = true) :
    (s10MsiRun n (s10MsiStep n s r) (is ++ [i])).core.active = true ∧
    (s10MsiRun n (s10MsiStep n s r) (is ++ [i])).num = (s10MsiRun n (s10MsiStep n s r) is).num := by
  obtain ⟨e, h⟩ := s10Inv_reset n s r hrst
  rw [e] at hreq ⊢
  have h1 := s10Inv_run hn h32 is _ h
  have h2 := s10Inv_run hn h32 (is ++ [i]) _ h
  have e2 : ∀ (l : List S10MsiIn) (s : S10Msi), s10MsiRun n s (l ++ [i]) = s10MsiStep n (s10MsiRun n s l) i := by
    intro l; induction l with
    | nil => intro s; rfl
    | cons x l ih => intro s; exact ih _
  rw [e2] at h2 ⊢
  generalize s10MsiRun n {} is = t at *
  have hf : coreFlight t.core = some t.core.arb.encoded := by simp [coreFlight, hreq]
  have hh := core_flight_hold t.core i.core hi h1.1 _ hf hack
  have hc : (s10MsiStep n t i).core = msiCoreStep n t.core i.core := rfl
  unfold coreFlight at hh
  rw [← hc] at hh
  cases hac : (s10MsiStep n t i).core.active with
  | false => simp [hac] at hh
  | true =>
    simp [hac] at hh
    exact ⟨rfl, by rw [h2.2 hac, hh, h1.2 hreq]⟩

/-- **C53**, UltraScale: `cfg_interrupt_msi_int` is zero or one-hot. -/
theorem C53_us_onehot (n : Nat) (hn : 0 < n) (s : UsMsi) (r : UsMsiIn) (hrst : r.rst = true)
    (is : List UsMsiIn) (hr : ∀ j ∈ is, j.rst = false) :
    (usMsiRun n (usMsiStep n s r) is).int = 0 ∨ ∃ k < n, (usMsiRun n (usMsiStep n s r) is).int = 2 ^ k := by
  obtain ⟨e, h⟩ := usInv_reset n s r hrst
  rw [e]
  rcases List.eq_nil_or_concat is with h0 | ⟨p, i, h0⟩
  · rw [h0]; exact Or.inl rfl
  · have h0 : is = p ++ [i] := by simpa using h0
    subst h0
    have e2 : ∀ (l : List UsMsiIn) (s : UsMsi), usMsiRun n s (l ++ [i]) = usMsiStep n (usMsiRun n s l) i := by
      intro l; induction l with
      | nil => intro s; rfl
      | cons x l ih => intro s; exact ih _
    rw [e2]
    obtain ⟨f, h1⟩ := usInv_run hn p none _ (fun j hj => hr j (List.mem_append_left _ hj)) h
    generalize usMsiRun n {} p = t at *
    simp only [usMsiStep]
    split
    · exact Or.inl rfl
    · split
      · rename_i hst
        rcases h1.1.grant with ⟨g, -⟩ | ⟨-, g1, g2⟩
        · simp [msiStart, g] at hst
        · exact Or.inr ⟨_, g1, g2⟩
      · exact Or.inl rfl

/-! ### C54: interrupts are signalled -/

/-- **C54**, Stratix 10. After a reset and any history `pre`, let interrupt input `k` rise in a cycle. If from then on
the configuration enables the vector, and every message is acknowledged within `a` cycles, then message `k` is in flight
in one of the next `n * (a + 1) + 3` cycles, whatever the other interrupts do. If it is not in flight in the cycle of the
edge, this is a new message. Missing from the full property: a new message also for an edge that comes while an earlier
message of the same vector is in flight, see `C54_s10_fails`. -/
theorem C54_s10_partial (n k a : Nat) (hk : k < n) (h32 : n ≤ 32) (ha0 : 0 < a) (s : S10Msi) (r : S10MsiIn)
    (hrst : r.rst = true) (pre : List S10MsiIn) (i : S10MsiIn) (post : List S10MsiIn)
    (hr : ∀ j ∈ pre ++ i :: post, j.rst = false)
    (hlow : ∀ j, pre.getLast? = some j → j.irq k = false) (hhigh : i.irq k = true)
    (hen : ∀ j ∈ post, S10Enabled k j)
    (hans : AnswersWithin a 0 (s10Obs n (s10MsiRun n (s10MsiStep n s r) (pre ++ [i])) post))
    (hl : n * (a + 1) + 3 ≤ post.length) :
    ∃ o ∈ s10Obs n (s10MsiRun n (s10MsiStep n s r) (pre ++ [i])) post, o.flight = some k := by
  have hn : 0 < n := by omega
  obtain ⟨e, h⟩ := s10Inv_reset n s r hrst
  rw [e] at hans ⊢
  have h1 := s10Inv_run hn h32 (pre ++ [i]) _ h
  have h0 := s10Inv_run hn h32 pre _ h
  rw [s10Obs_core hn h32 _ _ h1, s10Run_core, List.map_append, coreRun_append] at hans ⊢
  rw [S10Inv, s10Run_core] at h0
  refine core_edge_live a k ha0 hk _ i.core h0.1 (hr i (by simp)) ?_ hhigh _ ?_ hans (by simpa using hl)
  · refine coreRun_irq k _ _ rfl ?_ ?_
    · intro j hj; obtain ⟨x, hx, rfl⟩ := List.mem_map.mp hj; exact hr x (by simp [hx])
    · intro j hj
      rw [List.getLast?_map] at hj
      obtain ⟨x, hx, rfl⟩ := Option.map_eq_some_iff.mp hj
      exact hlow x hx
  · intro j hj
    obtain ⟨x, hx, rfl⟩ := List.mem_map.mp hj
    obtain ⟨e1, e2, e3⟩ := hen x hx
    exact ⟨hr x (by simp [hx]), e1, e1, e2, (msgEnable_iff _ _).mpr e3⟩

/-- **C54**, UltraScale, likewise; a message that fails is answered, too. -/
theorem C54_us_partial (n k a : Nat) (hk : k < n) (ha0 : 0 < a) (s : UsMsi) (r : UsMsiIn)
    (hrst : r.rst = true) (pre : List UsMsiIn) (i : UsMsiIn) (post : List UsMsiIn)
    (hr : ∀ j ∈ pre ++ i :: post, j.rst = false)
    (hlow : ∀ j, pre.getLast? = some j → j.irq k = false) (hhigh : i.irq k = true)
    (hen : ∀ j ∈ post, UsEnabled k j) (now later : List MsiObs)
    (hobs : usObs n none (usMsiStep n s r) (pre ++ [i] ++ post) = now ++ later) (hlen : now.length = pre.length + 1)
    (hans : AnswersWithin a 0 later)
    (hl : n * (a + 1) + 3 ≤ post.length) :
    ∃ o ∈ later, o.flight = some k := by
  have hn : 0 < n := by omega
  obtain ⟨e, h⟩ := usInv_reset n s r hrst
  rw [e, usObs_core hn _ _ _ (by simpa using hr) h, List.map_append, coreObs_append] at hobs
  have len : ∀ (l : List MsiCoreIn) (s : MsiCore), (coreObs n s l).length = l.length := by
    intro l; induction l with
    | nil => intro s; rfl
    | cons x l ih => intro s; simp [coreObs, ih]
  obtain ⟨-, he⟩ := List.append_inj hobs (by rw [len]; simp [hlen])
  rw [List.map_append, coreRun_append] at he
  rw [← he] at hans ⊢
  have h0 := coreInv_run hn (pre.map UsMsiIn.core) _ h.1
  refine core_edge_live a k ha0 hk _ i.core h0 (hr i (by simp)) ?_ hhigh _ ?_ hans (by simpa using hl)
  · refine coreRun_irq k _ _ rfl ?_ ?_
    · intro j hj; obtain ⟨x, hx, rfl⟩ := List.mem_map.mp hj; exact hr x (by simp [hx])
    · intro j hj
      rw [List.getLast?_map] at hj
      obtain ⟨x, hx, rfl⟩ := Option.map_eq_some_iff.mp hj
      exact hlow x hx
  · intro j hj
    obtain ⟨x, hx, rfl⟩ := List.mem_map.mp hj
    obtain ⟨e1, e2, e3⟩ := hen x hx
    refine ⟨hr x (by simp [hx]), ?_, ?_, e2, (msgEnable_iff _ _).mpr e3⟩
    · show x.enable.testBit 0 = true
      simp [e1]
    · show (x.enable % 16 != 0) = true
      simp; omega

/-- Inputs of the Stratix 10 examples: two vectors enabled, the given interrupt levels and acknowledge. -/
def msiExIn (i0 i1 ack : Bool) : S10MsiIn :=
  { irq := fun k => (k == 0 && i0) || (k == 1 && i1), enable := true, multiple := 1, masked := fun _ => false, ack := ack }

/-- Interrupt 0 rises; while its message is in flight it falls and rises again; then the message is acknowledged. -/
def msiExLost : List S10MsiIn :=
  [msiExIn true false false, msiExIn false false false, msiExIn false false false, msiExIn false false false,
   msiExIn true false false, msiExIn true false true, msiExIn false false false, msiExIn false false false]

theorem s10_quiet (n : Nat) (hn : 0 < n) (N : Nat) (s : S10Msi) (h1 : s.core.active = false) (h2 : s.core.arb.valid = false)
    (hg : s.core.arb.grant = 0) (h3 : ∀ k < n, s.core.pend k = false) (h4 : ∀ k < n, s.core.irq k = false) :
    ∀ o ∈ s10Obs n s (List.replicate N (msiExIn false false false)), o.flight = none := by
  induction N generalizing s with
  | zero => intro o ho; simp [s10Obs] at ho
  | succ N ih =>
    intro o ho
    rw [List.replicate_succ, s10Obs] at ho
    rcases List.mem_cons.mp ho with rfl | ho
    · simp [h1]
    · have hq : msiRequest n s.core = 0 := by
        apply Nat.eq_of_testBit_eq
        intro k
        rw [msiRequest_testBit, Nat.zero_testBit]
        by_cases hk : k < n
        · simp [h3 k hk]
        · simp [hk]
      have harb : (s10MsiStep n s (msiExIn false false false)).core.arb = ⟨0, false, 0, s.core.arb.mask⟩ := by
        have e : (s10MsiStep n s (msiExIn false false false)).core.arb =
          arbStep (msiArb n) s.core.arb ⟨false, msiRequest n s.core, 0⟩ := by
          simp [s10MsiStep, msiCoreStep, S10MsiIn.core, msiExIn, msiAnswered, h1]
        rw [e, hq, arbStep, if_neg (by simp), if_neg (by simp [arbHold, h2, hg])]
        rcases choose_cases (msiArb n) hn s.core.arb ⟨false, 0, 0⟩ with ⟨-, e⟩ | ⟨⟨j, -, hj⟩, -⟩ | ⟨⟨j, -, hj⟩, -⟩
        · exact e
        · simp at hj
        · simp at hj
      refine ih _ ?_ (by rw [harb]) (by rw [harb]) ?_ ?_ o ho
      · simp [s10MsiStep, msiCoreStep, S10MsiIn.core, msiExIn, h1, h2]
      · intro k hk
        simp [s10MsiStep, msiCoreStep, S10MsiIn.core, msiExIn, msiAnswered, h1, h3 k hk, h4 k hk]
      · intro k hk
        simp [s10MsiStep, msiCoreStep, S10MsiIn.core, msiExIn]

/-- **C54 fails** for an edge that comes while an earlier message of the same vector is in flight: in `msiExLost` interrupt 0
rises twice, the second time when its first message is already requested. Only one message is sent, and none is
ever requested afterwards, although the vector stays enabled. -/
theorem C54_s10_fails :
    irqEdges 0 false (s10Obs 2 {} msiExLost) = 2 ∧ msiSent 0 (s10Obs 2 {} msiExLost) = 1 ∧
    (∀ o, (s10Obs 2 {} msiExLost)[4]? = some o → o.irq 0 = true ∧ o.flight = some 0) ∧
    (∀ o, (s10Obs 2 {} msiExLost)[3]? = some o → o.irq 0 = false) ∧
    ∀ N, ∀ o ∈ s10Obs 2 (s10MsiRun 2 {} msiExLost) (List.replicate N (msiExIn false false false)), o.flight = none := by
  refine ⟨by decide +kernel, by decide +kernel, ?_, ?_, ?_⟩
  · intro o ho; cases ho; decide +kernel
  · intro o ho; cases ho; decide +kernel
  · intro N
    exact s10_quiet 2 (by omega) N _ (by decide +kernel) (by decide +kernel) (by decide +kernel) (by decide +kernel) (by decide +kernel)

/-- Non-vacuity of `C54_s10_partial`: both interrupts rise in the first cycle, and messages are acknowledged at once. -/
example : AnswersWithin 1 0 (s10Obs 2 (s10MsiRun 2 {} [msiExIn true true false]) (List.replicate 7 (msiExIn true true true))) ∧
    (s10Obs 2 (s10MsiRun 2 {} [msiExIn true true false]) (List.replicate 7 (msiExIn true true true))).map MsiObs.flight =
      [none, none, none, some 0, none, some 1, none] := by
  constructor
  · simp [List.replicate, s10Obs, AnswersWithin, msiExIn]
  · decide +kernel

example : ∀ j ∈ List.replicate 7 (msiExIn true true true), S10Enabled 1 j := by
  intro j hj
  rw [List.eq_of_mem_replicate hj]
  exact ⟨rfl, rfl, by unfold vectorAllowed; decide⟩

/-! ### C55: masked vectors are silent -/

/-- **C55**, Stratix 10. A new message is one that the configuration allowed three cycles before it is requested, if MSI
was enabled two cycles before. Missing from the full property: without the latter the configuration that allowed
the message can be arbitrarily old, see `C55_s10_fails`. -/
theorem C55_s10_partial (n k : Nat) (hn : 0 < n) (h32 : n ≤ 32) (s : S10Msi) (r : S10MsiIn) (hrst : r.rst = true)
    (pre : List S10MsiIn) (i0 i1 i2 : S10MsiIn) (h0 : i0.rst = false) (h1 : i1.rst = false) (h2 : i2.rst = false)
    (hen : i1.enable = true)
    (hbefore : (s10MsiRun n (s10MsiStep n s r) (pre ++ [i0, i1])).core.active = false)
    (hreq : (s10MsiRun n (s10MsiStep n s r) (pre ++ [i0, i1, i2])).core.active = true)
    (hnum : (s10MsiRun n (s10MsiStep n s r) (pre ++ [i0, i1, i2])).num = k) : S10Enabled k i0 := by
  obtain ⟨e, h⟩ := s10Inv_reset n s r hrst
  rw [e] at hbefore hreq hnum
  have hf := s10Inv_run hn h32 (pre ++ [i0, i1, i2]) _ h
  have hi := s10Inv_run hn h32 pre _ h
  have hk := hf.2 hreq
  rw [hnum] at hk
  rw [s10Run_core, List.map_append, coreRun_append] at hbefore hreq hk
  rw [S10Inv, s10Run_core] at hi
  have := core_masked hn _ i0.core i1.core i2.core hi.1 h0 h1 h2 hen k
    (by unfold coreFlight; simp only [coreRun, List.map_cons, List.map_nil] at hbefore; rw [hbefore]; rfl)
    (by unfold coreFlight; simp only [coreRun, List.map_cons, List.map_nil] at hreq hk; rw [hreq, ← hk]; rfl)
  exact ⟨this.1, this.2.1, (msgEnable_iff _ _).mp this.2.2⟩

/-- **C55**, UltraScale, likewise: `cfg_interrupt_msi_int` asks for message `k`. -/
theorem C55_us_partial (n k : Nat) (hn : 0 < n) (s : UsMsi) (r : UsMsiIn) (hrst : r.rst = true)
    (pre : List UsMsiIn) (i0 i1 i2 : UsMsiIn) (hr : ∀ j ∈ pre ++ [i0, i1, i2], j.rst = false)
    (hen : i1.enable % 2 = 1)
    (hreq : (usMsiRun n (usMsiStep n s r) (pre ++ [i0, i1, i2])).int = 2 ^ k) : UsEnabled k i0 := by
  obtain ⟨e, h⟩ := usInv_reset n s r hrst
  rw [e] at hreq
  have app : ∀ (a b : List UsMsiIn) (s : UsMsi), usMsiRun n s (a ++ b) = usMsiRun n (usMsiRun n s a) b := by
    intro a b; induction a with
    | nil => intro s; rfl
    | cons x l ih => intro s; exact ih _
  obtain ⟨f, hi⟩ := usInv_run hn pre none _ (fun j hj => hr j (List.mem_append_left _ hj)) h
  rw [app] at hreq
  generalize usMsiRun n {} pre = t at *
  have hp := Nat.two_pow_pos k
  have h0 : i0.core.rst = false := hr i0 (by simp)
  have h1 : i1.core.rst = false := hr i1 (by simp)
  have h2 : i2.core.rst = false := hr i2 (by simp)
  have a1 := usInv_step hn f t i0 h0 hi
  have a2 := usInv_step hn _ _ i1 h1 a1
  have a3 := usInv_step hn _ _ i2 h2 a2
  have e3 : usMsiRun n t [i0, i1, i2] = usMsiStep n (usMsiStep n (usMsiStep n t i0) i1) i2 := rfl
  rw [e3] at hreq
  have hst : msiStart (usMsiStep n (usMsiStep n t i0) i1).core i2.core = true := by
    cases hh : msiStart (usMsiStep n (usMsiStep n t i0) i1).core i2.core with
    | true => rfl
    | false =>
      have hx : ∀ x : UsMsi, (usMsiStep n x i2).int =
          if i2.rst then 0 else if msiStart x.core i2.core then x.core.arb.grant else 0 := fun _ => rfl
      rw [hx, hh] at hreq
      split at hreq
      · omega
      · simp at hreq; omega
  have hna : (usMsiStep n (usMsiStep n t i0) i1).core.active = false := by
    unfold msiStart at hst
    cases hh : (usMsiStep n (usMsiStep n t i0) i1).core.active with
    | false => rfl
    | true => rw [hh] at hst; simp at hst
  have hfl := a3.2
  rw [hreq, if_neg (by omega), Nat.log2_two_pow] at hfl
  have := core_masked hn t.core i0.core i1.core i2.core hi.1 h0 h1 h2
    (by show (i1.enable % 16 != 0) = true; simp; omega) k (by
      have e : (usMsiStep n (usMsiStep n t i0) i1).core = msiCoreStep n (msiCoreStep n t.core i0.core) i1.core := rfl
      rw [← e, coreFlight, hna]; rfl) hfl.symm
  refine ⟨?_, this.2.1, (msgEnable_iff _ _).mp this.2.2⟩
  have he : i0.enable.testBit 0 = true := this.1
  simpa using he

/-- Inputs with MSI enable and the mask of vector 1 given. -/
def msiExCfg (i1 en m1 : Bool) : S10MsiIn :=
  { irq := fun k => k == 1 && i1, enable := en, multiple := 1, masked := fun k => k == 1 && m1, ack := false }

/-- Interrupt 1 rises; MSI is disabled; vector 1 is masked; MSI is enabled again. -/
def msiExStale : List S10MsiIn :=
  [msiExCfg true true false, msiExCfg false true false, msiExCfg false false false, msiExCfg false false false] ++
  List.replicate 8 (msiExCfg false false true) ++ [msiExCfg false true true]

/-- **C55 fails** in general: the arbiter keeps a grant while MSI is disabled. Here message 1 is requested although
vector 1 has been masked for nine cycles (and the number of cycles could be any). -/
theorem C55_s10_fails :
    (s10MsiRun 2 {} (msiExStale.take 12)).core.active = false ∧
    (s10MsiRun 2 {} msiExStale).core.active = true ∧ (s10MsiRun 2 {} msiExStale).num = 1 ∧
    ∀ i ∈ msiExStale.drop 4, i.masked 1 = true := by
  refine ⟨by decide +kernel, by decide +kernel, by decide +kernel, ?_⟩
  intro i hi
  simp [msiExStale] at hi
  rcases hi with ⟨-, rfl⟩ | rfl <;> rfl

/-- Non-vacuity of `C55_s10_partial`. -/
example : (s10MsiRun 2 {} ([msiExIn false true false] ++ [msiExIn false true false, msiExIn false true false])).core.active = false ∧
    (s10MsiRun 2 {} ([msiExIn false true false] ++ [msiExIn false true false, msiExIn false true false, msiExIn false true false])).core.active = true ∧
    (s10MsiRun 2 {} ([msiExIn false true false] ++ [msiExIn false true false, msiExIn false true false, msiExIn false true false])).num = 1 := by
  decide +kernel

/-- Inputs of the UltraScale example. -/
def usMsiExIn (i1 sent fail : Bool) : UsMsiIn :=
  { irq := fun k => k == 1 && i1, enable := 1, mmenable := 1, data := fun _ => false, sent := sent, fail := fail }

/-- Non-vacuity of the UltraScale theorems: message 1 fails and is repeated. -/
example :
    (usObs 2 none {} ([usMsiExIn true false false, usMsiExIn false false false, usMsiExIn false false false,
      usMsiExIn false false false, usMsiExIn false false true] ++ List.replicate 4 (usMsiExIn false true false))).map MsiObs.flight =
      [none, none, none, none, some 1, none, none, some 1, none] ∧
    (usMsiRun 2 {} [usMsiExIn true false false, usMsiExIn false false false, usMsiExIn false false false,
      usMsiExIn false false false]).int = 2 := by decide +kernel

end Verif.Props
