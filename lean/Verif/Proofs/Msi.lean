import Verif.Spec.Msi
import Verif.Proofs.Arbiter
/-! Helper lemmas for the MSI shims. -/
namespace Verif.Proofs
open Verif Verif.Model Verif.Spec

/-- The message the common part is sending. -/
def coreFlight (s : MsiCore) : Option Nat := if s.active then some s.arb.encoded else none

/-- What is seen of the common part. -/
def coreObs (n : Nat) : MsiCore → List MsiCoreIn → List MsiObs
  | _, [] => []
  | s, i :: is =>
    { irq := i.irq, flight := coreFlight s, answered := i.done, sent := i.clear } :: coreObs n (msiCoreStep n s i) is

def coreRun (n : Nat) : MsiCore → List MsiCoreIn → MsiCore
  | s, [] => s
  | s, i :: is => coreRun n (msiCoreStep n s i) is

structure CoreInv (n : Nat) (s : MsiCore) : Prop where
  grant : GrantOk (msiArb n) s.arb
  rr : ∃ m, MaskOk (msiArb n) s.arb m
  act : s.active = true → s.arb.valid = true
  pend : s.arb.valid = true → s.pend s.arb.encoded = true

theorem grant_testBit {n : Nat} {a : Arb} (h : GrantOk (msiArb n) a) (k : Nat) :
    a.grant.testBit k = (a.valid && decide (a.encoded = k)) := by
  rcases h with ⟨h1, h2, -⟩ | ⟨h1, -, h2⟩
  · simp [h1, h2]
  · rw [h1, h2, Nat.testBit_two_pow]; simp

theorem coreInv_reset (n : Nat) (s : MsiCore) (i : MsiCoreIn) (hr : i.rst = true) :
    msiCoreStep n s i = {} ∧ CoreInv n {} := by
  refine ⟨by simp [msiCoreStep, hr], Or.inl ⟨rfl, rfl, rfl⟩, mask_init _, fun h => by simp at h, fun h => by simp at h⟩

theorem msiRequest_testBit (n : Nat) (s : MsiCore) (k : Nat) : (msiRequest n s).testBit k =
    (decide (k < n) && (s.pend k && s.mask k && !s.arb.grant.testBit k)) := testBit_vec _ _ _

/-- The arbiter either keeps its grant or chooses anew. -/
theorem core_arb {n : Nat} (s : MsiCore) (i : MsiCoreIn) (hr : i.rst = false) (h : CoreInv n s) :
    (s.arb.valid = true ∧ msiAnswered s i = false ∧ (msiCoreStep n s i).arb = s.arb) ∨
    ((s.arb.valid = false ∨ msiAnswered s i = true) ∧ ∃ ack, (msiCoreStep n s i).arb =
      arbChoose (msiArb n) s.arb { rst := false, request := msiRequest n s, acknowledge := ack }) := by
  have hh := hold_iff (msiArb n) s.arb { rst := false, request := msiRequest n s, acknowledge := if msiAnswered s i then s.arb.grant else 0 } h.grant
  have e : (msiCoreStep n s i).arb = arbStep (msiArb n) s.arb { rst := false, request := msiRequest n s, acknowledge := if msiAnswered s i then s.arb.grant else 0 } := by
    simp [msiCoreStep, hr]
  unfold Unreleased at hh
  cases hv : s.arb.valid with
  | false =>
    right
    refine ⟨Or.inl rfl, (if msiAnswered s i then s.arb.grant else 0), ?_⟩
    rw [e, arbStep, if_neg (by simp), if_neg (by rw [hh]; simp [hv])]
  | true =>
    cases ha : msiAnswered s i with
    | false =>
      left
      refine ⟨rfl, rfl, ?_⟩
      rw [e, arbStep, if_neg (by simp), if_pos (by rw [hh]; simp [hv, ha, msiArb])]
    | true =>
      right
      refine ⟨Or.inr rfl, s.arb.grant, ?_⟩
      rw [e, arbStep, if_neg (by simp), if_neg (by rw [hh, ha]; simp [hv, msiArb, grant_testBit h.grant])]
      rw [ha]; rfl

theorem coreInv_step {n : Nat} (hn : 0 < n) (s : MsiCore) (i : MsiCoreIn) (h : CoreInv n s) :
    CoreInv n (msiCoreStep n s i) := by
  cases hr : i.rst with
  | true => rw [(coreInv_reset n s i hr).1]; exact (coreInv_reset n s i hr).2
  | false =>
    have e : (msiCoreStep n s i).arb = arbStep (msiArb n) s.arb { rst := false, request := msiRequest n s, acknowledge := if msiAnswered s i then s.arb.grant else 0 } := by
      simp [msiCoreStep, hr]
    have hpend : ∀ k, (msiCoreStep n s i).pend k = ((s.pend k || (s.irq k && !s.last k)) &&
        !(msiAnswered s i && i.clear && s.arb.grant.testBit k)) := by intro k; simp [msiCoreStep, hr]
    have hact : (msiCoreStep n s i).active = if s.active then !i.done else i.start && s.arb.valid := by
      simp [msiCoreStep, hr]
    refine ⟨by rw [e]; exact step_ok _ hn _ _ h.grant, by rw [e]; exact mask_step _ rfl hn _ _ h.rr, ?_, ?_⟩
    · intro ha
      rw [hact] at ha
      rcases core_arb s i hr h with ⟨h1, -, h3⟩ | ⟨h1, -⟩
      · rw [h3]; exact h1
      · rcases h1 with h1 | h1
        · cases hs : s.active with
          | true => rw [h.act hs] at h1; simp at h1
          | false => rw [hs, h1] at ha; simp at ha
        · simp [msiAnswered] at h1; simp [h1] at ha
    · intro hv
      rcases core_arb s i hr h with ⟨h1, h2, h3⟩ | ⟨h1, ack, h2⟩
      · rw [h3, hpend, h.pend h1, h2]; simp
      · rw [h2] at hv
        have hc := (choose_request (msiArb n) hn _ _ hv).2.1
        rw [h2, hpend]
        rw [msiRequest_testBit] at hc
        simp at hc
        simp [hc]

theorem coreInv_run {n : Nat} (hn : 0 < n) (is : List MsiCoreIn) (s : MsiCore) (h : CoreInv n s) :
    CoreInv n (coreRun n s is) := by
  induction is generalizing s with
  | nil => exact h
  | cons i is ih => exact ih _ (coreInv_step hn s i h)

/-! ### Messages and edges -/

/-- Edges accounted for in the state. -/
def corePot (s : MsiCore) (k : Nat) : Nat := (s.pend k).toNat + (s.irq k && !s.last k).toNat

theorem core_count {n : Nat} (hn : 0 < n) (k : Nat) (is : List MsiCoreIn) (s : MsiCore) (h : CoreInv n s)
    (hr : ∀ i ∈ is, i.rst = false) (hd : ∀ i ∈ is, i.clear = true → i.done = true) :
    msiSent k (coreObs n s is) + corePot (coreRun n s is) k ≤ corePot s k + irqEdges k (s.irq k) (coreObs n s is) := by
  induction is generalizing s with
  | nil => simp [coreObs, coreRun, msiSent]
  | cons i is ih =>
    have hi := hr i List.mem_cons_self
    have := ih _ (coreInv_step hn s i h) (fun j hj => hr j (List.mem_cons_of_mem _ hj))
      (fun j hj => hd j (List.mem_cons_of_mem _ hj))
    have e1 : (msiCoreStep n s i).irq k = i.irq k := by simp [msiCoreStep, hi]
    have e2 : (msiCoreStep n s i).last k = s.irq k := by simp [msiCoreStep, hi]
    have e3 : (msiCoreStep n s i).pend k = ((s.pend k || (s.irq k && !s.last k)) &&
        !(msiAnswered s i && i.clear && s.arb.grant.testBit k)) := by simp [msiCoreStep, hi]
    simp only [coreObs, coreRun, msiSent, irqEdges]
    rw [e1] at this
    have key : (if (decide (coreFlight s = some k) && i.clear) = true then 1 else 0) + corePot (msiCoreStep n s i) k ≤
        corePot s k + (if (i.irq k && !s.irq k) = true then 1 else 0) := by
      unfold corePot coreFlight
      rw [e1, e2, e3, grant_testBit h.grant, msiAnswered]
      have hp := h.pend
      have ha := h.act
      cases hac : s.active with
      | false =>
        cases s.pend k <;> cases s.irq k <;> cases s.last k <;> cases i.irq k <;> simp
      | true =>
        rw [ha hac] at hp ⊢
        have hp := hp rfl
        by_cases hk : s.arb.encoded = k
        · subst hk
          rw [hp]
          have hdd := hd i List.mem_cons_self
          cases hc : i.clear with
          | false => cases s.irq s.arb.encoded <;> cases s.last s.arb.encoded <;> cases i.irq s.arb.encoded <;> simp
          | true =>
            rw [hdd hc]
            cases s.irq s.arb.encoded <;> cases s.last s.arb.encoded <;> cases i.irq s.arb.encoded <;> simp
        · simp only [hk, decide_false, Bool.and_false, Bool.not_false, Bool.and_true]
          cases s.pend k <;> cases s.irq k <;> cases s.last k <;> cases i.irq k <;> simp [hk]
    have : ∀ a b c d e f g h : Nat, a + b ≤ c + d → e + f ≤ b + g → (a + e) + f ≤ c + (d + g) := by omega
    apply this _ _ _ _ _ _ _ 0 key
    assumption

/-! ### Liveness -/

theorem msgEnable_iff (m k : Nat) : msgEnable m k = true ↔ vectorAllowed m k := by
  unfold msgEnable vectorAllowed
  split
  · rw [Nat.min_eq_right (by omega)]; simp
  · rw [Nat.min_eq_left (by omega)]; simp

structure CoreEnabled (k : Nat) (i : MsiCoreIn) : Prop where
  rst : i.rst = false
  enable : i.enable = true
  start : i.start = true
  masked : i.masked k = false
  multiple : msgEnable i.multiple k = true

/-- Cycles until message `k` is in flight, when its grant comes after `r` others. -/
def liveG (a r : Nat) : Nat := r * (a + 1) + 2

theorem liveG_succ (a r : Nat) : liveG a (r + 1) = (a + 1) + liveG a r := by
  unfold liveG; rw [Nat.succ_mul]; omega

theorem liveG_mono (a : Nat) {r q : Nat} (h : r ≤ q) : liveG a r ≤ liveG a q := by
  unfold liveG; have := Nat.mul_le_mul_right (a + 1) h; omega

def liveMu (n a k : Nat) (s : MsiCore) (w m : Nat) : Nat :=
  if s.active then (if s.arb.encoded = k then 1 else (a - w) + liveG a (rank (msiArb n) k m - 1))
  else if s.arb.valid then (if s.arb.encoded = k then 2 else 1 + a + liveG a (rank (msiArb n) k m - 1))
  else 1 + liveG a (rank (msiArb n) k m - 1)

theorem liveMu_le {n a k : Nat} (hk : k < n) (s : MsiCore) (w m : Nat) (hm : MaskOk (msiArb n) s.arb m) :
    liveMu n a k s w m ≤ liveG a n := by
  have hr := rank_le (msiArb n) s.arb k m hk hm
  have e : (msiArb n).ports = n := rfl
  rw [e] at hr
  have h2 : liveG a n = (a + 1) + liveG a (n - 1) := by rw [← liveG_succ]; congr 1; omega
  have h3 := liveG_mono a (show rank (msiArb n) k m - 1 ≤ n - 1 by omega)
  have h4 : 2 ≤ liveG a (n - 1) := by unfold liveG; omega
  unfold liveMu
  split
  · split <;> omega
  · split
    · split <;> omega
    · omega

theorem core_live {n : Nat} (hn : 0 < n) (a k : Nat) (hk : k < n) (is : List MsiCoreIn) (s : MsiCore) (w m : Nat)
    (h : CoreInv n s) (hp : s.pend k = true) (hma : s.mask k = true) (hm : MaskOk (msiArb n) s.arb m)
    (hw : w < a) (hi : ∀ i ∈ is, CoreEnabled k i) (ha : AnswersWithin a w (coreObs n s is))
    (hl : liveMu n a k s w m ≤ is.length) : ∃ o ∈ coreObs n s is, o.flight = some k := by
  induction is generalizing s w m with
  | nil =>
    exfalso
    have h1 : 2 ≤ liveG a (rank (msiArb n) k m - 1) := by unfold liveG; omega
    simp only [List.length_nil] at hl
    unfold liveMu at hl
    split at hl
    · split at hl <;> omega
    · split at hl
      · split at hl <;> omega
      · omega
  | cons i is ih =>
    have hie := hi i List.mem_cons_self
    by_cases hf : coreFlight s = some k
    · exact ⟨_, List.mem_cons_self, hf⟩
    have hi' := fun j hj => hi j (List.mem_cons_of_mem _ hj)
    have hinv := coreInv_step hn s i h
    have hgk : (msiAnswered s i && s.arb.grant.testBit k) = false := by
      rw [grant_testBit h.grant]
      unfold coreFlight at hf
      cases hac : s.active with
      | false => simp [msiAnswered, hac]
      | true => rw [hac] at hf; simp at hf; simp [hf]
    have hp' : (msiCoreStep n s i).pend k = true := by
      simp only [msiCoreStep, hie.rst, hp, Bool.true_or, Bool.true_and, Bool.false_eq_true, if_false]
      cases h1 : msiAnswered s i <;> cases h2 : s.arb.grant.testBit k <;> simp_all
    have hma' : (msiCoreStep n s i).mask k = true := by
      simp [msiCoreStep, hie.rst, hie.masked, hie.multiple, hie.enable]
    have hact' : (msiCoreStep n s i).active = if s.active then !i.done else s.arb.valid := by
      simp [msiCoreStep, hie.rst, hie.start]
    have eo : coreObs n s (i :: is) =
      { irq := i.irq, flight := coreFlight s, answered := i.done, sent := i.clear } :: coreObs n (msiCoreStep n s i) is := rfl
    rw [eo] at ha ⊢
    have fin : ∀ w' m', w' < a → MaskOk (msiArb n) (msiCoreStep n s i).arb m' →
        AnswersWithin a w' (coreObs n (msiCoreStep n s i) is) →
        liveMu n a k (msiCoreStep n s i) w' m' ≤ is.length →
        ∃ o ∈ { irq := i.irq, flight := coreFlight s, answered := i.done, sent := i.clear : MsiObs } ::
            coreObs n (msiCoreStep n s i) is, o.flight = some k := by
      intro w' m' h0 h1 h2 h3
      obtain ⟨o, ho, hok⟩ := ih _ w' m' hinv hp' hma' h1 h0 hi' h2 h3
      exact ⟨o, List.mem_cons_of_mem _ ho, hok⟩
    have hrank := rank_le (msiArb n) s.arb k m hk hm
    -- a fresh choice
    have choice : ∀ ack, s.arb.grant.testBit k = false → (msiCoreStep n s i).active = false →
        (msiCoreStep n s i).arb = arbChoose (msiArb n) s.arb { rst := false, request := msiRequest n s, acknowledge := ack } →
        AnswersWithin a 0 (coreObs n (msiCoreStep n s i) is) →
        liveG a (rank (msiArb n) k m - 1) ≤ is.length →
        ∃ o ∈ { irq := i.irq, flight := coreFlight s, answered := i.done, sent := i.clear : MsiObs } ::
            coreObs n (msiCoreStep n s i) is, o.flight = some k := by
      intro ack hg hna harb haw hle
      have hreq : (msiRequest n s).testBit k = true := by rw [msiRequest_testBit]; simp [hk, hp, hma, hg]
      obtain ⟨j, j1, j2, j3, j4, j5⟩ := choose_rank (msiArb n) rfl s.arb
        { rst := false, request := msiRequest n s, acknowledge := ack } k m hk hreq hm
      rw [← harb] at j1 j2 j4
      have hm' := mask_choose (msiArb n) _ j j3 j4
      have el : (msiArb n).lsb = true := rfl
      rw [el] at hm' j5
      simp only [if_true] at hm' j5
      refine fin 0 (j + 1) (by omega) hm' haw ?_
      unfold liveMu
      rw [hna, j2, j1]
      simp only [Bool.false_eq_true, if_false, if_true]
      by_cases hjk : j = k
      · rw [if_pos hjk]
        have : 2 ≤ liveG a (rank (msiArb n) k m - 1) := by unfold liveG; omega
        omega
      · rw [if_neg hjk]
        rcases j5 with j5 | j5
        · exact absurd j5 hjk
        have hr2 := rank_le (msiArb n) _ k (j + 1) hk hm'
        have := liveG_mono a (show rank (msiArb n) k (j + 1) - 1 ≤ rank (msiArb n) k m - 1 - 1 by omega)
        have h2 : liveG a (rank (msiArb n) k m - 1) = (a + 1) + liveG a (rank (msiArb n) k m - 1 - 1) := by
          rw [← liveG_succ]; congr 1; omega
        omega
    simp only [List.length_cons] at hl
    unfold AnswersWithin at ha
    simp only at ha
    cases hac : s.active with
    | true =>
      have hne : ¬ s.arb.encoded = k := by
        intro e; apply hf; simp [coreFlight, hac, e]
      have hv := h.act hac
      have hg : s.arb.grant.testBit k = false := by rw [grant_testBit h.grant]; simp [hne]
      have hfs : (coreFlight s).isSome = true := by simp [coreFlight, hac]
      unfold liveMu at hl
      rw [hac] at hl
      simp only [if_true, hne, if_false] at hl
      have hdc : i.done = true ∨ i.done = false := by cases i.done <;> simp
      rcases hdc with hdn | hdn
      ·
        rw [hfs, hdn] at ha
        simp at ha
        rcases core_arb s i hie.rst h with ⟨-, h2, -⟩ | ⟨-, ack, h2⟩
        · simp [msiAnswered, hac, hdn] at h2
        · exact choice ack hg (by rw [hact', hac, hdn]; rfl) h2 ha (by omega)
      ·
        rw [hfs, hdn] at ha
        simp at ha
        rcases core_arb s i hie.rst h with ⟨-, -, h3⟩ | ⟨h1, -⟩
        · refine fin (w + 1) m ha.1 (by rw [h3]; exact hm) ha.2 ?_
          unfold liveMu
          rw [hact', hac, hdn, h3]
          simp only [Bool.not_false, if_true, hne, if_false]
          omega
        · rcases h1 with h1 | h1
          · rw [hv] at h1; simp at h1
          · simp [msiAnswered, hac, hdn] at h1
    | false =>
      have hfs : (coreFlight s).isSome = false := by simp [coreFlight, hac]
      rw [hfs] at ha
      simp at ha
      unfold liveMu at hl
      rw [hac] at hl
      simp only [Bool.false_eq_true, if_false] at hl
      cases hv : s.arb.valid with
      | false =>
        have hg : s.arb.grant.testBit k = false := by rw [grant_testBit h.grant]; simp [hv]
        rw [hv] at hl
        simp only [Bool.false_eq_true, if_false] at hl
        rcases core_arb s i hie.rst h with ⟨h1, -⟩ | ⟨-, ack, h2⟩
        · rw [hv] at h1; simp at h1
        · exact choice ack hg (by rw [hact', hac, hv]; rfl) h2 ha (by omega)
      | true =>
        rw [hv] at hl
        simp only [if_true] at hl
        rcases core_arb s i hie.rst h with ⟨-, -, h3⟩ | ⟨h1, -⟩
        · refine fin 0 m (by omega) (by rw [h3]; exact hm) ha ?_
          unfold liveMu
          rw [hact', hac, hv, h3]
          simp only [Bool.false_eq_true, if_true, if_false]
          split
          · rename_i e; rw [if_pos e] at hl; omega
          · rename_i e; rw [if_neg e] at hl; omega
        · rcases h1 with h1 | h1
          · rw [hv] at h1; simp at h1
          · simp [msiAnswered, hac] at h1

/-! ### The two shims -/

theorem core_edge_live {n : Nat} (a k : Nat) (ha0 : 0 < a) (hk : k < n) (s : MsiCore) (i : MsiCoreIn) (h : CoreInv n s)
    (hr : i.rst = false) (hlow : s.irq k = false) (hhigh : i.irq k = true)
    (post : List MsiCoreIn) (hi : ∀ j ∈ post, CoreEnabled k j)
    (ha : AnswersWithin a 0 (coreObs n (msiCoreStep n s i) post)) (hl : n * (a + 1) + 3 ≤ post.length) :
    ∃ o ∈ coreObs n (msiCoreStep n s i) post, o.flight = some k := by
  have hn : 0 < n := by omega
  have h1 := coreInv_step hn s i h
  have e1 : (msiCoreStep n s i).irq k = true := by simp [msiCoreStep, hr, hhigh]
  have e2 : (msiCoreStep n s i).last k = false := by simp [msiCoreStep, hr, hlow]
  generalize msiCoreStep n s i = s1 at *
  cases post with
  | nil => simp at hl
  | cons j post =>
    have hj := hi j List.mem_cons_self
    have eo : coreObs n s1 (j :: post) =
      { irq := j.irq, flight := coreFlight s1, answered := j.done, sent := j.clear } :: coreObs n (msiCoreStep n s1 j) post := rfl
    rw [eo] at ha ⊢
    by_cases hf : coreFlight s1 = some k
    · exact ⟨_, List.mem_cons_self, hf⟩
    have hp : (msiCoreStep n s1 j).pend k = true := by
      have : (msiAnswered s1 j && s1.arb.grant.testBit k) = false := by
        rw [grant_testBit h1.grant]
        unfold coreFlight at hf
        cases hac : s1.active with
        | false => simp [msiAnswered, hac]
        | true => rw [hac] at hf; simp at hf; simp [hf]
      simp only [msiCoreStep, hj.rst, e1, e2, Bool.not_false, Bool.and_true, Bool.or_true, Bool.true_and, Bool.false_eq_true,
        if_false]
      cases h1 : msiAnswered s1 j <;> cases h2 : s1.arb.grant.testBit k <;> simp_all
    have hma : (msiCoreStep n s1 j).mask k = true := by
      simp [msiCoreStep, hj.rst, hj.masked, hj.multiple, hj.enable]
    have h2 := coreInv_step hn s1 j h1
    obtain ⟨m, hm⟩ := h2.rr
    have hb : ∀ w, liveMu n a k (msiCoreStep n s1 j) w m ≤ post.length := by
      intro w
      have := liveMu_le (a := a) hk (msiCoreStep n s1 j) w m hm
      simp only [List.length_cons] at hl
      unfold liveG at this
      omega
    have haw : ∃ w, w < a ∧ AnswersWithin a w (coreObs n (msiCoreStep n s1 j) post) := by
      unfold AnswersWithin at ha
      split at ha
      · exact ⟨_, ha⟩
      · exact ⟨0, ha0, ha⟩
    obtain ⟨w, hw, haw⟩ := haw
    obtain ⟨o, ho, hok⟩ := core_live hn a k hk post _ w m h2 hp hma hm hw
      (fun x hx => hi x (List.mem_cons_of_mem _ hx)) haw (hb w)
    exact ⟨o, List.mem_cons_of_mem _ ho, hok⟩

/-- A message that is in flight stays until it is answered. -/
theorem core_flight_hold {n : Nat} (s : MsiCore) (i : MsiCoreIn) (hr : i.rst = false) (h : CoreInv n s) (k : Nat)
    (hf : coreFlight s = some k) (hd : i.done = false) : coreFlight (msiCoreStep n s i) = some k := by
  unfold coreFlight at *
  cases hac : s.active with
  | false => rw [hac] at hf; simp at hf
  | true =>
    rw [hac] at hf
    have e : (msiCoreStep n s i).active = true := by simp [msiCoreStep, hr, hac, hd]
    rw [e]
    rcases core_arb s i hr h with ⟨-, -, h3⟩ | ⟨h1, -⟩
    · rw [h3]; exact hf
    · rcases h1 with h1 | h1
      · rw [h.act hac] at h1; simp at h1
      · simp [msiAnswered, hd] at h1

/-- A new message was allowed when the arbiter chose it. -/
theorem core_masked {n : Nat} (hn : 0 < n) (s : MsiCore) (i0 i1 i2 : MsiCoreIn) (h : CoreInv n s) (h0 : i0.rst = false)
    (h1 : i1.rst = false) (h2 : i2.rst = false) (hs : i1.start = true) (k : Nat)
    (hb : coreFlight (msiCoreStep n (msiCoreStep n s i0) i1) = none)
    (hf : coreFlight (msiCoreStep n (msiCoreStep n (msiCoreStep n s i0) i1) i2) = some k) :
    i0.enable = true ∧ i0.masked k = false ∧ msgEnable i0.multiple k = true := by
  have hi1 := coreInv_step hn s i0 h
  have hmask : (msiCoreStep n s i0).mask k = (!i0.masked k && msgEnable i0.multiple k && i0.enable) := by
    simp [msiCoreStep, h0]
  generalize msiCoreStep n s i0 = s1 at *
  have hi2 := coreInv_step hn s1 i1 hi1
  have hact2 : (msiCoreStep n s1 i1).active = if s1.active then !i1.done else s1.arb.valid := by
    simp [msiCoreStep, h1, hs]
  have hx := core_arb s1 i1 h1 hi1
  generalize msiCoreStep n s1 i1 = s2 at *
  have hna : s2.active = false := by
    unfold coreFlight at hb
    cases hh : s2.active with
    | false => rfl
    | true => rw [hh] at hb; simp at hb
  have hact3 : (msiCoreStep n s2 i2).active = (i2.start && s2.arb.valid) := by
    simp [msiCoreStep, h2, hna]
  unfold coreFlight at hf
  cases h3 : (msiCoreStep n s2 i2).active with
  | false => rw [h3] at hf; simp at hf
  | true =>
    rw [h3] at hf hact3
    simp at hf
    have hv : s2.arb.valid = true := by
      cases hv : s2.arb.valid with
      | true => rfl
      | false => rw [hv] at hact3; simp at hact3
    have he : s2.arb.encoded = k := by
      rcases core_arb s2 i2 h2 hi2 with ⟨-, -, e⟩ | ⟨hz, -⟩
      · rw [e] at hf; exact hf
      · rcases hz with hz | hz
        · rw [hv] at hz; simp at hz
        · simp [msiAnswered, hna] at hz
    rcases hx with ⟨x1, x2, -⟩ | ⟨-, ack, x2⟩
    · rw [hna] at hact2
      cases hac : s1.active with
      | false => rw [hac, x1] at hact2; simp at hact2
      | true =>
        rw [hac] at hact2; simp at hact2
        simp [msiAnswered, hac, hact2] at x2
    · rw [x2] at hv he
      have hc := (choose_request (msiArb n) hn _ _ hv).2.1
      rw [he, msiRequest_testBit] at hc
      simp [hmask] at hc
      exact ⟨hc.2.1.2.2, hc.2.1.2.1.1, hc.2.1.2.1.2⟩

theorem s10Run_core (n : Nat) (is : List S10MsiIn) (s : S10Msi) :
    (s10MsiRun n s is).core = coreRun n s.core (is.map S10MsiIn.core) := by
  induction is generalizing s with
  | nil => rfl
  | cons i is ih => exact ih _

def S10Inv (n : Nat) (s : S10Msi) : Prop := CoreInv n s.core ∧ (s.core.active = true → s.num = s.core.arb.encoded)

theorem s10Inv_reset (n : Nat) (s : S10Msi) (i : S10MsiIn) (hr : i.rst = true) :
    s10MsiStep n s i = {} ∧ S10Inv n {} := by
  have h := coreInv_reset n s.core i.core hr
  exact ⟨by simp [s10MsiStep, h.1, hr], h.2, fun h => by simp at h⟩

theorem s10Inv_step {n : Nat} (hn : 0 < n) (h32 : n ≤ 32) (s : S10Msi) (i : S10MsiIn) (h : S10Inv n s) :
    S10Inv n (s10MsiStep n s i) := by
  cases hr : i.rst with
  | true => rw [(s10Inv_reset n s i hr).1]; exact (s10Inv_reset n s i hr).2
  | false =>
    have hr' : i.core.rst = false := hr
    refine ⟨coreInv_step hn _ _ h.1, ?_⟩
    have e1 : (s10MsiStep n s i).core = msiCoreStep n s.core i.core := rfl
    have e2 : (s10MsiStep n s i).num = if msiStart s.core i.core then s.core.arb.encoded % 32 else s.num := by
      simp [s10MsiStep, hr]
    rw [e1, e2]
    intro ha
    have e3 : (msiCoreStep n s.core i.core).active = if s.core.active then !i.core.done else i.core.start && s.core.arb.valid := by
      simp [msiCoreStep, hr']
    rw [e3] at ha
    rcases core_arb s.core i.core hr' h.1 with ⟨h1, -, h3⟩ | ⟨h1, -⟩
    · rw [h3]
      cases hac : s.core.active with
      | true => simp [msiStart, hac, h.2 hac]
      | false =>
        rw [hac] at ha; simp at ha
        simp only [msiStart, hac, ha, Bool.not_false, Bool.and_true, if_true]
        rcases h.1.grant with ⟨g, -⟩ | ⟨-, g, -⟩
        · rw [h1] at g; simp at g
        · have : (msiArb n).ports = n := rfl
          exact Nat.mod_eq_of_lt (by omega)
    · rcases h1 with h1 | h1
      · cases hac : s.core.active with
        | true => rw [h.1.act hac] at h1; simp at h1
        | false => rw [hac, h1] at ha; simp at ha
      · simp [msiAnswered] at h1
        rw [h1.1, h1.2] at ha; simp at ha

theorem s10Obs_core {n : Nat} (hn : 0 < n) (h32 : n ≤ 32) (is : List S10MsiIn) (s : S10Msi) (h : S10Inv n s) :
    s10Obs n s is = coreObs n s.core (is.map S10MsiIn.core) := by
  induction is generalizing s with
  | nil => rfl
  | cons i is ih =>
    simp only [s10Obs, List.map_cons, coreObs]
    rw [ih _ (s10Inv_step hn h32 s i h)]
    have : (if s.core.active then some s.num else none) = coreFlight s.core := by
      unfold coreFlight
      cases hac : s.core.active with
      | false => rfl
      | true => simp [h.2 hac]
    rw [this]
    rfl

theorem s10Inv_run {n : Nat} (hn : 0 < n) (h32 : n ≤ 32) (is : List S10MsiIn) (s : S10Msi) (h : S10Inv n s) :
    S10Inv n (s10MsiRun n s is) := by
  induction is generalizing s with
  | nil => exact h
  | cons i is ih => exact ih _ (s10Inv_step hn h32 s i h)

theorem usRun_core (n : Nat) (is : List UsMsiIn) (s : UsMsi) :
    (usMsiRun n s is).core = coreRun n s.core (is.map UsMsiIn.core) := by
  induction is generalizing s with
  | nil => rfl
  | cons i is ih => exact ih _

/-- The pulse shows the message in its first cycle, and `f` remembers it. -/
def UsInv (n : Nat) (f : Option Nat) (s : UsMsi) : Prop :=
  CoreInv n s.core ∧ (if s.int = 0 then f else some (Nat.log2 s.int)) = coreFlight s.core

theorem usInv_reset (n : Nat) (s : UsMsi) (i : UsMsiIn) (hr : i.rst = true) :
    usMsiStep n s i = {} ∧ UsInv n none {} := by
  have h := coreInv_reset n s.core i.core hr
  exact ⟨by simp [usMsiStep, h.1, hr], h.2, by rfl⟩

theorem usInv_step {n : Nat} (hn : 0 < n) (f : Option Nat) (s : UsMsi) (i : UsMsiIn) (hr : i.rst = false)
    (h : UsInv n f s) :
    UsInv n (if i.sent || i.fail then none else coreFlight s.core) (usMsiStep n s i) := by
  have hr' : i.core.rst = false := hr
  refine ⟨coreInv_step hn _ _ h.1, ?_⟩
  have e1 : (usMsiStep n s i).core = msiCoreStep n s.core i.core := rfl
  have e2 : (usMsiStep n s i).int = if msiStart s.core i.core then s.core.arb.grant else 0 := by simp [usMsiStep, hr]
  rw [e1, e2]
  have e3 : (msiCoreStep n s.core i.core).active = if s.core.active then !i.core.done else i.core.start && s.core.arb.valid := by
    simp [msiCoreStep, hr']
  have hdone : i.core.done = (i.sent || i.fail) := rfl
  cases hac : s.core.active with
  | true =>
    simp only [msiStart, hac, Bool.not_true, Bool.false_and, Bool.false_eq_true, if_false, if_true]
    cases hd : i.core.done with
    | true =>
      rw [← hdone, hd]
      simp only [coreFlight, e3, hac, hd, if_true, Bool.not_true, Bool.false_eq_true, if_false]
    | false =>
      rw [← hdone, hd]
      simp only [Bool.false_eq_true, if_false]
      have hf : coreFlight s.core = some s.core.arb.encoded := by simp [coreFlight, hac]
      rw [core_flight_hold s.core i.core hr' h.1 _ hf hd, hf]
  | false =>
    have hf : coreFlight s.core = none := by simp [coreFlight, hac]
    cases hst : (i.core.start && s.core.arb.valid) with
    | false =>
      have : msiStart s.core i.core = false := by unfold msiStart; rw [Bool.and_assoc, hst]; simp
      simp only [this, Bool.false_eq_true, if_false, if_true, hf]
      simp only [coreFlight, e3, hac, hst, Bool.false_eq_true, if_false, ite_self]
    | true =>
      have : msiStart s.core i.core = true := by unfold msiStart; rw [Bool.and_assoc, hst, hac]; rfl
      simp only [this, if_true]
      simp at hst
      rcases h.1.grant with ⟨g, -⟩ | ⟨-, g2, g⟩
      · rw [hst.2] at g; simp at g
      rw [g, if_neg (by have := Nat.two_pow_pos s.core.arb.encoded; omega), Nat.log2_two_pow]
      simp only [coreFlight, e3, hac, hst, Bool.and_self, Bool.false_eq_true, if_false, if_true]
      rcases core_arb s.core i.core hr' h.1 with ⟨-, -, h3⟩ | ⟨h1, -⟩
      · rw [h3]
      · rcases h1 with h1 | h1
        · rw [hst.2] at h1; simp at h1
        · simp [msiAnswered, hac] at h1

theorem usObs_core {n : Nat} (hn : 0 < n) (is : List UsMsiIn) (f : Option Nat) (s : UsMsi)
    (hr : ∀ i ∈ is, i.rst = false) (h : UsInv n f s) :
    usObs n f s is = coreObs n s.core (is.map UsMsiIn.core) := by
  induction is generalizing s f with
  | nil => rfl
  | cons i is ih =>
    simp only [usObs, List.map_cons, coreObs]
    rw [h.2]
    rw [ih _ _ (fun j hj => hr j (List.mem_cons_of_mem _ hj)) (usInv_step hn f s i (hr i List.mem_cons_self) h)]
    rfl

/-- The message in flight after a history, as seen from outside. -/
theorem usInv_run {n : Nat} (hn : 0 < n) (is : List UsMsiIn) (f : Option Nat) (s : UsMsi)
    (hr : ∀ i ∈ is, i.rst = false) (h : UsInv n f s) : ∃ f', UsInv n f' (usMsiRun n s is) := by
  induction is generalizing s f with
  | nil => exact ⟨f, h⟩
  | cons i is ih => exact ih _ _ (fun j hj => hr j (List.mem_cons_of_mem _ hj)) (usInv_step hn f s i (hr i List.mem_cons_self) h)

theorem coreRun_irq {n : Nat} (k : Nat) (is : List MsiCoreIn) (s : MsiCore) (hs : s.irq k = false)
    (hr : ∀ i ∈ is, i.rst = false) (h : ∀ j, is.getLast? = some j → j.irq k = false) : (coreRun n s is).irq k = false := by
  induction is generalizing s with
  | nil => exact hs
  | cons i is ih =>
    have hi := hr i List.mem_cons_self
    cases is with
    | nil =>
      have := h i (by simp)
      simp [coreRun, msiCoreStep, hi, this]
    | cons j js =>
      rw [coreRun]
      -- the level before does not matter
      have gen : ∀ (l : List MsiCoreIn) (s : MsiCore), l ≠ [] → (∀ i ∈ l, i.rst = false) →
          (∀ j, l.getLast? = some j → j.irq k = false) → (coreRun n s l).irq k = false := by
        intro l
        induction l with
        | nil => intro s h0; exact absurd rfl h0
        | cons x l ihl =>
          intro s _ hr' h'
          cases l with
          | nil =>
            have := h' x (by simp)
            simp [coreRun, msiCoreStep, hr' x List.mem_cons_self, this]
          | cons y l =>
            exact ihl _ (by simp) (fun i hi => hr' i (List.mem_cons_of_mem _ hi)) (fun z hz => h' z (by simpa using hz))
      exact gen _ _ (by simp) (fun i hi => hr i (List.mem_cons_of_mem _ hi)) (fun z hz => h z (by simpa using hz))

theorem coreRun_append (n : Nat) (s : MsiCore) (a b : List MsiCoreIn) :
    coreRun n s (a ++ b) = coreRun n (coreRun n s a) b := by
  induction a generalizing s with
  | nil => rfl
  | cons i a ih => exact ih _

theorem coreObs_append (n : Nat) (s : MsiCore) (a b : List MsiCoreIn) :
    coreObs n s (a ++ b) = coreObs n s a ++ coreObs n (coreRun n s a) b := by
  induction a generalizing s with
  | nil => rfl
  | cons i a ih => simp only [List.cons_append, coreObs, coreRun, ih]

/-- Message `k` in flight is caused by an edge that no earlier message was sent for. -/
theorem core_cause {n : Nat} (hn : 0 < n) (k : Nat) (is : List MsiCoreIn) (s : MsiCore) (h : CoreInv n s)
    (hp : s.pend k = false) (hi : s.irq k = false)
    (hr : ∀ i ∈ is, i.rst = false) (hd : ∀ i ∈ is, i.clear = true → i.done = true)
    (hf : coreFlight (coreRun n s is) = some k) :
    msiSent k (coreObs n s is) < irqEdges k false (coreObs n s is) := by
  have h1 := core_count hn k is s h hr hd
  have h2 := coreInv_run hn is s h
  have h0 : corePot s k = 0 := by simp [corePot, hp, hi]
  rw [h0, hi] at h1
  have hac : (coreRun n s is).active = true := by
    unfold coreFlight at hf
    cases hh : (coreRun n s is).active with
    | true => rfl
    | false => rw [hh] at hf; simp at hf
  have h3 := h2.pend (h2.act hac)
  unfold coreFlight at hf
  rw [hac] at hf
  simp at hf
  rw [hf] at h3
  unfold corePot at h1
  rw [h3] at h1
  simp at h1
  omega

end Verif.Proofs
