import Verif.Proofs.Arbiter
import Verif.Proofs.Skid
import Verif.Spec.ArbMux
/-! Helper lemmas for the arbitrated multiplexer. -/
namespace Verif.Proofs
open Verif Verif.Model Verif.Spec

theorem ofPort_append {α : Type} (p : Nat) (a b : List (Nat × α)) :
    ofPort p (a ++ b) = ofPort p a ++ ofPort p b := by simp [ofPort]

theorem framesWhole_snoc {α : Type} (last : α → Bool) (t : List (Nat × α)) (x : Nat × α)
    (h : FramesWhole last t) (hx : ∀ a, t.getLast? = some a → last a.2 = false → x.1 = a.1) :
    FramesWhole last (t ++ [x]) := by
  intro k a b ha hb hl
  rw [List.getElem?_append] at ha hb
  by_cases h1 : k + 1 < t.length
  · rw [if_pos h1] at hb
    rw [if_pos (by omega)] at ha
    exact h k a b ha hb hl
  · rw [if_neg h1] at hb
    by_cases h2 : k + 1 = t.length
    · rw [if_pos (by omega)] at ha
      rw [h2] at hb
      simp at hb
      subst hb
      apply hx a _ hl
      rw [List.getLast?_eq_getElem?]
      rw [show t.length - 1 = k by omega]
      exact ha
    · have : k + 1 - t.length = (k - t.length) + 1 := by omega
      rw [this] at hb
      simp at hb

/-- Invariant of the multiplexer: `t` is every word that has gone into the output registers, tagged
with its port, `acc` what each port has handed over, `em` what has been taken from the output. -/
structure MuxInv {α β : Type} (c : MuxCfg α β) (s : Mux α β) (t : List (Nat × α)) (acc : Nat → List α)
    (em : List β) : Prop where
  sk : SkidOk s.skid
  out : em ++ skidQ s.skid = t.map fun x => c.conv x.1 x.2
  inp : ∀ p < c.ports, acc p = ofPort p t ++ (if s.valid p then [s.reg p] else [])
  ports : ∀ x ∈ t, x.1 < c.ports
  whole : FramesWhole c.last t
  lock : ∀ a, t.getLast? = some a → c.last a.2 = false → s.arb.valid = true ∧ s.arb.encoded = a.1
  ok : GrantOk c.arb s.arb
  useful : s.arb.valid = true → s.valid s.arb.encoded = true ∨
    ∃ a, t.getLast? = some a ∧ c.last a.2 = false

/-- What one cycle adds to the tagged stream. -/
def muxMoved {α β : Type} (s : Mux α β) : List (Nat × α) :=
  if muxIntValid s then [(s.arb.encoded, s.reg s.arb.encoded)] else []

theorem grant_bit {α β : Type} {c : MuxCfg α β} {s : Mux α β} (h : GrantOk c.arb s.arb) (p : Nat) :
    s.arb.grant.testBit p = (s.arb.valid && decide (s.arb.encoded = p)) := by
  rcases h with ⟨h1, h2, -⟩ | ⟨h1, -, h2⟩
  · rw [h1, h2]; simp
  · rw [h1, h2, Nat.testBit_two_pow]; simp

theorem mux_hold {α β : Type} {c : MuxCfg α β} {s : Mux α β} (i : MuxIn α) (h : GrantOk c.arb s.arb) :
    arbHold c.arb s.arb ⟨i.rst, muxRequest c s i, muxAck c s⟩ =
      (s.arb.valid && !(muxIntValid s && c.last (s.reg s.arb.encoded))) := by
  unfold arbHold
  simp only [MuxCfg.arb, Bool.not_true, Bool.and_false, Bool.false_and, Bool.false_or, Bool.true_and]
  rcases h with ⟨h1, h2, -⟩ | ⟨h1, h3, h2⟩
  · rw [h1]; simp
  · have e := pow_and_ne_zero s.arb.encoded (muxAck c s)
    rw [← h2] at e
    have e' : (s.arb.grant &&& muxAck c s == 0) = !(muxAck c s).testBit s.arb.encoded := by
      rw [← e, bne, Bool.not_not]
    rw [e', muxAck, testBit_vec, grant_bit (Or.inr ⟨h1, h3, h2⟩)]
    have h3' : s.arb.encoded < c.ports := h3
    simp only [h1, h3', muxIntValid]
    simp [Bool.and_assoc]

theorem mux_step {α β : Type} (c : MuxCfg α β) (hp : 0 < c.ports) (s : Mux α β) (i : MuxIn α)
    (t : List (Nat × α)) (acc : Nat → List α) (em : List β) (hr : i.rst = false)
    (h : MuxInv c s t acc em) :
    MuxInv c (muxStep c s i) (t ++ muxMoved s)
      (fun p => acc p ++ (if i.tvalid p && muxReady s p then [i.word p] else []))
      (em ++ (if s.skid.outV && i.tready then [s.skid.out] else [])) := by
  have hgb := fun p => grant_bit h.ok p
  have hhold := mux_hold (c := c) i h.ok
  have hsk := skid_step s.skid (muxIntValid s) (c.conv s.arb.encoded (s.reg s.arb.encoded)) i.tready h.sk
    (by simp [muxIntValid]; intros; assumption)
  have hstep : (muxStep c s i).arb = if arbHold c.arb s.arb ⟨i.rst, muxRequest c s i, muxAck c s⟩ then s.arb
      else arbChoose c.arb s.arb ⟨i.rst, muxRequest c s i, muxAck c s⟩ := by
    simp [muxStep, arbStep, hr]
  have hok : GrantOk c.arb (muxStep c s i).arb := step_ok c.arb hp _ _ h.ok
  have henc : muxIntValid s = true → s.arb.valid = true ∧ s.arb.encoded < c.ports ∧ s.skid.ready = true ∧
      s.valid s.arb.encoded = true := by
    intro he
    simp only [muxIntValid, Bool.and_eq_true] at he
    rcases h.ok with ⟨h1, -, -⟩ | ⟨-, h3, -⟩
    · rw [h1] at he; simp at he
    · exact ⟨he.2, h3, he.1.2, he.1.1⟩
  constructor
  · simpa [muxStep, hr] using hsk.1
  · have e : (muxStep c s i).skid = skidStep false s.skid (muxIntValid s)
        (c.conv s.arb.encoded (s.reg s.arb.encoded)) i.tready := by simp [muxStep, hr]
    rw [e, List.append_assoc, hsk.2, ← List.append_assoc, h.out, List.map_append]
    congr 1
    unfold muxMoved; split <;> simp
  · intro p hpp
    rw [h.inp p hpp, ofPort_append]
    simp only [muxStep, hr, Bool.false_eq_true, if_false]
    have hm : ofPort p (muxMoved s) = if muxIntValid s && s.arb.encoded == p then [s.reg p] else [] := by
      unfold muxMoved
      cases muxIntValid s with
      | false => simp [ofPort]
      | true =>
        by_cases he : s.arb.encoded = p
        · simp [ofPort, he]
        · simp [ofPort, he]
    rw [hm]
    by_cases hrdy : muxReady s p = true
    · simp only [hrdy, Bool.and_true, if_true]
      rw [List.append_assoc, List.append_assoc]
      congr 2
      unfold muxReady at hrdy
      rw [hgb] at hrdy
      cases hv : s.valid p with
      | false =>
        have : (muxIntValid s && s.arb.encoded == p) = false := by
          by_cases he : s.arb.encoded = p
          · simp [muxIntValid, he, hv]
          · simp [he]
        simp [this]
      | true =>
        rw [hv] at hrdy
        simp at hrdy
        obtain ⟨a, b, d⟩ := hrdy
        subst d
        simp [muxIntValid, hv, a, b]
    · simp only [hrdy, Bool.and_false, Bool.false_eq_true, if_false, List.append_nil]
      unfold muxReady at hrdy
      rw [hgb] at hrdy
      have : (muxIntValid s && s.arb.encoded == p) = false := by
        by_cases he : s.arb.encoded = p
        · subst he
          simp [muxIntValid]
          simp at hrdy
          intro _ hsr
          exact hrdy.2 hsr
        · simp [he]
      simp [this]
  · intro x hx
    rw [List.mem_append] at hx
    rcases hx with hx | hx
    · exact h.ports x hx
    · unfold muxMoved at hx
      cases he : muxIntValid s with
      | false => rw [he] at hx; simp at hx
      | true =>
        rw [he] at hx; simp at hx; subst hx
        exact (henc he).2.1
  · unfold muxMoved
    cases he : muxIntValid s with
    | false => simpa using h.whole
    | true =>
      simp only [if_true]
      exact framesWhole_snoc _ _ _ h.whole fun a ha hl => (h.lock a ha hl).2
  · intro a ha hl
    unfold muxMoved at ha
    cases he : muxIntValid s with
    | false =>
      rw [he] at ha
      simp only [Bool.false_eq_true, if_false, List.append_nil] at ha
      obtain ⟨l1, l2⟩ := h.lock a ha hl
      rw [hstep, hhold, he, l1]; simp [l1, l2]
    | true =>
      rw [he] at ha
      simp at ha
      subst ha
      simp only at hl
      rw [hstep, hhold, he, (henc he).1, hl]; simp [(henc he).1]
  · exact hok
  · intro hv
    cases hh : arbHold c.arb s.arb ⟨i.rst, muxRequest c s i, muxAck c s⟩ with
    | true =>
      rw [hstep, hh] at hv ⊢
      simp only [if_true] at hv ⊢
      rw [hhold, hv] at hh
      simp only [Bool.true_and, Bool.not_eq_true'] at hh
      cases he : muxIntValid s with
      | true =>
        right
        refine ⟨(s.arb.encoded, s.reg s.arb.encoded), by simp [muxMoved, he], ?_⟩
        rw [he] at hh; simpa using hh
      | false =>
        rcases h.useful hv with hu | ⟨a, ha, hl⟩
        · left
          have hnr : s.skid.ready = false := by
            simp only [muxIntValid, hu, hv, Bool.and_true, Bool.true_and] at he
            exact he
          simp [muxStep, hr, muxReady, hu, hnr]
        · right
          exact ⟨a, by simpa [muxMoved, he] using ha, hl⟩
    | false =>
      left
      rw [hstep, hh] at hv ⊢
      simp only [Bool.false_eq_true, if_false] at hv ⊢
      have hreq := (choose_request c.arb hp s.arb ⟨i.rst, muxRequest c s i, muxAck c s⟩ hv).2.1
      generalize hk : (arbChoose c.arb s.arb ⟨i.rst, muxRequest c s i, muxAck c s⟩).encoded = k at hreq ⊢
      simp only [muxRequest, testBit_vec, Bool.and_eq_true, Bool.or_eq_true, decide_eq_true_eq] at hreq
      simp only [muxStep, hr, Bool.false_eq_true, if_false, muxReady]
      rcases hreq.2 with ⟨a, b⟩ | ⟨a, b⟩
      · simp only [Bool.not_eq_true'] at b
        simp [a, b]
      · have b' := b
        rw [hgb] at b'
        simp only [Bool.and_eq_true, decide_eq_true_eq] at b'
        rw [hhold, b'.1] at hh
        simp only [Bool.true_and, Bool.not_eq_false', Bool.and_eq_true] at hh
        simp [a, b, (henc hh.1).2.2.1]

end Verif.Proofs
