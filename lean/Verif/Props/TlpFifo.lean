import Verif.Proofs.TlpFifo
/-! C81 to C83: the TLP FIFO with one segment per word. -/
namespace Verif.Props
open Verif Verif.Model Verif.Spec Verif.Proofs

/-- **C81**, one segment per word: after a reset, for every history, the accepted segments are those taken, then what is
shown, then those still inside: nothing is lost, repeated, changed or reordered. -/
theorem C81_order_one (c : TffCfg) (hc : TffOk c) (s : Tff) (r : TffIn) (hr : r.rst = true) (is : List TffIn)
    (hi : ∀ i ∈ is, i.rst = false) :
    ∃ inside, tffAccepted c (tffStep c s r) is =
      tffTaken c (tffStep c s r) is ++ tffShown (tffRun c (tffStep c s r) is) ++ inside := by
  obtain ⟨R, -, h⟩ := tff_run hc is (tff_reset c hc s r hr) hi
  have hf := h.front
  simp only [List.nil_append] at hf
  refine ⟨tffMid (tffRun c (tffStep c s r) is) ++ (tffAccepted c (tffStep c s r) is).drop R, ?_⟩
  rw [← List.append_assoc, hf, List.take_append_drop]

/-- **C81**, one segment per word: what comes out belongs to TLPs that went in completely: a TLP is shown only when its
last segment has been accepted. -/
theorem C81_whole_one (c : TffCfg) (hc : TffOk c) (s : Tff) (r : TffIn) (hr : r.rst = true) (is : List TffIn)
    (hi : ∀ i ∈ is, i.rst = false) :
    tffTaken c (tffStep c s r) is ++ tffShown (tffRun c (tffStep c s r) is) <+: tlpWhole (tffAccepted c (tffStep c s r) is) := by
  obtain ⟨R, -, h⟩ := tff_run hc is (tff_reset c hc s r hr) hi
  have hf := h.front
  have hr := h.rle
  simp only [List.nil_append] at hf hr
  refine List.IsPrefix.trans (l₂ := (tffAccepted c (tffStep c s r) is).take R) ⟨_, hf⟩ ?_
  rw [tlpWhole_take]
  exact List.take_prefix_take_left hr

/-- **C82**: what is shown and not taken stays, unchanged, in every state. -/
theorem C82_stable_one (c : TffCfg) (s : Tff) (i : TffIn) (hr : i.rst = false) (h : i.ready = false) (hs : tffShown s ≠ []) :
    tffShown (tffStep c s i) = tffShown s := by
  have hv : s.outV = true := by
    unfold tffShown at hs
    cases h' : s.outV <;> simp [h'] at hs ⊢
  have ht : tffTake s i = false := by simp [tffTake, hv, h]
  have eo : (tffStep c s i).out = s.out := by simp [tffStep, ht]
  have eov : (tffStep c s i).outV = s.outV := by simp [tffStep, hr, ht]
  unfold tffShown
  rw [eo, eov]

/-- **C82**, one segment per word: the FIFO holds at most `words + 1` segments. It is ready after a cycle if fewer than
`words - 2` were inside before that cycle, and not ready if at least `words` were. -/
theorem C82_ready_one (c : TffCfg) (hc : TffOk c) (s : Tff) (r : TffIn) (hr : r.rst = true) (is : List TffIn)
    (hi : ∀ i ∈ is, i.rst = false) (i : TffIn) (hi' : i.rst = false) :
    let a := (tffAccepted c (tffStep c s r) is).length
    let t := (tffTaken c (tffStep c s r) is).length
    let rdy := tffReady (tffStep c (tffRun c (tffStep c s r) is) i)
    a ≤ t + c.words + 1 ∧ (a < t + (c.words - 2) → rdy = true) ∧ (t + c.words ≤ a → rdy = false) := by
  obtain ⟨h1, h2, h3⟩ := tff_occupancy c hc s r hr is hi
  have hw := hc.two
  have e : tffReady (tffStep c (tffRun c (tffStep c s r) is) i) =
      !decide (c.words - 2 ≤ tffCount c (tffRun c (tffStep c s r) is)) := by simp [tffReady, tffStep, hi']
  refine ⟨by omega, ?_, ?_⟩
  · intro h; rw [e, decide_eq_false (by omega)]; rfl
  · intro h; rw [e, decide_eq_true (by omega)]; rfl

/-- **C82**, one segment per word: the outputs `half_full` and `watermark` say, up to the two words in the output
registers, whether half of the words, or the watermark, was reached before the cycle. -/
theorem C82_level_one (c : TffCfg) (hc : TffOk c) (s : Tff) (r : TffIn) (hr : r.rst = true) (is : List TffIn)
    (hi : ∀ i ∈ is, i.rst = false) (i : TffIn) (hi' : i.rst = false) :
    let a := (tffAccepted c (tffStep c s r) is).length
    let t := (tffTaken c (tffStep c s r) is).length
    let s' := tffStep c (tffRun c (tffStep c s r) is) i
    (s'.half = true → t + c.words / 2 ≤ a) ∧ (t + c.words / 2 + 2 ≤ a → s'.half = true) ∧
    (s'.water = true → t + c.mark ≤ a) ∧ (t + c.mark + 2 ≤ a → s'.water = true) := by
  obtain ⟨h1, h2, h3⟩ := tff_occupancy c hc s r hr is hi
  have e1 : (tffStep c (tffRun c (tffStep c s r) is) i).half =
      decide (c.words / 2 ≤ tffCount c (tffRun c (tffStep c s r) is)) := by simp [tffStep, hi']
  have e2 : (tffStep c (tffRun c (tffStep c s r) is) i).water =
      decide (c.mark ≤ tffCount c (tffRun c (tffStep c s r) is)) := by simp [tffStep, hi']
  refine ⟨?_, ?_, ?_, ?_⟩
  · intro h; rw [e1] at h; have := of_decide_eq_true h; omega
  · intro h; rw [e1]; exact decide_eq_true (by omega)
  · intro h; rw [e2] at h; have := of_decide_eq_true h; omega
  · intro h; rw [e2]; exact decide_eq_true (by omega)

/-- **C83**, one segment per word: the TLPs accepted completely come out at full speed. When the receiver is ready from
some moment on, all of them have been taken after as many cycles as segments were left, and two more. -/
theorem C83_drain_one (c : TffCfg) (hc : TffOk c) (s : Tff) (r : TffIn) (hr : r.rst = true) (is js : List TffIn)
    (hi : ∀ i ∈ is, i.rst = false) (hj : ∀ j ∈ js, j.rst = false ∧ j.ready = true)
    (hn : (tlpWhole (tffAccepted c (tffStep c s r) is)).length + 2 ≤ (tffTaken c (tffStep c s r) is).length + js.length) :
    tlpWhole (tffAccepted c (tffStep c s r) is) <+: tffTaken c (tffStep c s r) (is ++ js) := by
  obtain ⟨R, -, h⟩ := tff_run hc is (tff_reset c hc s r hr) hi
  have hR : (tffTaken c (tffStep c s r) is).length ≤ R := by
    have hf := congrArg List.length h.front
    simp only [List.nil_append, List.length_append, List.length_take] at hf
    omega
  have hT : (tffTaken c (tffStep c s r) is).length ≤ (tlpWhole (tffAccepted c (tffStep c s r) is)).length := by
    have := h.rle
    simp only [List.nil_append] at this
    omega
  obtain ⟨ks, x, y, rfl⟩ := tff_last_two js (by omega)
  have hx := hj x (by simp)
  have hy := hj y (by simp)
  obtain ⟨R', h', hR'⟩ := tff_drain hc ks h (fun k hk => (hj k (by simp [hk])).1) (fun k hk => (hj k (by simp [hk])).2)
  have h2 := tff_two hc h' x y hx.1 hx.2 hy.2
  simp only [List.nil_append] at h2 hR'
  simp only [List.length_append, List.length_cons, List.length_nil] at hn
  rw [tffTaken_append, tffTaken_append, ← List.append_assoc, h2]
  rw [tlpWhole_take, List.take_append]
  refine List.IsPrefix.trans (l₂ := (tffAccepted c (tffStep c s r) is).take R') ?_ (List.prefix_append _ _)
  exact List.take_prefix_take_left (by omega)

/-- **C83**, one segment per word: the FIFO becomes ready again. If the segments of the unfinished TLP, if any, are fewer
than `words - 2`, and the receiver is ready for `words + 1` cycles, the FIFO is ready in one of them. Missing from the
full property: TLPs that are longer, with which the FIFO hangs (`C83_long_fails`). -/
theorem C83_ready_one_partial (c : TffCfg) (hc : TffOk c) (s : Tff) (r : TffIn) (hr : r.rst = true) (is js : List TffIn)
    (hi : ∀ i ∈ is, i.rst = false) (hj : ∀ j ∈ js, j.rst = false ∧ j.ready = true)
    (hu : (tffAccepted c (tffStep c s r) is).length <
      (tlpWhole (tffAccepted c (tffStep c s r) is)).length + (c.words - 2))
    (hn : c.words + 1 ≤ js.length) : tffEverReady c (tffRun c (tffStep c s r) is) js := by
  obtain ⟨R, -, h⟩ := tff_run hc is (tff_reset c hc s r hr) hi
  simp only [List.nil_append] at h
  obtain ⟨ks, x, y, ls, rfl, hk⟩ := tff_split js (c.words - 1) (by have := hc.two; omega)
  obtain ⟨R', h', hR'⟩ := tff_drain hc ks h (fun k hk => (hj k (by simp [hk])).1) (fun k hk => (hj k (by simp [hk])).2)
  apply Classical.byContradiction
  intro hne
  rw [tffEverReady_append] at hne
  have hne := not_or.mp hne
  rw [tffAccepted_none c _ ks hne.1, List.append_nil] at h'
  apply hne.2
  right
  left
  have hcnt := tff_count_eq hc h'
  have hw := hc.two
  have hro := h.room
  have hfull : (tffStep c (tffRun c (tffRun c (tffStep c s r) is) ks) x).full =
      decide (c.words - 2 ≤ tffCount c (tffRun c (tffRun c (tffStep c s r) is) ks)) := by
    simp [tffStep, (hj x (by simp)).1]
  have hle := tlpWhole_length (tffAccepted c (tffStep c s r) is)
  rw [tffReady, hfull, hcnt, decide_eq_false (by omega)]
  rfl

/-- The full C83 fails: when `words - 2` segments of an unfinished TLP are inside and the FIFO is not ready, it is never
ready again, whatever the receiver does. -/
theorem C83_long_fails (c : TffCfg) (hc : TffOk c) (s : Tff) (r : TffIn) (hr : r.rst = true) (is js : List TffIn)
    (hi : ∀ i ∈ is, i.rst = false) (hj : ∀ j ∈ js, j.rst = false)
    (hu : (tlpWhole (tffAccepted c (tffStep c s r) is)).length + (c.words - 2) ≤
      (tffAccepted c (tffStep c s r) is).length)
    (hf : tffReady (tffRun c (tffStep c s r) is) = false) : ¬ tffEverReady c (tffRun c (tffStep c s r) is) js := by
  obtain ⟨R, -, h⟩ := tff_run hc is (tff_reset c hc s r hr) hi
  simp only [List.nil_append] at h
  exact tff_stuck hc js h hu hf hj

/-! Non-vacuity -/

def tffExCfg : TffCfg := ⟨3, 8, 4⟩

theorem tffExCfg_ok : TffOk tffExCfg := ⟨by decide, by decide⟩

def tffExReset : TffIn := { rst := true, valid := false, seg := {}, ready := false }

/-- One cycle in which a segment is offered. -/
def tffExIn (d : Nat) (sop eop rdy : Bool) : TffIn := { valid := true, seg := { data := d, sop := sop, eop := eop }, ready := rdy }

def tffExIdle (rdy : Bool) : TffIn := { valid := false, seg := {}, ready := rdy }

/-- A TLP of two segments, one of one segment, and the beginning of a third. -/
def tffExHist : List TffIn :=
  [tffExIn 1 true false false, tffExIn 2 false true false, tffExIn 3 true true false, tffExIn 4 true false true,
    tffExIdle true, tffExIdle true]

example :
    tffAccepted tffExCfg (tffStep tffExCfg {} tffExReset) tffExHist =
      [{ data := 1, sop := true }, { data := 2, eop := true }, { data := 3, sop := true, eop := true }, { data := 4, sop := true }] ∧
    tffTaken tffExCfg (tffStep tffExCfg {} tffExReset) tffExHist = [{ data := 1, sop := true }, { data := 2, eop := true }] ∧
    tffShown (tffRun tffExCfg (tffStep tffExCfg {} tffExReset) tffExHist) = [{ data := 3, sop := true, eop := true }] ∧
    tlpWhole (tffAccepted tffExCfg (tffStep tffExCfg {} tffExReset) tffExHist) =
      [{ data := 1, sop := true }, { data := 2, eop := true }, { data := 3, sop := true, eop := true }] := by decide +kernel

/-- The hypotheses of `C83_drain_one` and `C83_ready_one_partial` after that history. -/
example :
    (tlpWhole (tffAccepted tffExCfg (tffStep tffExCfg {} tffExReset) tffExHist)).length + 2 ≤
      (tffTaken tffExCfg (tffStep tffExCfg {} tffExReset) tffExHist).length + (List.replicate 9 (tffExIdle true)).length ∧
    (tffAccepted tffExCfg (tffStep tffExCfg {} tffExReset) tffExHist).length <
      (tlpWhole (tffAccepted tffExCfg (tffStep tffExCfg {} tffExReset) tffExHist)).length + (tffExCfg.words - 2) ∧
    tffExCfg.words + 1 ≤ (List.replicate 9 (tffExIdle true)).length := by decide +kernel

/-- The hypotheses of `C83_long_fails`: with 8 words, eight segments of one TLP are offered in a row. -/
example :
    let h := tffExIn 0 true false true :: List.replicate 7 (tffExIn 1 false false true)
    (tlpWhole (tffAccepted tffExCfg (tffStep tffExCfg {} tffExReset) h)).length + (tffExCfg.words - 2) ≤
      (tffAccepted tffExCfg (tffStep tffExCfg {} tffExReset) h).length ∧
    tffReady (tffRun tffExCfg (tffStep tffExCfg {} tffExReset) h) = false := by decide +kernel

end Verif.Props
