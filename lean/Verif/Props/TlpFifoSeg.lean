import Verif.Proofs.TlpFifoSegLive
/-! C81 to C83: the TLP FIFO with several segments per word. -/
namespace Verif.Props
open Verif Verif.Model Verif.Spec Verif.Proofs

/-- **C81**, several segments per word: after a reset, for every history, the accepted segments are those taken, then what
is shown, then those still inside: nothing is lost, repeated, changed or reordered. -/
theorem C81_order_several (c : TfmCfg) (hc : TfmOk c) (s : Tfm) (r : TfmIn) (hr : r.rst = true) (is : List TfmIn)
    (hi : ∀ i ∈ is, i.rst = false) :
    ∃ inside, tfmAccepted c (tfmStep c s r) is =
      tfmTaken c (tfmStep c s r) is ++ tfmShown c (tfmRun c (tfmStep c s r) is) ++ inside := by
  obtain ⟨cR, cH, dR, dH, h⟩ := tfm_run hc is (tfm_reset c hc s r hr) hi
  have ho := h.out
  simp only [List.nil_append] at ho
  have hs : ∃ x, tfmOutSegs c (tfmRun c (tfmStep c s r) is) = tfmShown c (tfmRun c (tfmStep c s r) is) ++ x := by
    unfold tfmOutSegs outQ tfmShown
    rw [List.flatMap_append]
    cases (tfmRun c (tfmStep c s r) is).out.valid <;> simp
  obtain ⟨x, hx⟩ := hs
  refine ⟨x ++ (tfmAccepted c (tfmStep c s r) is).drop dH, ?_⟩
  rw [← List.append_assoc, List.append_assoc _ _ x, ← hx, ho, List.take_append_drop]

/-- **C81**, several segments per word: what comes out belongs to TLPs that went in completely: a TLP is shown only when
its last segment has been accepted. -/
theorem C81_whole_several (c : TfmCfg) (hc : TfmOk c) (s : Tfm) (r : TfmIn) (hr : r.rst = true) (is : List TfmIn)
    (hi : ∀ i ∈ is, i.rst = false) :
    tfmTaken c (tfmStep c s r) is ++ tfmShown c (tfmRun c (tfmStep c s r) is) <+:
      tlpWhole (tfmAccepted c (tfmStep c s r) is) := by
  obtain ⟨cR, cH, dR, dH, h⟩ := tfm_run hc is (tfm_reset c hc s r hr) hi
  have ho := h.out
  have h1 := Nat.le_trans h.hle (Nat.le_trans h.cle h.cW)
  simp only [List.nil_append] at ho h1
  have hs : ∃ x, tfmOutSegs c (tfmRun c (tfmStep c s r) is) = tfmShown c (tfmRun c (tfmStep c s r) is) ++ x := by
    unfold tfmOutSegs outQ tfmShown
    rw [List.flatMap_append]
    cases (tfmRun c (tfmStep c s r) is).out.valid <;> simp
  obtain ⟨x, hx⟩ := hs
  rw [hx, ← List.append_assoc] at ho
  refine List.IsPrefix.trans (l₂ := (tfmAccepted c (tfmStep c s r) is).take dH) ⟨_, ho⟩ ?_
  rw [tlpWhole_take]
  exact List.take_prefix_take_left h1

/-- **C82**, several segments per word: what is shown and not taken stays, unchanged, in every state. -/
theorem C82_stable_several (c : TfmCfg) (s : Tfm) (i : TfmIn) (hr : i.rst = false) (h : i.ready = false)
    (hs : tfmShown c s ≠ []) : tfmShown c (tfmStep c s i) = tfmShown c s := by
  have hv : s.out.valid = true := by
    unfold tfmShown at hs
    cases h' : s.out.valid <;> simp [h'] at hs ⊢
  have e : (tfmStep c s i).out = outFifoStep 5 false s.out (tfmAny c s.int.valid) (tfmWord s) false := by
    simp only [tfmStep, hr, h]
  have e1 : (tfmStep c s i).out.valid = true := by rw [e]; simp [outFifoStep, hv]
  have e2 : (tfmStep c s i).out.out = s.out.out := by rw [e]; simp [outFifoStep, hv]
  unfold tfmShown
  rw [e1, e2, hv]

/-- **C82**, several segments per word: the FIFO holds at most `words + 21` words' worth of segments. It is ready after a
cycle if fewer than `words - 2` words' worth were inside before that cycle, and not ready if at least `words + 19` were. -/
theorem C82_ready_several (c : TfmCfg) (hc : TfmOk c) (s : Tfm) (r : TfmIn) (hr : r.rst = true) (is : List TfmIn)
    (hi : ∀ i ∈ is, i.rst = false) (i : TfmIn) (hi' : i.rst = false) :
    let a := (tfmAccepted c (tfmStep c s r) is).length
    let t := (tfmTaken c (tfmStep c s r) is).length
    let rdy := tfmReady (tfmStep c (tfmRun c (tfmStep c s r) is) i)
    a ≤ t + (c.words + 21) * c.segs ∧ (a < t + (c.words - 2) * c.segs → rdy = true) ∧
      (t + (c.words + 19) * c.segs ≤ a → rdy = false) := by
  obtain ⟨cR, cH, dR, dH, h⟩ := tfm_run hc is (tfm_reset c hc s r hr) hi
  simp only [List.nil_append] at h
  obtain ⟨c1, c2⟩ := tfm_count_eq hc h
  obtain ⟨t1, t2⟩ := tfm_taken_le h
  have h2 := tfm_lane_two h
  have h3 := h.room
  have h7 := h.cW
  have h8 := h.dW
  have h9 := tlpWhole_length (tfmAccepted c (tfmStep c s r) is)
  have h4 := h.hle
  have h5 := h.cle
  have h6 := h.dle
  have e : tfmReady (tfmStep c (tfmRun c (tfmStep c s r) is) i) =
      !(decide (c.words * c.segs - c.segs * 2 ≤ tfmCount c (tfmRun c (tfmStep c s r) is).wrCur (tfmRun c (tfmStep c s r) is).rd) ||
        decide (c.words * c.segs - c.segs * 2 ≤ tfmCount c (tfmRun c (tfmStep c s r) is).wrCur (tfmRun c (tfmStep c s r) is).rdC)) := by
    simp [tfmReady, tfmStep, hi']
  have w2 := Nat.mul_le_mul_right c.segs hc.two
  simp only [e, c1, c2, Nat.add_mul, Nat.sub_mul]
  generalize c.words * c.segs = Q at *
  refine ⟨by omega, ?_, ?_⟩
  · intro hh; rw [decide_eq_false (by omega), decide_eq_false (by omega)]; rfl
  · intro hh; rw [decide_eq_true (by omega)]; rfl

/-- The outputs `half_full` and `watermark` (`rtl/pcie_tlp_fifo_raw.v` lines 257 and 258). -/
def tfmHalfFull (s : Tfm) : Bool := s.half || s.halfC

@[inherit_doc tfmHalfFull] def tfmWatermark (s : Tfm) : Bool := s.water || s.waterC

/-- **C82**, several segments per word: the outputs `half_full` and `watermark` say, up to the 21 words in the output
stages, whether half of the words, or the watermark, was reached before the cycle. -/
theorem C82_level_several (c : TfmCfg) (hc : TfmOk c) (s : Tfm) (r : TfmIn) (hr : r.rst = true) (is : List TfmIn)
    (hi : ∀ i ∈ is, i.rst = false) (i : TfmIn) (hi' : i.rst = false) :
    let a := (tfmAccepted c (tfmStep c s r) is).length
    let t := (tfmTaken c (tfmStep c s r) is).length
    let s' := tfmStep c (tfmRun c (tfmStep c s r) is) i
    (tfmHalfFull s' = true → t + c.words * c.segs / 2 ≤ a) ∧
    (t + c.words * c.segs / 2 + 21 * c.segs ≤ a → tfmHalfFull s' = true) ∧
    (tfmWatermark s' = true → t + c.mark * c.segs ≤ a) ∧
    (t + (c.mark + 21) * c.segs ≤ a → tfmWatermark s' = true) := by
  obtain ⟨cR, cH, dR, dH, h⟩ := tfm_run hc is (tfm_reset c hc s r hr) hi
  simp only [List.nil_append] at h
  obtain ⟨c1, c2⟩ := tfm_count_eq hc h
  obtain ⟨t1, t2⟩ := tfm_taken_le h
  have h2 := tfm_lane_two h
  have h4 := h.hle
  have h5 := h.cle
  have h6 := h.dle
  have h7 := h.dW
  have h8 := h.cW
  have h9 := tlpWhole_length (tfmAccepted c (tfmStep c s r) is)
  have e1 : tfmHalfFull (tfmStep c (tfmRun c (tfmStep c s r) is) i) =
      (decide (c.words * c.segs / 2 ≤ tfmCount c (tfmRun c (tfmStep c s r) is).wrCur (tfmRun c (tfmStep c s r) is).rd) ||
        decide (c.words * c.segs / 2 ≤ tfmCount c (tfmRun c (tfmStep c s r) is).wrCur (tfmRun c (tfmStep c s r) is).rdC)) := by
    simp [tfmHalfFull, tfmStep, hi']
  have e2 : tfmWatermark (tfmStep c (tfmRun c (tfmStep c s r) is) i) =
      (decide (c.mark * c.segs ≤ tfmCount c (tfmRun c (tfmStep c s r) is).wrCur (tfmRun c (tfmStep c s r) is).rd) ||
        decide (c.mark * c.segs ≤ tfmCount c (tfmRun c (tfmStep c s r) is).wrCur (tfmRun c (tfmStep c s r) is).rdC)) := by
    simp [tfmWatermark, tfmStep, hi']
  simp only [e1, e2, c1, c2, Nat.add_mul]
  generalize c.words * c.segs / 2 = Q at *
  generalize c.mark * c.segs = K at *
  refine ⟨?_, ?_, ?_, ?_⟩
  · intro hh; simp only [Bool.or_eq_true, decide_eq_true_eq] at hh; omega
  · intro hh; rw [decide_eq_true (by omega)]; rfl
  · intro hh; simp only [Bool.or_eq_true, decide_eq_true_eq] at hh; omega
  · intro hh; rw [decide_eq_true (by omega)]; rfl

/-- **C83**, several segments per word: the TLPs accepted completely come out. When the receiver is ready from some moment
on, all of them have been taken after six cycles for each segment left, and 21 more. -/
theorem C83_drain_several (c : TfmCfg) (hc : TfmOk c) (s : Tfm) (r : TfmIn) (hr : r.rst = true) (is js : List TfmIn)
    (hi : ∀ i ∈ is, i.rst = false) (hj : ∀ j ∈ js, j.rst = false ∧ j.ready = true)
    (hn : 6 * ((tlpWhole (tfmAccepted c (tfmStep c s r) is)).length - (tfmTaken c (tfmStep c s r) is).length) + 21 ≤ js.length) :
    tlpWhole (tfmAccepted c (tfmStep c s r) is) <+: tfmTaken c (tfmStep c s r) (is ++ js) := by
  obtain ⟨cR, cH, dR, dH, h⟩ := tfm_run hc is (tfm_reset c hc s r hr) hi
  simp only [List.nil_append] at h
  generalize hP : (tlpWhole (tfmAccepted c (tfmStep c s r) is)).length = P at *
  generalize hT : (tfmTaken c (tfmStep c s r) is).length = T at *
  have ht := (tfm_taken_le h).1
  have hle := h.hle
  rw [hT] at ht
  obtain ⟨ks, x, ls, rfl, hk, hl⟩ : ∃ ks x ls, js = ks ++ x :: ls ∧ ks.length = 6 * (P - T) ∧ 20 ≤ ls.length := by
    refine ⟨js.take (6 * (P - T)), js[6 * (P - T)]'(by omega), js.drop (6 * (P - T) + 1), ?_, ?_, ?_⟩
    · rw [List.getElem_cons_drop, List.take_append_drop]
    · rw [List.length_take]; omega
    · rw [List.length_drop]; omega
  have hf := tfm_flush hc (P - T) P h ks (by omega) (by omega) (by omega) (fun j hj' => hj j (by simp [hj']))
  obtain ⟨a, d, e, h'⟩ := tfm_run_sels hc ks h (fun j hj' => (hj j (by simp [hj'])).1)
  have h'' := tfm_step hc h' x (hj x (by simp)).1
  have hd := tfm_out_twenty hc h'' ls hl (fun j hj' => hj j (by simp [hj']))
  rw [tfmTaken_append, tfmTaken_append, tfmTaken, ← List.append_assoc, ← List.append_assoc]
  refine List.IsPrefix.trans ?_ hd
  rw [tlpWhole_take, hP, List.append_assoc]
  refine List.IsPrefix.trans (l₂ := (tfmAccepted c (tfmStep c s r) is).take (cH + tfmSels c (tfmRun c (tfmStep c s r) is) ks)) ?_ ?_
  · exact List.take_prefix_take_left hf
  · rw [List.take_append]; exact List.prefix_append _ _

/-- **C83**, several segments per word: the FIFO becomes ready again. If the segments of the unfinished TLP, if any, are
fewer than `words - 2` words' worth, and the receiver is ready for six cycles for each complete segment left, and two more,
the FIFO is ready in one of them. Missing from the full property: TLPs that are longer, with which the FIFO hangs
(`C83_long_several_fails`). -/
theorem C83_ready_several_partial (c : TfmCfg) (hc : TfmOk c) (s : Tfm) (r : TfmIn) (hr : r.rst = true) (is js : List TfmIn)
    (hi : ∀ i ∈ is, i.rst = false) (hj : ∀ j ∈ js, j.rst = false ∧ j.ready = true)
    (hu : (tfmAccepted c (tfmStep c s r) is).length <
      (tlpWhole (tfmAccepted c (tfmStep c s r) is)).length + (c.words - 2) * c.segs)
    (hn : 6 * ((tlpWhole (tfmAccepted c (tfmStep c s r) is)).length - (tfmTaken c (tfmStep c s r) is).length) + 2 ≤ js.length) :
    tfmEverReady c (tfmRun c (tfmStep c s r) is) js := by
  obtain ⟨cR, cH, dR, dH, h⟩ := tfm_run hc is (tfm_reset c hc s r hr) hi
  simp only [List.nil_append] at h
  have hlen := tlpWhole_length (tfmAccepted c (tfmStep c s r) is)
  generalize hP : (tlpWhole (tfmAccepted c (tfmStep c s r) is)).length = P at *
  generalize hT : (tfmTaken c (tfmStep c s r) is).length = T at *
  have ht := (tfm_taken_le h).1
  have hle := h.hle
  rw [hT] at ht
  obtain ⟨ks, x, y, ls, rfl, hk⟩ : ∃ ks x y ls, js = ks ++ x :: y :: ls ∧ ks.length = 6 * (P - T) := by
    refine ⟨js.take (6 * (P - T)), js[6 * (P - T)]'(by omega), js[6 * (P - T) + 1]'(by omega), js.drop (6 * (P - T) + 1 + 1), ?_, ?_⟩
    · rw [List.getElem_cons_drop, List.getElem_cons_drop, List.take_append_drop]
    · rw [List.length_take]; omega
  have hf := tfm_flush hc (P - T) P h ks (by omega) (by omega) (by omega) (fun j hj' => hj j (by simp [hj']))
  obtain ⟨a, d, e, h'⟩ := tfm_run_sels hc ks h (fun j hj' => (hj j (by simp [hj'])).1)
  apply Classical.byContradiction
  intro hne
  rw [tfmEverReady_append] at hne
  have hne := not_or.mp hne
  rw [tfmAccepted_none c ks _ hne.1, List.append_nil] at h'
  apply hne.2
  right
  left
  obtain ⟨c1, c2⟩ := tfm_count_eq hc h'
  have h1 := h'.cle
  have h2 := h'.dle
  have hx := (hj x (by simp)).1
  have w2 := Nat.mul_le_mul_right c.segs hc.two
  rw [Nat.sub_mul] at hu
  have e1 : (tfmStep c (tfmRun c (tfmRun c (tfmStep c s r) is) ks) x).full = false := by
    have e : (tfmStep c (tfmRun c (tfmRun c (tfmStep c s r) is) ks) x).full =
      decide (c.words * c.segs - c.segs * 2 ≤ tfmCount c (tfmRun c (tfmRun c (tfmStep c s r) is) ks).wrCur
        (tfmRun c (tfmRun c (tfmStep c s r) is) ks).rd) := by simp [tfmStep, hx]
    rw [e, c1]
    generalize c.words * c.segs = Q at *
    exact decide_eq_false (by omega)
  have e2 : (tfmStep c (tfmRun c (tfmRun c (tfmStep c s r) is) ks) x).fullC = false := by
    have e : (tfmStep c (tfmRun c (tfmRun c (tfmStep c s r) is) ks) x).fullC =
      decide (c.words * c.segs - c.segs * 2 ≤ tfmCount c (tfmRun c (tfmRun c (tfmStep c s r) is) ks).wrCur
        (tfmRun c (tfmRun c (tfmStep c s r) is) ks).rdC) := by simp [tfmStep, hx]
    rw [e, c2]
    generalize c.words * c.segs = Q at *
    exact decide_eq_false (by omega)
  unfold tfmReady
  rw [e1, e2]
  rfl

/-- The full C83 fails: when `words - 2` words' worth of segments of an unfinished TLP are inside and the FIFO is not ready,
it is never ready again, whatever the receiver does. -/
theorem C83_long_several_fails (c : TfmCfg) (hc : TfmOk c) (s : Tfm) (r : TfmIn) (hr : r.rst = true) (is js : List TfmIn)
    (hi : ∀ i ∈ is, i.rst = false) (hj : ∀ j ∈ js, j.rst = false)
    (hu : (tlpWhole (tfmAccepted c (tfmStep c s r) is)).length + (c.words - 2) * c.segs ≤
      (tfmAccepted c (tfmStep c s r) is).length)
    (hf : tfmReady (tfmRun c (tfmStep c s r) is) = false) : ¬ tfmEverReady c (tfmRun c (tfmStep c s r) is) js := by
  obtain ⟨cR, cH, dR, dH, h⟩ := tfm_run hc is (tfm_reset c hc s r hr) hi
  simp only [List.nil_append] at h
  refine tfm_stuck hc js h ?_ hf hj
  rw [Nat.sub_mul, Nat.mul_comm 2] at hu
  exact hu

/-! Non-vacuity -/

/-- Two segments per word, 4 words. -/
def tfmExCfg : TfmCfg := ⟨1, 2, 4, 2⟩

theorem tfmExCfg_ok : TfmOk tfmExCfg := ⟨by decide, by decide⟩

def tfmExInit : Tfm := { out := { ring := { mem := fun _ => {} }, out := {} } }

def tfmExReset : TfmIn := { rst := true, valid := fun _ => false, seg := fun _ => {}, ready := false }

/-- One cycle: segments of the two lanes, if any. -/
def tfmExIn (a b : Option TlpSeg) (rdy : Bool) : TfmIn :=
  { valid := fun l => if l = 0 then a.isSome else b.isSome
    seg := fun l => if l = 0 then a.getD {} else b.getD {}
    ready := rdy }

def tfmExHist : List TfmIn :=
  [tfmExIn none (some { data := 1, sop := true }) true, tfmExIn (some { data := 2, eop := true }) (some { data := 3, sop := true }) true]
  ++ List.replicate 8 (tfmExIn none none true)

example : tfmAccepted tfmExCfg (tfmStep tfmExCfg tfmExInit tfmExReset) tfmExHist =
    [{ data := 1, sop := true }, { data := 2, eop := true }, { data := 3, sop := true }] := by decide +kernel

example : tfmTaken tfmExCfg (tfmStep tfmExCfg tfmExInit tfmExReset) tfmExHist =
    [{ data := 1, sop := true }, { data := 2, eop := true }] := by decide +kernel

/-- A TLP of which six segments arrive and the last does not. -/
def tfmExLong : List TfmIn :=
  [tfmExIn (some { data := 1, sop := true }) (some { data := 2 }) true, tfmExIn (some { data := 3 }) (some { data := 4 }) true,
    tfmExIn (some { data := 5 }) (some { data := 6 }) true, tfmExIn none none true, tfmExIn none none true]

example : (tlpWhole (tfmAccepted tfmExCfg (tfmStep tfmExCfg tfmExInit tfmExReset) tfmExLong)).length +
      (tfmExCfg.words - 2) * tfmExCfg.segs ≤ (tfmAccepted tfmExCfg (tfmStep tfmExCfg tfmExInit tfmExReset) tfmExLong).length ∧
    tfmReady (tfmRun tfmExCfg (tfmStep tfmExCfg tfmExInit tfmExReset) tfmExLong) = false := by decide +kernel

/-- The hypotheses of `C83_ready_several_partial`, with the FIFO not ready at first. -/
def tfmExFull : List TfmIn :=
  [tfmExIn (some { data := 1, sop := true }) (some { data := 2 }) false, tfmExIn (some { data := 3 }) (some { data := 4 }) false,
    tfmExIn (some { data := 5 }) (some { data := 6, eop := true }) false]

example : let s := tfmStep tfmExCfg tfmExInit tfmExReset
    tfmReady (tfmRun tfmExCfg s tfmExFull) = false ∧
    (tfmAccepted tfmExCfg s tfmExFull).length < (tlpWhole (tfmAccepted tfmExCfg s tfmExFull)).length +
      (tfmExCfg.words - 2) * tfmExCfg.segs := by decide +kernel

end Verif.Props
