import Verif.Proofs.ArbMuxRun
/-! C35: the AXI stream multiplexer preserves frames. C36: the descriptor multiplexer. -/
namespace Verif.Props
open Verif Verif.Model Verif.Spec Verif.Proofs

/-- **C35.** After a reset, for every history of inputs and back-pressure there is a merged stream `t`
of (port, word) pairs such that the output is `t`, word for word; the words of port `p` in `t` are what
port `p` has handed over, in order, except for at most the three latest words, which are still inside;
and a frame is never interrupted by a word of another port. -/
theorem C35_merge (c : AxisMuxCfg) (hp : 0 < c.sCount) (s : Mux AxisWord AxisWord) (r : MuxIn AxisWord)
    (hr : r.rst = true) (is : List (MuxIn AxisWord)) (hi : ∀ i ∈ is, i.rst = false) :
    ∃ t : List (Nat × AxisWord),
      muxEmitted c.mux (muxStep c.mux s r) is = t.map (fun x => axisConv c x.1 x.2) ∧
      (∀ x ∈ t, x.1 < c.sCount) ∧
      FramesWhole (fun w => if c.lastEnable then w.last else true) t ∧
      ∀ p < c.sCount, ∃ inside : List AxisWord, inside.length ≤ 3 ∧
        muxAccepted c.mux p (muxStep c.mux s r) is = ofPort p t ++ inside := by
  obtain ⟨t, h⟩ := mux_run c.mux hp is _ _ _ _ hi (mux_reset c.mux s r hr)
  simp only [List.nil_append] at h
  have ho := h.out
  obtain ⟨t1, t2, rfl, e1, e2⟩ := List.append_eq_map_iff.mp ho
  refine ⟨t1, e1.symm, fun x hx => h.ports x (List.mem_append_left _ hx), ?_, fun p hpp => ?_⟩
  · intro k a b ha hb hl
    obtain ⟨ha', -⟩ := List.getElem?_eq_some_iff.mp ha
    obtain ⟨hb', -⟩ := List.getElem?_eq_some_iff.mp hb
    exact h.whole k a b (by rw [List.getElem?_append_left ha']; exact ha)
      (by rw [List.getElem?_append_left hb']; exact hb) hl
  · refine ⟨ofPort p t2 ++ _, ?_, by rw [h.inp p hpp, ofPort_append, List.append_assoc]⟩
    have h1 : (ofPort p t2).length ≤ t2.length := by
      rw [ofPort, List.length_map]; exact List.length_filter_le ..
    have h2 : t2.length ≤ 2 := by
      have := congrArg List.length e2
      rw [List.length_map] at this
      rw [this]; exact skidQ_length _
    have h3 : (if (muxRun c.mux (muxStep c.mux s r) is).valid p then
        [(muxRun c.mux (muxStep c.mux s r) is).reg p] else []).length ≤ 1 := by split <;> simp
    rw [List.length_append]; omega

/-- **C35.** Nothing is kept back: when every port has handed over whole frames only, and then no port
offers a word and the output is ready, after `3 S_COUNT + 4` cycles every word handed over has come out. -/
theorem C35_drain (c : AxisMuxCfg) (hp : 0 < c.sCount) (s : Mux AxisWord AxisWord) (r : MuxIn AxisWord)
    (hr : r.rst = true) (is quiet : List (MuxIn AxisWord)) (hi : ∀ i ∈ is, i.rst = false)
    (hc : ∀ p < c.sCount, Complete (fun w => if c.lastEnable then w.last else true)
      (muxAccepted c.mux p (muxStep c.mux s r) is))
    (hq : ∀ i ∈ quiet, i.rst = false ∧ (∀ p, i.tvalid p = false) ∧ i.tready = true)
    (hl : 3 * c.sCount + 4 ≤ quiet.length) :
    ∃ t : List (Nat × AxisWord),
      muxEmitted c.mux (muxStep c.mux s r) (is ++ quiet) = t.map (fun x => axisConv c x.1 x.2) ∧
      (∀ x ∈ t, x.1 < c.sCount) ∧
      FramesWhole (fun w => if c.lastEnable then w.last else true) t ∧
      ∀ p < c.sCount, ofPort p t = muxAccepted c.mux p (muxStep c.mux s r) is := by
  obtain ⟨t, h⟩ := mux_run c.mux hp is _ _ _ _ hi (mux_reset c.mux s r hr)
  simp only [List.nil_append] at h
  rw [muxEmitted_append]
  exact mux_drain c.mux hp quiet _ _ _ _ hq h hc hl

/-- **C35.** The word sent for word `w` of port `p`: data and all enabled side-band signals are those of
`w`; with `UPDATE_TID` the upper bits of the identifier name the port and the lower bits are the
identifier of `w`. -/
theorem C35_word (c : AxisMuxCfg) (p : Nat) (w : AxisWord) (hid : w.id < 2 ^ (c.mIdWidth - clog2 c.sCount))
    (hn : 1 < c.sCount) :
    (axisConv c p w).data = w.data ∧
    (c.keepEnable = true → (axisConv c p w).keep = w.keep) ∧
    (c.lastEnable = true → (axisConv c p w).last = w.last) ∧
    (c.destEnable = true → (axisConv c p w).dest = w.dest) ∧
    (c.userEnable = true → (axisConv c p w).user = w.user) ∧
    (c.idEnable = true → c.updateTid = true →
      (axisConv c p w).id / 2 ^ (c.mIdWidth - clog2 c.sCount) = p ∧
      (axisConv c p w).id % 2 ^ (c.mIdWidth - clog2 c.sCount) = w.id) ∧
    (c.idEnable = true → c.updateTid = false → (axisConv c p w).id = w.id) := by
  refine ⟨rfl, ?_, ?_, ?_, ?_, ?_, ?_⟩ <;> intro h
  · simp [axisConv, h]
  · simp [axisConv, h]
  · simp [axisConv, h]
  · simp [axisConv, h]
  · intro h2
    simp only [axisConv, axisId, h, h2, hn, if_true, decide_true, Bool.and_self]
    rw [Nat.mod_eq_of_lt hid]
    have : 0 < 2 ^ (c.mIdWidth - clog2 c.sCount) := Nat.two_pow_pos _
    constructor
    · rw [Nat.add_mul_div_right _ _ this, Nat.div_eq_of_lt hid]; simp
    · rw [Nat.add_mul_mod_self_right, Nat.mod_eq_of_lt hid]
  · intro h2
    simp only [axisConv, axisId, h, h2, if_true, Bool.false_and, Bool.false_eq_true, if_false]
    apply Nat.mod_eq_of_lt
    exact Nat.lt_of_lt_of_le hid (Nat.pow_le_pow_right (by omega) (by omega))

/-- Two ports with two-word frames: the frames come out whole although both ports hand over at the same
time. -/
def axisExCfg : AxisMuxCfg := ⟨2, true, 1, true, 2, true, true, true, true, true, true⟩
def axisExIn (n : Nat) : MuxIn AxisWord :=
  { tvalid := fun p => n < 3 || (p == 1 && n < 7)
    word := fun p => ⟨10 * p + n, 1, n != 0, 0, 0, 0⟩
    tready := true }
def axisEx0 : Mux AxisWord AxisWord := muxStep axisExCfg.mux
  { valid := fun _ => true, reg := fun _ => ⟨0, 0, true, 0, 0, 0⟩,
    skid := { out := ⟨0, 0, true, 0, 0, 0⟩, temp := ⟨0, 0, true, 0, 0, 0⟩ } }
  { rst := true, tvalid := fun _ => false, word := fun _ => ⟨0, 0, true, 0, 0, 0⟩, tready := true }
example : (muxEmitted axisExCfg.mux axisEx0 ((List.range 24).map axisExIn)).map (fun w => (w.id, w.data, w.last)) =
    [(0, 0, false), (0, 2, true), (2, 10, false), (2, 14, true), (2, 15, true), (2, 16, true)] := by
  decide +kernel
example : (muxAccepted axisExCfg.mux 1 axisEx0 ((List.range 14).map axisExIn)).map (fun w => (w.data, w.last)) =
    [(10, false), (14, true), (15, true), (16, true)] := by decide +kernel
example : ∀ p < 2, Complete (fun w => if axisExCfg.lastEnable then w.last else true)
    (muxAccepted axisExCfg.mux p axisEx0 ((List.range 14).map axisExIn)) := by
  have h : ∀ p < 2, ((muxAccepted axisExCfg.mux p axisEx0 ((List.range 14).map axisExIn)).getLast?.map
      (·.last)) = some true := by decide +kernel
  intro p hp w hw
  have := h p hp
  rw [hw] at this
  simpa [axisExCfg] using this

/-- **C36.** Descriptors: the output is a merge of what the ports have handed over; each descriptor
leaves once, in the order of its port. -/
theorem C36_merge (c : DescMuxCfg) (hp : 0 < c.ports) (s : Mux DmaDesc DmaDesc) (r : MuxIn DmaDesc)
    (hr : r.rst = true) (is : List (MuxIn DmaDesc)) (hi : ∀ i ∈ is, i.rst = false) :
    ∃ t : List (Nat × DmaDesc),
      muxEmitted c.mux (muxStep c.mux s r) is = t.map (fun x => descConv c x.1 x.2) ∧
      (∀ x ∈ t, x.1 < c.ports) ∧
      ∀ p < c.ports, ∃ inside : List DmaDesc, inside.length ≤ 3 ∧
        muxAccepted c.mux p (muxStep c.mux s r) is = ofPort p t ++ inside := by
  obtain ⟨t, h⟩ := mux_run c.mux hp is _ _ _ _ hi (mux_reset c.mux s r hr)
  simp only [List.nil_append] at h
  have ho := h.out
  obtain ⟨t1, t2, rfl, e1, e2⟩ := List.append_eq_map_iff.mp ho
  refine ⟨t1, e1.symm, fun x hx => h.ports x (List.mem_append_left _ hx), fun p hpp => ?_⟩
  refine ⟨ofPort p t2 ++ _, ?_, by rw [h.inp p hpp, ofPort_append, List.append_assoc]⟩
  have h1 : (ofPort p t2).length ≤ t2.length := by
    rw [ofPort, List.length_map]; exact List.length_filter_le ..
  have h2 : t2.length ≤ 2 := by
    have := congrArg List.length e2
    rw [List.length_map] at this
    rw [this]; exact skidQ_length _
  have h3 : (if (muxRun c.mux (muxStep c.mux s r) is).valid p then
      [(muxRun c.mux (muxStep c.mux s r) is).reg p] else []).length ≤ 1 := by split <;> simp
  rw [List.length_append]; omega

/-- **C36.** No descriptor is kept back: once no port offers one and the output is ready, after
`3 PORTS + 4` cycles every descriptor handed over has come out. -/
theorem C36_drain (c : DescMuxCfg) (hp : 0 < c.ports) (s : Mux DmaDesc DmaDesc) (r : MuxIn DmaDesc)
    (hr : r.rst = true) (is quiet : List (MuxIn DmaDesc)) (hi : ∀ i ∈ is, i.rst = false)
    (hq : ∀ i ∈ quiet, i.rst = false ∧ (∀ p, i.tvalid p = false) ∧ i.tready = true)
    (hl : 3 * c.ports + 4 ≤ quiet.length) :
    ∃ t : List (Nat × DmaDesc),
      muxEmitted c.mux (muxStep c.mux s r) (is ++ quiet) = t.map (fun x => descConv c x.1 x.2) ∧
      (∀ x ∈ t, x.1 < c.ports) ∧
      ∀ p < c.ports, ofPort p t = muxAccepted c.mux p (muxStep c.mux s r) is := by
  obtain ⟨t, h⟩ := mux_run c.mux hp is _ _ _ _ hi (mux_reset c.mux s r hr)
  simp only [List.nil_append] at h
  rw [muxEmitted_append]
  obtain ⟨t', a, b, -, d⟩ := mux_drain c.mux hp quiet _ _ _ _ hq h (fun p _ w _ => rfl) hl
  exact ⟨t', a, b, d⟩

/-- **C36.** The descriptor sent for descriptor `d` of port `p` differs from `d` in the tag and, if
`EXTEND_RAM_SEL`, in the RAM select only; the upper bits of these name the port. -/
theorem C36_descriptor (c : DescMuxCfg) (p : Nat) (d : DmaDesc) (hn : 1 < c.ports)
    (ht : d.tag < 2 ^ (c.mTagWidth - clog2 c.ports)) (hs : d.ramSel < 2 ^ (c.mRamSelWidth - clog2 c.ports)) :
    (descConv c p d).dmaAddr = d.dmaAddr ∧ (descConv c p d).ramAddr = d.ramAddr ∧
    (descConv c p d).len = d.len ∧
    (c.immEnable = true → (descConv c p d).imm = d.imm ∧ (descConv c p d).immEn = d.immEn) ∧
    (descConv c p d).tag = d.tag + p * 2 ^ (c.mTagWidth - clog2 c.ports) ∧
    (descConv c p d).ramSel =
      d.ramSel + (if c.extendRamSel then p * 2 ^ (c.mRamSelWidth - clog2 c.ports) else 0) := by
  refine ⟨rfl, rfl, rfl, fun h => by simp [descConv, h], ?_, ?_⟩
  · simp [descConv, hn, Nat.mod_eq_of_lt ht]
  · cases h : c.extendRamSel with
    | true => simp [descConv, h, hn, Nat.mod_eq_of_lt hs]
    | false =>
      simp only [descConv, h, Bool.false_and, Bool.false_eq_true, if_false, Nat.add_zero]
      apply Nat.mod_eq_of_lt
      exact Nat.lt_of_lt_of_le hs (Nat.pow_le_pow_right (by omega) (by omega))

/-- **C36.** A status carrying the tag of the descriptor sent for descriptor `d` of port `p` is
delivered to port `p` and to no other port, with the tag of `d` and the same error code. -/
theorem C36_status (c : DescMuxCfg) (p : Nat) (d : DmaDesc) (error : Nat) (hp : p < c.ports)
    (hw : c.sTagWidth + clog2 c.ports ≤ c.mTagWidth) (ht : d.tag < 2 ^ c.sTagWidth) (he : error < 2 ^ 4) :
    (∀ q < c.ports, (descStatus c false true (descConv c p d).tag error).valid.testBit q = decide (q = p)) ∧
    (descStatus c false true (descConv c p d).tag error).tag = d.tag ∧
    (descStatus c false true (descConv c p d).tag error).error = error := by
  have hle := le_two_pow_clog2 c.ports
  have hpow : 2 ^ c.sTagWidth ≤ 2 ^ (c.mTagWidth - clog2 c.ports) := Nat.pow_le_pow_right (by omega) (by omega)
  have hbit : ∀ q, ((1 <<< p) % 2 ^ c.ports).testBit q = decide (q = p) := by
    intro q
    rw [Nat.one_shiftLeft, Nat.mod_eq_of_lt (Nat.pow_lt_pow_right (by omega) hp), Nat.testBit_two_pow]
    simp [eq_comm]
  by_cases hn : 1 < c.ports
  · have hB : (2 : Nat) ^ c.mTagWidth = 2 ^ (c.mTagWidth - clog2 c.ports) * 2 ^ clog2 c.ports := by
      rw [← Nat.pow_add]; congr 1; omega
    have hS : 2 ^ (c.mTagWidth - clog2 c.ports) =
        2 ^ c.sTagWidth * 2 ^ (c.mTagWidth - clog2 c.ports - c.sTagWidth) := by
      rw [← Nat.pow_add]; congr 1; omega
    have e : (descConv c p d).tag = d.tag + p * 2 ^ (c.mTagWidth - clog2 c.ports) := by
      simp [descConv, hn, Nat.mod_eq_of_lt (Nat.lt_of_lt_of_le ht hpow)]
    have hlt : d.tag + p * 2 ^ (c.mTagWidth - clog2 c.ports) < 2 ^ c.mTagWidth := by
      rw [hB]
      have h1 : (p + 1) * 2 ^ (c.mTagWidth - clog2 c.ports) ≤
          2 ^ clog2 c.ports * 2 ^ (c.mTagWidth - clog2 c.ports) := Nat.mul_le_mul_right _ (by omega)
      rw [Nat.add_mul, Nat.one_mul] at h1
      rw [Nat.mul_comm (2 ^ (c.mTagWidth - clog2 c.ports))]
      omega
    have hdiv : (d.tag + p * 2 ^ (c.mTagWidth - clog2 c.ports)) / 2 ^ (c.mTagWidth - clog2 c.ports) = p := by
      rw [Nat.add_mul_div_right _ _ (Nat.two_pow_pos _), Nat.div_eq_of_lt (by omega)]; simp
    refine ⟨fun q _ => ?_, ?_, Nat.mod_eq_of_lt he⟩
    · simp only [descStatus, e, Nat.mod_eq_of_lt hlt, hn, if_true, hdiv, Bool.false_eq_true, if_false,
        Bool.toNat_true]
      exact hbit q
    · simp only [descStatus, e]
      rw [hS, Nat.mul_comm (2 ^ c.sTagWidth), ← Nat.mul_assoc, Nat.add_mul_mod_self_right, Nat.mod_eq_of_lt ht]
  · have hp1 : c.ports = 1 := by omega
    have hp0 : p = 0 := by omega
    subst hp0
    have e : (descConv c 0 d).tag = d.tag := by
      simp only [descConv, hn, if_false]
      apply Nat.mod_eq_of_lt
      exact Nat.lt_of_lt_of_le ht (Nat.pow_le_pow_right (by omega) (by omega))
    refine ⟨fun q _ => ?_, ?_, Nat.mod_eq_of_lt he⟩
    · simp only [descStatus, hn, if_false, Bool.false_eq_true, Bool.toNat_true]
      exact hbit q
    · simp only [descStatus, e, Nat.mod_eq_of_lt ht]

/-- **C36.** Without a status at the input, no port gets one. -/
theorem C36_no_status (c : DescMuxCfg) (tag error : Nat) : (descStatus c false false tag error).valid = 0 := by
  simp [descStatus]

example : descStatus ⟨3, true, 2, 4, true, 5, 8, true, true⟩ false true
    (descConv ⟨3, true, 2, 4, true, 5, 8, true, true⟩ 2 ⟨4096, 1, 64, 0, false, 128, 17⟩).tag 3 = ⟨17, 3, 4⟩ := by
  decide +kernel

end Verif.Props
