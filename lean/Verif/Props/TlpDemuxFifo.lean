import Verif.Proofs.TlpDemuxFifo
/-! C84 and C85: the TLP demultiplexer with output FIFOs, with one and with several segments per word. -/
namespace Verif.Props
open Verif Verif.Model Verif.Spec Verif.Proofs

/-- **C84**, one segment per word: after a reset, for every history: what the receiver at port `p` has taken, followed by
what it is shown, is a beginning of the complete TLPs among the accepted segments that belong to port `p`: nothing is
lost, repeated, changed or reordered, and no part of an unfinished TLP comes out. -/
theorem C84_route_one (c : TdmCfg) (f : TffCfg) (hf : TffOk f) (hs : c.segs = 1) (s : Tdf Tff) (r : TdmIn) (hr : r.rst = true)
    (is : List TdmIn) (hi : ∀ i ∈ is, i.rst = false) (p : Nat) (hp : p < c.ports) :
    let s0 := tdfStep c (tffDev f) s r
    tdfTaken c (tffDev f) tffShown p s0 is ++ tffShown ((tdfRun c (tffDev f) s0 is).fifo p) <+:
      tlpWhole (tdfBelonging p (tdfAccepted c (tffDev f) s0 is)) :=
  tdf_order (by rw [hs]; exact tffDev_ok f hf) s r hr is hi p hp

@[inherit_doc C84_route_one]
theorem C84_route_several (c : TdmCfg) (f : TfmCfg) (hf : TfmOk f) (hs : c.segs = f.segs) (s : Tdf Tfm) (r : TdmIn)
    (hr : r.rst = true) (is : List TdmIn) (hi : ∀ i ∈ is, i.rst = false) (p : Nat) (hp : p < c.ports) :
    let s0 := tdfStep c (tfmDev f) s r
    tdfTaken c (tfmDev f) (tfmShown f) p s0 is ++ tfmShown f ((tdfRun c (tfmDev f) s0 is).fifo p) <+:
      tlpWhole (tdfBelonging p (tdfAccepted c (tfmDev f) s0 is)) :=
  tdf_order (by rw [hs]; exact tfmDev_ok f hf) s r hr is hi p hp

/-- **C84** for TLPs: when the accepted segments are whole TLPs, and perhaps the beginning of another, what comes out at port
`p` is a beginning of the TLPs assigned to it, in order. -/
theorem C84_tlps_several (c : TdmCfg) (f : TfmCfg) (hf : TfmOk f) (hs : c.segs = f.segs) (s : Tdf Tfm) (r : TdmIn)
    (hr : r.rst = true) (is : List TdmIn) (hi : ∀ i ∈ is, i.rst = false) (ts : List (List TdmItem)) (u : List TdmItem)
    (ht : ∀ t ∈ ts, TdmTlp t) (hu : TdmPart u) (ha : tdfAccepted c (tfmDev f) (tdfStep c (tfmDev f) s r) is = ts.flatten ++ u)
    (p : Nat) (hp : p < c.ports) :
    let s0 := tdfStep c (tfmDev f) s r
    tdfTaken c (tfmDev f) (tfmShown f) p s0 is ++ tfmShown f ((tdfRun c (tfmDev f) s0 is).fifo p) <+: tdfFor p ts := by
  have h := C84_route_several c f hf hs s r hr is hi p hp
  simp only [ha, tdfFor_belonging p ts u ht hu, tdfFor_whole p ts u ht hu] at h
  exact h

@[inherit_doc C84_tlps_several]
theorem C84_tlps_one (c : TdmCfg) (f : TffCfg) (hf : TffOk f) (hs : c.segs = 1) (s : Tdf Tff) (r : TdmIn)
    (hr : r.rst = true) (is : List TdmIn) (hi : ∀ i ∈ is, i.rst = false) (ts : List (List TdmItem)) (u : List TdmItem)
    (ht : ∀ t ∈ ts, TdmTlp t) (hu : TdmPart u) (ha : tdfAccepted c (tffDev f) (tdfStep c (tffDev f) s r) is = ts.flatten ++ u)
    (p : Nat) (hp : p < c.ports) :
    let s0 := tdfStep c (tffDev f) s r
    tdfTaken c (tffDev f) tffShown p s0 is ++ tffShown ((tdfRun c (tffDev f) s0 is).fifo p) <+: tdfFor p ts := by
  have h := C84_route_one c f hf hs s r hr is hi p hp
  simp only [ha, tdfFor_belonging p ts u ht hu, tdfFor_whole p ts u ht hu] at h
  exact h

/-- **C84** for the demultiplexer by BAR: what comes out at the port with BAR number `n` is a beginning of the TLPs whose
first segment carries BAR number `n`, in order. -/
theorem C84_bar_several (c : TdmCfg) (f : TfmCfg) (hf : TfmOk f) (hs : c.segs = f.segs) (b : TdmBarCfg) (hb : tdmBarOk c b = true)
    (s : Tdf Tfm) (r : TdmIn) (hr : r.rst = true) (is : List TdmIn) (hi : ∀ i ∈ is, i.rst = false) (ts : List (List TdmItem))
    (u : List TdmItem) (ht : ∀ t ∈ ts, TdmTlp t) (hu : TdmPart u)
    (ha : tdfAccepted c (tfmDev f) (tdfStep c (tfmDev f) s r) (is.map (tdmBarIn c b)) = ts.flatten ++ u) (p : Nat)
    (hp : p < c.ports) :
    let s0 := tdfStep c (tfmDev f) s r
    let is' := is.map (tdmBarIn c b)
    tdfTaken c (tfmDev f) (tfmShown f) p s0 is' ++ tfmShown f ((tdfRun c (tfmDev f) s0 is').fifo p) <+:
      (tdmForBar (tdmBarOf b p) ts).map (·.2) := by
  have h := C84_tlps_several c f hf hs s r hr (is.map (tdmBarIn c b))
    (by intro i h; obtain ⟨x, hx, rfl⟩ := List.mem_map.mp h; exact hi x hx) ts u ht hu ha p hp
  rw [tdfFor, tdf_bar_for c _ b hb _ is ts u ha p hp] at h
  exact h

@[inherit_doc C84_bar_several]
theorem C84_bar_one (c : TdmCfg) (f : TffCfg) (hf : TffOk f) (hs : c.segs = 1) (b : TdmBarCfg) (hb : tdmBarOk c b = true)
    (s : Tdf Tff) (r : TdmIn) (hr : r.rst = true) (is : List TdmIn) (hi : ∀ i ∈ is, i.rst = false) (ts : List (List TdmItem))
    (u : List TdmItem) (ht : ∀ t ∈ ts, TdmTlp t) (hu : TdmPart u)
    (ha : tdfAccepted c (tffDev f) (tdfStep c (tffDev f) s r) (is.map (tdmBarIn c b)) = ts.flatten ++ u) (p : Nat)
    (hp : p < c.ports) :
    let s0 := tdfStep c (tffDev f) s r
    let is' := is.map (tdmBarIn c b)
    tdfTaken c (tffDev f) tffShown p s0 is' ++ tffShown ((tdfRun c (tffDev f) s0 is').fifo p) <+:
      (tdmForBar (tdmBarOf b p) ts).map (·.2) := by
  have h := C84_tlps_one c f hf hs s r hr (is.map (tdmBarIn c b))
    (by intro i h; obtain ⟨x, hx, rfl⟩ := List.mem_map.mp h; exact hi x hx) ts u ht hu ha p hp
  rw [tdfFor, tdf_bar_for c _ b hb _ is ts u ha p hp] at h
  exact h

/-- **C85**, one segment per word: if no TLP for port `p` has `words - 2` segments or more before its end flag, and the
receiver at port `p` is ready from some moment on, then after a bounded number of cycles it has all complete TLPs
accepted for it, whatever the other receivers do. Missing from the full property: longer TLPs
(`C85_long_one_fails`). -/
theorem C85_delivery_one_partial (c : TdmCfg) (f : TffCfg) (hf : TffOk f) (hs : c.segs = 1) (s : Tdf Tff) (r : TdmIn)
    (hr : r.rst = true) (is js : List TdmIn) (hi : ∀ i ∈ is, i.rst = false) (p : Nat) (hp : p < c.ports)
    (hj : ∀ j ∈ js, j.rst = false ∧ j.ready p = true)
    (hsh : TlpShort (f.words - 2) (tdfBelonging p (tdfAccepted c (tffDev f) (tdfStep c (tffDev f) s r) is)))
    (hn : 2 * f.words + 4 ≤ js.length) :
    let s0 := tdfStep c (tffDev f) s r
    tlpWhole (tdfBelonging p (tdfAccepted c (tffDev f) s0 is)) <+: tdfTaken c (tffDev f) tffShown p s0 (is ++ js) :=
  tdf_delivery (by rw [hs]; exact tffDev_ok f hf) s r hr is js hi p hp hj hsh (by omega)

/-- **C85**, several segments per word: the same, for TLPs with fewer than `words - 2` words' worth of segments before
their end flag. -/
theorem C85_delivery_several_partial (c : TdmCfg) (f : TfmCfg) (hf : TfmOk f) (hs : c.segs = f.segs) (s : Tdf Tfm) (r : TdmIn)
    (hr : r.rst = true) (is js : List TdmIn) (hi : ∀ i ∈ is, i.rst = false) (p : Nat) (hp : p < c.ports)
    (hj : ∀ j ∈ js, j.rst = false ∧ j.ready p = true)
    (hsh : TlpShort ((f.words - 2) * f.segs) (tdfBelonging p (tdfAccepted c (tfmDev f) (tdfStep c (tfmDev f) s r) is)))
    (hn : 12 * ((f.words + 21) * f.segs) + 23 ≤ js.length) :
    let s0 := tdfStep c (tfmDev f) s r
    tlpWhole (tdfBelonging p (tdfAccepted c (tfmDev f) s0 is)) <+: tdfTaken c (tfmDev f) (tfmShown f) p s0 (is ++ js) :=
  tdf_delivery (by rw [hs]; exact tfmDev_ok f hf) s r hr is js hi p hp hj hsh (by omega)

/-- **C85**, one segment per word: a receiver that stalls does not delay the others until its FIFO is nearly full: if for
every port fewer than `words - 2` segments were accepted and not yet taken before a cycle, the input is ready after it. -/
theorem C85_slack_one (c : TdmCfg) (f : TffCfg) (hf : TffOk f) (hs : c.segs = 1) (s : Tdf Tff) (r : TdmIn) (hr : r.rst = true)
    (is : List TdmIn) (hi : ∀ i ∈ is, i.rst = false) (i j : TdmIn) (hi' : i.rst = false) (hj : j.enable = true)
    (h : ∀ p, p < c.ports → (tdfBelonging p (tdfAccepted c (tffDev f) (tdfStep c (tffDev f) s r) is)).length <
      (tdfTaken c (tffDev f) tffShown p (tdfStep c (tffDev f) s r) is).length + (f.words - 2)) :
    tdfReady c (tffDev f) (tdfRun c (tffDev f) (tdfStep c (tffDev f) s r) (is ++ [i])) j = true :=
  tdf_slack (by rw [hs]; exact tffDev_ok f hf) s r hr is hi i j hi' hj h

@[inherit_doc C85_slack_one]
theorem C85_slack_several (c : TdmCfg) (f : TfmCfg) (hf : TfmOk f) (hs : c.segs = f.segs) (s : Tdf Tfm) (r : TdmIn)
    (hr : r.rst = true) (is : List TdmIn) (hi : ∀ i ∈ is, i.rst = false) (i j : TdmIn) (hi' : i.rst = false) (hj : j.enable = true)
    (h : ∀ p, p < c.ports → (tdfBelonging p (tdfAccepted c (tfmDev f) (tdfStep c (tfmDev f) s r) is)).length <
      (tdfTaken c (tfmDev f) (tfmShown f) p (tdfStep c (tfmDev f) s r) is).length + (f.words - 2) * f.segs) :
    tdfReady c (tfmDev f) (tdfRun c (tfmDev f) (tdfStep c (tfmDev f) s r) (is ++ [i])) j = true :=
  tdf_slack (by rw [hs]; exact tfmDev_ok f hf) s r hr is hi i j hi' hj h

/-- **C85**, one segment per word: when all receivers are ready and the module is enabled, and no TLP is as long as in
`C85_long_one_fails`, the input becomes ready within a bounded number of cycles. -/
theorem C85_progress_one_partial (c : TdmCfg) (f : TffCfg) (hf : TffOk f) (hs : c.segs = 1) (s : Tdf Tff) (r : TdmIn)
    (hr : r.rst = true) (is js : List TdmIn) (hi : ∀ i ∈ is, i.rst = false)
    (hj : ∀ j ∈ js, j.rst = false ∧ j.enable = true ∧ ∀ p, p < c.ports → j.ready p = true)
    (hsh : ∀ p, p < c.ports → TlpShort (f.words - 2) (tdfBelonging p (tdfAccepted c (tffDev f) (tdfStep c (tffDev f) s r) is)))
    (hn : f.words + 2 ≤ js.length) :
    ∃ k, ∃ h : k < js.length,
      tdfReady c (tffDev f) (tdfRun c (tffDev f) (tdfStep c (tffDev f) s r) (is ++ js.take k)) js[k] = true :=
  tdf_progress (by rw [hs]; exact tffDev_ok f hf) s r hr is js hi hj hsh (by omega)

@[inherit_doc C85_progress_one_partial]
theorem C85_progress_several_partial (c : TdmCfg) (f : TfmCfg) (hf : TfmOk f) (hs : c.segs = f.segs) (s : Tdf Tfm) (r : TdmIn)
    (hr : r.rst = true) (is js : List TdmIn) (hi : ∀ i ∈ is, i.rst = false)
    (hj : ∀ j ∈ js, j.rst = false ∧ j.enable = true ∧ ∀ p, p < c.ports → j.ready p = true)
    (hsh : ∀ p, p < c.ports → TlpShort ((f.words - 2) * f.segs)
      (tdfBelonging p (tdfAccepted c (tfmDev f) (tdfStep c (tfmDev f) s r) is)))
    (hn : 6 * ((f.words + 21) * f.segs) + 3 ≤ js.length) :
    ∃ k, ∃ h : k < js.length,
      tdfReady c (tfmDev f) (tdfRun c (tfmDev f) (tdfStep c (tfmDev f) s r) (is ++ js.take k)) js[k] = true :=
  tdf_progress (by rw [hs]; exact tfmDev_ok f hf) s r hr is js hi hj hsh (by omega)

/-- The full C85 fails: when the FIFO of port `p` is not ready, `words - 1` segments of an unfinished TLP for port `p` have
been accepted and the register of the demultiplexer holds one of them, the input is never ready again, whatever the
receivers do, so that the TLPs for all other ports wait for ever too. -/
theorem C85_long_one_fails (c : TdmCfg) (f : TffCfg) (hf : TffOk f) (hs : c.segs = 1) (s : Tdf Tff) (r : TdmIn)
    (hr : r.rst = true) (is js : List TdmIn) (hi : ∀ i ∈ is, i.rst = false) (hj : ∀ j ∈ js, j.rst = false) (p : Nat)
    (hp : p < c.ports)
    (hu : (tlpWhole (tdfBelonging p (tdfAccepted c (tffDev f) (tdfStep c (tffDev f) s r) is))).length + (f.words - 2) + c.segs ≤
      (tdfBelonging p (tdfAccepted c (tffDev f) (tdfStep c (tffDev f) s r) is)).length)
    (hff : tffReady ((tdfRun c (tffDev f) (tdfStep c (tffDev f) s r) is).fifo p) = false)
    (hsh : tdmShown c (tdfRun c (tffDev f) (tdfStep c (tffDev f) s r) is).dm p ≠ []) :
    ∀ k (h : k < js.length),
      tdfReady c (tffDev f) (tdfRun c (tffDev f) (tdfStep c (tffDev f) s r) (is ++ js.take k)) js[k] = false :=
  tdf_long (by rw [hs]; exact tffDev_stuck f hf) s r hr is js hi hj p hp hu hff hsh

@[inherit_doc C85_long_one_fails]
theorem C85_long_several_fails (c : TdmCfg) (f : TfmCfg) (hf : TfmOk f) (hs : c.segs = f.segs) (s : Tdf Tfm) (r : TdmIn)
    (hr : r.rst = true) (is js : List TdmIn) (hi : ∀ i ∈ is, i.rst = false) (hj : ∀ j ∈ js, j.rst = false) (p : Nat)
    (hp : p < c.ports)
    (hu : (tlpWhole (tdfBelonging p (tdfAccepted c (tfmDev f) (tdfStep c (tfmDev f) s r) is))).length + (f.words - 2) * f.segs +
      c.segs ≤ (tdfBelonging p (tdfAccepted c (tfmDev f) (tdfStep c (tfmDev f) s r) is)).length)
    (hff : tfmReady ((tdfRun c (tfmDev f) (tdfStep c (tfmDev f) s r) is).fifo p) = false)
    (hsh : tdmShown c (tdfRun c (tfmDev f) (tdfStep c (tfmDev f) s r) is).dm p ≠ []) :
    ∀ k (h : k < js.length),
      tdfReady c (tfmDev f) (tdfRun c (tfmDev f) (tdfStep c (tfmDev f) s r) (is ++ js.take k)) js[k] = false :=
  tdf_long (by rw [hs]; exact tfmDev_stuck f hf) s r hr is js hi hj p hp hu hff hsh

/-! Non-vacuity: two ports, one segment per word, FIFOs of four words -/

def tdfExCfg : TdmCfg := ⟨2, 1⟩

def tdfExFifo : TffCfg := ⟨2, 4, 2⟩

theorem tdfExFifo_ok : TffOk tdfExFifo := ⟨by decide, by decide⟩

def tdfExInit : Tdf Tff := { dm := {}, fifo := fun _ => {} }

/-- A cycle in which a segment, if any, is offered, for the port given; receiver 1 is ready. -/
def tdfExIn (a : Option TlpSeg) (p : Nat) : TdmIn :=
  { valid := fun _ => a.isSome, word := fun _ => a.getD {}, select := fun k => decide (k = p), ready := fun q => decide (q = 1) }

def tdfExReset : TdmIn := { rst := true, valid := fun _ => false, word := fun _ => {}, select := fun _ => false, ready := fun _ => false }

/-- A TLP of two segments for port 1 and the beginning of one for port 0. -/
def tdfExHist : List TdmIn :=
  [tdfExIn (some { data := 1, sop := true }) 1, tdfExIn (some { data := 2, eop := true }) 0, tdfExIn (some { data := 3, sop := true }) 0,
    tdfExIn none 0, tdfExIn none 0, tdfExIn none 0, tdfExIn none 0]

/-- The hypotheses of the theorems for one segment per word are met, and the TLP arrives. -/
example :
    tdfAccepted tdfExCfg (tffDev tdfExFifo) (tdfStep tdfExCfg (tffDev tdfExFifo) tdfExInit tdfExReset) tdfExHist =
      [[⟨0, { data := 1, sop := true }, some 1⟩, ⟨0, { data := 2, eop := true }, some 0⟩]].flatten ++
        [⟨0, { data := 3, sop := true }, some 0⟩] ∧
    tdfTaken tdfExCfg (tffDev tdfExFifo) tffShown 1 (tdfStep tdfExCfg (tffDev tdfExFifo) tdfExInit tdfExReset) tdfExHist =
      [{ data := 1, sop := true }, { data := 2, eop := true }] := by decide +kernel

/-- Four segments of a TLP for port 0, not its end. -/
def tdfExLong : List TdmIn :=
  [tdfExIn (some { data := 1, sop := true }) 0, tdfExIn (some { data := 2 }) 0, tdfExIn (some { data := 3 }) 0,
    tdfExIn (some { data := 4 }) 0, tdfExIn (some { data := 5 }) 0, tdfExIn (some { data := 6 }) 0, tdfExIn (some { data := 7 }) 0]

/-- The hypotheses of `C85_long_one_fails`. -/
example :
    let s := tdfStep tdfExCfg (tffDev tdfExFifo) tdfExInit tdfExReset
    (tlpWhole (tdfBelonging 0 (tdfAccepted tdfExCfg (tffDev tdfExFifo) s tdfExLong))).length + (tdfExFifo.words - 2) + tdfExCfg.segs ≤
      (tdfBelonging 0 (tdfAccepted tdfExCfg (tffDev tdfExFifo) s tdfExLong)).length ∧
    tffReady ((tdfRun tdfExCfg (tffDev tdfExFifo) s tdfExLong).fifo 0) = false ∧
    tdmShown tdfExCfg (tdfRun tdfExCfg (tffDev tdfExFifo) s tdfExLong).dm 0 ≠ [] := by
  refine ⟨?_, by decide +kernel, by decide +kernel⟩
  simp only [tdfBelonging, ← tdmRoute_belongs]
  decide +kernel

/-- The hypothesis on the length of TLPs. -/
example : TlpShort 2 [({ data := 1, sop := true } : TlpSeg), { data := 2, eop := true }, { data := 3, sop := true, eop := true }] := by
  intro k hk
  simp only [List.length_cons, List.length_nil] at hk
  rcases (by omega : k = 0 ∨ k = 1) with rfl | rfl
  · exact ⟨1, { data := 2, eop := true }, by omega, by omega, rfl, rfl⟩
  · exact ⟨1, { data := 2, eop := true }, by omega, by omega, rfl, rfl⟩

/-- The configuration with several segments per word can be met. -/
example : TfmOk tfmExCfg ∧ (⟨2, 2⟩ : TdmCfg).segs = tfmExCfg.segs := ⟨tfmExCfg_ok, by decide⟩

end Verif.Props
