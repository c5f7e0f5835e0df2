import Verif.Proofs.PtileIfRxLoss
/-! C105, C106 and C107: the receive side of the adapter for the Intel P-Tile hard IP. -/
namespace Verif.Props
open Verif Verif.Model Verif.Spec Verif.Proofs

/-! ### C105: which TLPs come out -/

/-- **C105**, one segment per row: after a reset, whatever the source and the receivers do: when the stored rows are whole
TLPs, and perhaps the beginning of another, what the receiver of requests (`p = 0`) or of completions (`p = 1`) has taken,
followed by what it is shown, is a beginning of the stored TLPs of that kind, in order, with the payload, strobes, header,
BAR and flags the source has given (for the function number see C107). -/
theorem C105_route_one (c : PtRxCfg) (f : TffCfg) (hf : TffOk f) (hs : c.segs = 1) (s : PtRx Tff) (r : PtRxIn) (hr : r.rst = true)
    (is : List PtRxIn) (hi : ∀ i ∈ is, i.rst = false) (ts : List (List TlpSeg)) (u : List TlpSeg) (ht : ∀ t ∈ ts, SegTlp t)
    (hu : SegPart u) (hk : ptRxKept c (tffDev f) (ptRxStep c (tffDev f) s r) is = ts.flatten ++ u) (p : Nat) (hp : p < 2) :
    let s0 := ptRxStep c (tffDev f) s r
    (ptRxTaken c (tffDev f) tffShown p s0 is ++ tffShown ((ptRxRun c (tffDev f) s0 is).dx.fifo p)).map (fun x => rxNoFunc (rxView x)) <+:
      (rxTlpsFor p ts).flatten.map rxNoFunc :=
  ptRx_route (by rw [hs]; exact tffDev_ok f hf) s r hr is hi (ptRx_view_nofunc c is) ts u ht hu hk p hp

@[inherit_doc C105_route_one]
theorem C105_route_several (c : PtRxCfg) (f : TfmCfg) (hf : TfmOk f) (hs : c.segs = f.segs) (s : PtRx Tfm) (r : PtRxIn)
    (hr : r.rst = true) (is : List PtRxIn) (hi : ∀ i ∈ is, i.rst = false) (ts : List (List TlpSeg)) (u : List TlpSeg)
    (ht : ∀ t ∈ ts, SegTlp t) (hu : SegPart u)
    (hk : ptRxKept c (tfmDev f) (ptRxStep c (tfmDev f) s r) is = ts.flatten ++ u) (p : Nat) (hp : p < 2) :
    let s0 := ptRxStep c (tfmDev f) s r
    (ptRxTaken c (tfmDev f) (tfmShown f) p s0 is ++ tfmShown f ((ptRxRun c (tfmDev f) s0 is).dx.fifo p)).map
        (fun x => rxNoFunc (rxView x)) <+: (rxTlpsFor p ts).flatten.map rxNoFunc :=
  ptRx_route (by rw [hs]; exact tfmDev_ok f hf) s r hr is hi (ptRx_view_nofunc c is) ts u ht hu hk p hp

/-- **C105**, one segment per row: nothing stays inside: if the stored TLPs have at most `words - 2` segments, and both
receivers are ready from some moment on, then after a bounded number of cycles each has all TLPs of its kind that were stored
before that moment, whatever the source sends on. Missing from the full property: longer TLPs (see C85). -/
theorem C105_delivery_one_partial (c : PtRxCfg) (f : TffCfg) (hf : TffOk f) (hs : c.segs = 1) (s : PtRx Tff) (r : PtRxIn)
    (hr : r.rst = true) (is js : List PtRxIn) (hi : ∀ i ∈ is, i.rst = false)
    (hj : ∀ j ∈ js, j.rst = false ∧ ∀ p, p < 2 → j.ready p = true) (ts vs : List (List TlpSeg)) (u x : List TlpSeg)
    (ht : ∀ t ∈ ts, SegTlp t ∧ t.length ≤ f.words - 2) (hu : SegPart u)
    (hk : ptRxKept c (tffDev f) (ptRxStep c (tffDev f) s r) is = ts.flatten ++ u)
    (hv : ∀ t ∈ vs, SegTlp t ∧ t.length ≤ f.words - 2) (hx : SegPart x) (hxl : x.length < f.words - 2)
    (hk' : ptRxKept c (tffDev f) (ptRxStep c (tffDev f) s r) (is ++ js) = vs.flatten ++ x)
    (hn : 3 * f.words + 6 ≤ js.length) (p : Nat) (hp : p < 2) :
    (rxTlpsFor p ts).flatten.map rxNoFunc <+:
      (ptRxTaken c (tffDev f) tffShown p (ptRxStep c (tffDev f) s r) (is ++ js)).map (fun x => rxNoFunc (rxView x)) :=
  ptRx_delivery (by rw [hs]; exact tffDev_ok f hf) s r hr is js hi hj (ptRx_view_nofunc c _) ts vs u x ht hu hk hv hx hxl hk'
    (by omega) p hp

/-- **C105**, several segments per row: the same, for TLPs with at most `words - 2` words' worth of segments. -/
theorem C105_delivery_several_partial (c : PtRxCfg) (f : TfmCfg) (hf : TfmOk f) (hs : c.segs = f.segs) (s : PtRx Tfm) (r : PtRxIn)
    (hr : r.rst = true) (is js : List PtRxIn) (hi : ∀ i ∈ is, i.rst = false)
    (hj : ∀ j ∈ js, j.rst = false ∧ ∀ p, p < 2 → j.ready p = true) (ts vs : List (List TlpSeg)) (u x : List TlpSeg)
    (ht : ∀ t ∈ ts, SegTlp t ∧ t.length ≤ (f.words - 2) * f.segs) (hu : SegPart u)
    (hk : ptRxKept c (tfmDev f) (ptRxStep c (tfmDev f) s r) is = ts.flatten ++ u)
    (hv : ∀ t ∈ vs, SegTlp t ∧ t.length ≤ (f.words - 2) * f.segs) (hx : SegPart x) (hxl : x.length < (f.words - 2) * f.segs)
    (hk' : ptRxKept c (tfmDev f) (ptRxStep c (tfmDev f) s r) (is ++ js) = vs.flatten ++ x)
    (hn : 18 * ((f.words + 21) * f.segs) + 26 ≤ js.length) (p : Nat) (hp : p < 2) :
    (rxTlpsFor p ts).flatten.map rxNoFunc <+:
      (ptRxTaken c (tfmDev f) (tfmShown f) p (ptRxStep c (tfmDev f) s r) (is ++ js)).map (fun x => rxNoFunc (rxView x)) :=
  ptRx_delivery (by rw [hs]; exact tfmDev_ok f hf) s r hr is js hi hj (ptRx_view_nofunc c _) ts vs u x ht hu hk hv hx hxl hk'
    (by omega) p hp

/-! ### C106: no row is lost -/

/-- **C106**, one segment per row: if the source sends only when `rx_st_ready` was set `L` cycles before, and the watermark
leaves room for `L + 2` rows, every row sent is stored, whatever the receivers do. Missing from the full property: the ready
latency of 27 cycles for which the module leaves `28` rows (`C106_latency27_fails`). -/
theorem C106_no_loss_one_partial (c : PtRxCfg) (f : TffCfg) (hf : TffOk f) (L : Nat) (hL : f.mark + L + 2 ≤ f.words)
    (s : PtRx Tff) (r : PtRxIn) (hr : r.rst = true) (is : List PtRxIn) (hi : ∀ i ∈ is, i.rst = false)
    (ho : PtRxObeys c (tffDev f) (fun x => x.water) L (ptRxStep c (tffDev f) s r) is) :
    ptRxKept c (tffDev f) (ptRxStep c (tffDev f) s r) is = ptRxSent c is :=
  ptRx_kept _ (tff_margin f hf L hL) s r hr is hi ho

@[inherit_doc C106_no_loss_one_partial]
theorem C106_no_loss_several_partial (c : PtRxCfg) (f : TfmCfg) (hf : TfmOk f) (L : Nat) (hL : f.mark + L + 2 ≤ f.words)
    (s : PtRx Tfm) (r : PtRxIn) (hr : r.rst = true) (is : List PtRxIn) (hi : ∀ i ∈ is, i.rst = false)
    (ho : PtRxObeys c (tfmDev f) tfmWatermark L (ptRxStep c (tfmDev f) s r) is) :
    ptRxKept c (tfmDev f) (ptRxStep c (tfmDev f) s r) is = ptRxSent c is :=
  ptRx_kept _ (tfm_margin f hf L hL) s r hr is hi ho

/-- With the depth and the watermark in the module, this covers a ready latency of up to 26 cycles. -/
theorem C106_latency26_partial (c : PtRxCfg) (w : Nat) (hw : w ≤ 5) (L : Nat) (hL : L ≤ 26)
    (s : PtRx Tff) (r : PtRxIn) (hr : r.rst = true) (is : List PtRxIn) (hi : ∀ i ∈ is, i.rst = false)
    (ho : PtRxObeys c (tffDev (ptRxFifo w)) (fun x => x.water) L (ptRxStep c (tffDev (ptRxFifo w)) s r) is) :
    ptRxKept c (tffDev (ptRxFifo w)) (ptRxStep c (tffDev (ptRxFifo w)) s r) is = ptRxSent c is := by
  have h : TffOk (ptRxFifo w) ∧ (ptRxFifo w).mark + 28 = (ptRxFifo w).words := by
    rcases (by omega : w = 0 ∨ w = 1 ∨ w = 2 ∨ w = 3 ∨ w = 4 ∨ w = 5) with rfl | rfl | rfl | rfl | rfl | rfl <;>
      exact ⟨⟨by decide, by decide⟩, by decide⟩
  exact C106_no_loss_one_partial c _ h.1 L (by omega) s r hr is hi ho

/-- The full C106 fails: with data paths of 128 and of 256 bits, after any reset, there is a source that obeys a ready latency
of 27 cycles and sends a row, a complete request, which the module does not store. -/
theorem C106_latency27_fails (c : PtRxCfg) (hs : c.segs = 1) (w : Nat) (hw : w = 2 ∨ w = 3) (s : PtRx Tff) (r : PtRxIn) (hr : r.rst = true) :
    ∃ (is : List PtRxIn) (i : PtRxIn), (∀ j ∈ is ++ [i], j.rst = false) ∧
      PtRxObeys c (tffDev (ptRxFifo w)) (fun x => x.water) 27 (ptRxStep c (tffDev (ptRxFifo w)) s r) (is ++ [i]) ∧
      (∃ x, ptRxRow c i = [x] ∧ x.sop = true ∧ x.eop = true) ∧
      ptRxKept c (tffDev (ptRxFifo w)) (ptRxStep c (tffDev (ptRxFifo w)) s r) (is ++ [i]) =
        ptRxKept c (tffDev (ptRxFifo w)) (ptRxStep c (tffDev (ptRxFifo w)) s r) is := by
  obtain ⟨m, h1, h2, h3, h4⟩ : ∃ m, ((PtLoss.trace (ptRxFifo w) {} (ptLossHist 27 m)).take (m + 1)).all (fun a => !a.water) = true ∧
      (({} : PtLoss).run (ptRxFifo w) (ptLossHist 27 m)).take = false ∧ 2 < (ptRxFifo w).words ∧ 0 < (ptRxFifo w).mark := by
    rcases hw with rfl | rfl
    · exact ⟨259, ptLoss_128.1, ptLoss_128.2, by decide, by decide⟩
    · exact ⟨131, ptLoss_256.1, ptLoss_256.2, by decide, by decide⟩
  obtain ⟨ho, ht⟩ := ptLoss_lost (c := c) hs h3 h4 27 m h1 h2 s r hr
  refine ⟨(ptLossHist 27 m).map ptLossIn, ptLossIn true, ?_, ho, ?_, ?_⟩
  · intro j hj
    rcases List.mem_append.mp hj with hj | hj
    · obtain ⟨v, -, rfl⟩ := List.mem_map.mp hj; rfl
    · rw [List.mem_singleton.mp hj]; rfl
  · refine ⟨ptRxSays c (ptLossIn true) 0, ?_, rfl, rfl⟩
    rw [ptRxRow, hs]
    rfl
  · rw [ptRxKept_append]
    simp only [ptRxKept, ht, Bool.false_eq_true, if_false, List.append_nil]

/-! ### C107: the function number -/

/-- **C107**: if with each start flag the bits `2g` and `2g + 1` of `rx_st_func_num`, which the module reads, happen to be the
function number of segment `g`, the TLPs come out with the right function number too. With one segment per row this is so for
the functions 0 to 3. Missing from the full property: all other cases (`C107_func_fails`). -/
theorem C107_func_one_partial (c : PtRxCfg) (f : TffCfg) (hf : TffOk f) (hs : c.segs = 1) (s : PtRx Tff) (r : PtRxIn) (hr : r.rst = true)
    (is : List PtRxIn) (hi : ∀ i ∈ is, i.rst = false) (hfn : ∀ i ∈ is, i.func < 4) (ts : List (List TlpSeg)) (u : List TlpSeg)
    (ht : ∀ t ∈ ts, SegTlp t) (hu : SegPart u)
    (hk : ptRxKept c (tffDev f) (ptRxStep c (tffDev f) s r) is = ts.flatten ++ u) (p : Nat) (hp : p < 2) :
    let s0 := ptRxStep c (tffDev f) s r
    (ptRxTaken c (tffDev f) tffShown p s0 is ++ tffShown ((ptRxRun c (tffDev f) s0 is).dx.fifo p)).map rxView <+:
      (rxTlpsFor p ts).flatten := by
  have h := ptRx_route (by rw [hs]; exact tffDev_ok f hf) s r hr is hi (ptRx_view_func c is (by
    intro i h g hg _ _
    have h0 := hfn i h
    have : g = 0 := by omega
    subst this
    simp only [Nat.pow_zero]; omega)) ts u ht hu hk p hp
  simpa using h

@[inherit_doc C107_func_one_partial]
theorem C107_func_several_partial (c : PtRxCfg) (f : TfmCfg) (hf : TfmOk f) (hs : c.segs = f.segs) (s : PtRx Tfm) (r : PtRxIn)
    (hr : r.rst = true) (is : List PtRxIn) (hi : ∀ i ∈ is, i.rst = false)
    (hfn : ∀ i ∈ is, ∀ g, g < c.segs → i.valid g = true → i.sop g = true → i.func / 4 ^ g % 4 = i.func / 8 ^ g % 8)
    (ts : List (List TlpSeg)) (u : List TlpSeg) (ht : ∀ t ∈ ts, SegTlp t) (hu : SegPart u)
    (hk : ptRxKept c (tfmDev f) (ptRxStep c (tfmDev f) s r) is = ts.flatten ++ u) (p : Nat) (hp : p < 2) :
    let s0 := ptRxStep c (tfmDev f) s r
    (ptRxTaken c (tfmDev f) (tfmShown f) p s0 is ++ tfmShown f ((ptRxRun c (tfmDev f) s0 is).dx.fifo p)).map rxView <+:
      (rxTlpsFor p ts).flatten := by
  have h := ptRx_route (by rw [hs]; exact tfmDev_ok f hf) s r hr is hi (ptRx_view_func c is hfn) ts u ht hu hk p hp
  simpa using h

/-! ### A run -/

def ptRxExCfg : PtRxCfg := ⟨1, 8, 5⟩

def ptRxExInit : PtRx Tff := { valid := fun _ => false, word := fun _ => {}, dx := { dm := {}, fifo := fun _ => {} } }

/-- A row: flags, header, data, empty double words, BAR range and function number. Both receivers are ready. -/
def ptRxExRow (sop eop : Bool) (hdr data empty bar func : Nat) : PtRxIn :=
  { valid := fun _ => true, sop := fun _ => sop, eop := fun _ => eop, data := fun _ => data, empty := fun _ => empty
    hdr := fun _ => hdr, bar := fun _ => bar, func := func, ready := fun _ => true }

def ptRxExIdle : PtRxIn := { ptRxExRow false false 0 0 0 0 0 with valid := fun _ => false }

def ptRxExReset : PtRxIn := { ptRxExIdle with rst := true }

/-- The first double word of a memory write and of a completion with data. -/
def ptRxExWr : Nat := 0x40 * 2 ^ 120 + 12
def ptRxExCpl : Nat := 0x4a * 2 ^ 120 + 2

/-- A memory write of twelve double words to BAR 2, and a completion with two; `n` is the function number of the write. -/
def ptRxExHist (n : Nat) : List PtRxIn :=
  [ptRxExRow true false ptRxExWr 11 0 2 n, ptRxExRow false true 0 12 4 0 0, ptRxExRow true true ptRxExCpl 13 6 0 0,
    ptRxExIdle, ptRxExIdle, ptRxExIdle, ptRxExIdle, ptRxExIdle, ptRxExIdle]

def ptRxExFifo : TffCfg := ⟨3, 8, 2⟩

def ptRxExStart : PtRx Tff := ptRxStep ptRxExCfg (tffDev ptRxExFifo) ptRxExInit ptRxExReset

/-- The hypotheses of C105, C106 (with ready latency 0) and C107 are met, and the TLPs arrive. -/
example :
    ptRxKept ptRxExCfg (tffDev ptRxExFifo) ptRxExStart (ptRxExHist 1) =
      [[{ data := 11, strb := 255, hdr := ptRxExWr, bar := 2, func := 1, sop := true }, { data := 12, strb := 15, eop := true }],
        [{ data := 13, strb := 3, hdr := ptRxExCpl, sop := true, eop := true }]].flatten ++ [] ∧
    ptRxTaken ptRxExCfg (tffDev ptRxExFifo) tffShown 0 ptRxExStart (ptRxExHist 1) =
      [{ data := 11, strb := 255, hdr := ptRxExWr, bar := 2, func := 1, sop := true },
        { data := 12, strb := 15, hdr := ptRxExWr, bar := 2, func := 1, eop := true }] ∧
    ptRxTaken ptRxExCfg (tffDev ptRxExFifo) tffShown 1 ptRxExStart (ptRxExHist 1) =
      [{ data := 13, strb := 3, hdr := ptRxExCpl, sop := true, eop := true }] ∧
    TffOk ptRxExFifo := ⟨by decide +kernel, by decide +kernel, by decide +kernel, ⟨by decide, by decide⟩⟩

/-- The source of the run obeys the ready latency 1. -/
example : PtRxObeys ptRxExCfg (tffDev ptRxExFifo) (fun x => x.water) 1 ptRxExStart (ptRxExIdle :: ptRxExHist 1) := by
  intro k hk hv
  have : k < 4 := by
    apply Classical.byContradiction
    intro hn
    obtain ⟨g, -, hv⟩ := hv
    simp only [ptRxExHist, List.length_cons, List.length_nil] at hk
    rcases (by omega : k = 4 ∨ k = 5 ∨ k = 6 ∨ k = 7 ∨ k = 8 ∨ k = 9) with rfl | rfl | rfl | rfl | rfl | rfl <;> cases hv
  rcases (by omega : k = 0 ∨ k = 1 ∨ k = 2 ∨ k = 3) with rfl | rfl | rfl | rfl
  · obtain ⟨g, -, hv⟩ := hv; cases hv
  · exact ⟨by decide, by decide +kernel⟩
  · exact ⟨by decide, by decide +kernel⟩
  · exact ⟨by decide, by decide +kernel⟩

/-- The TLPs of the run. -/
example : SegTlp [({ data := 11, strb := 255, hdr := ptRxExWr, bar := 2, func := 1, sop := true } : TlpSeg), { data := 12, strb := 15, eop := true }] := by
  refine ⟨by simp, ?_⟩
  intro k hk
  simp only [List.length_cons, List.length_nil] at hk
  rcases (by omega : k = 0 ∨ k = 1) with rfl | rfl <;> simp

/-- The full C107 fails: a memory write for function 4 comes out as one for function 0. -/
theorem C107_func_fails :
    (ptRxSent ptRxExCfg (ptRxExHist 4)).map (·.func) = [4, 0, 0] ∧
    (ptRxTaken ptRxExCfg (tffDev ptRxExFifo) tffShown 0 ptRxExStart (ptRxExHist 4)).map (fun x => (x.sop, x.data, x.func)) =
      [(true, 11, 0), (false, 12, 0)] := ⟨by decide +kernel, by decide +kernel⟩

end Verif.Props
