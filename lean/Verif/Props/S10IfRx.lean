import Verif.Proofs.S10IfRx
/-! C108 and C109: the receive side of the adapter for the Intel Stratix 10 hard IP. -/
namespace Verif.Props
open Verif Verif.Model Verif.Spec Verif.Proofs

/-! ### C108: which TLPs come out -/

/-- **C108**, one segment per row: after a reset, whatever the source and the receivers do, as long as no row is written over
another one (C109): when the source has sent the TLPs `ts`, and perhaps the beginning of another, what the receiver of requests
(`p = 0`) or of completions (`p = 1`) has taken, followed by what it is shown, is a beginning of the TLPs of that kind, in
order: header apart from payload, payload in rows from the first double word on, each with its strobes, BAR, function number
and flags. -/
theorem C108_route_one (c : S10RxCfg) (f : TffCfg) (hf : TffOk f) (hs : c.segs = 1) (s : S10Rx Tff) (r : S10RxIn) (hr : r.rst = true)
    (is : List S10RxIn) (hi : ∀ i ∈ is, i.rst = false) (hm : S10Room c (tffDev f) (s10RxStep c (tffDev f) s r) is)
    (ts : List (List S10Seg)) (u : List S10Seg) (ht : ∀ t ∈ ts, S10Tlp t) (hu : S10Part u) (hk : s10Sent c is = ts.flatten ++ u)
    (p : Nat) (hp : p < 2) :
    let s0 := s10RxStep c (tffDev f) s r
    (s10Taken c (tffDev f) tffShown p s0 is ++ tffShown ((s10RxRun c (tffDev f) s0 is).dx.fifo p)).map rxLook <+:
      (rxTlpsFor p (ts.map (s10TlpOut c))).flatten :=
  s10_route (by rw [hs]; exact tffDev_ok f hf) s r hr is hi (s10_nogap_one hs is false) ((s10_noover_iff _ _).mpr hm) ts u ht hu hk p hp

/-- **C108**, several segments per row: the same, if the source leaves no gap inside a TLP. -/
theorem C108_route_several (c : S10RxCfg) (f : TfmCfg) (hf : TfmOk f) (hs : c.segs = f.segs) (s : S10Rx Tfm) (r : S10RxIn)
    (hr : r.rst = true) (is : List S10RxIn) (hi : ∀ i ∈ is, i.rst = false) (hg : S10NoGap c false is)
    (hm : S10Room c (tfmDev f) (s10RxStep c (tfmDev f) s r) is)
    (ts : List (List S10Seg)) (u : List S10Seg) (ht : ∀ t ∈ ts, S10Tlp t) (hu : S10Part u) (hk : s10Sent c is = ts.flatten ++ u)
    (p : Nat) (hp : p < 2) :
    let s0 := s10RxStep c (tfmDev f) s r
    (s10Taken c (tfmDev f) (tfmShown f) p s0 is ++ tfmShown f ((s10RxRun c (tfmDev f) s0 is).dx.fifo p)).map rxLook <+:
      (rxTlpsFor p (ts.map (s10TlpOut c))).flatten :=
  s10_route (by rw [hs]; exact tfmDev_ok f hf) s r hr is hi hg ((s10_noover_iff _ _).mpr hm) ts u ht hu hk p hp

/-- **C108**, one segment per row: nothing stays inside: if no TLP has more than `words - 2` rows of payload, and both receivers
are ready from some moment on, then after a bounded number of cycles each has all TLPs of its kind that were sent before that
moment, whatever the source sends on. Missing from the full property: longer TLPs (see C85). -/
theorem C108_delivery_one_partial (c : S10RxCfg) (f : TffCfg) (hf : TffOk f) (hs : c.segs = 1) (s : S10Rx Tff) (r : S10RxIn)
    (hr : r.rst = true) (is js : List S10RxIn) (hi : ∀ i ∈ is, i.rst = false)
    (hj : ∀ j ∈ js, j.rst = false ∧ ∀ p, p < 2 → j.ready p = true)
    (hm : S10Room c (tffDev f) (s10RxStep c (tffDev f) s r) (is ++ js))
    (ts vs : List (List S10Seg)) (u x : List S10Seg) (ht : ∀ t ∈ ts, S10Tlp t) (hk : s10Sent c is = ts.flatten ++ u)
    (hv : ∀ t ∈ vs, S10Tlp t ∧ (s10TlpOut c t).length ≤ f.words - 2) (hx : S10Part x) (hxl : x.length < f.words - 2)
    (hk' : s10Sent c (is ++ js) = vs.flatten ++ x) (hn : 4 * f.words + 8 ≤ js.length) (p : Nat) (hp : p < 2) :
    (rxTlpsFor p (ts.map (s10TlpOut c))).flatten <+:
      (s10Taken c (tffDev f) tffShown p (s10RxStep c (tffDev f) s r) (is ++ js)).map rxLook :=
  s10_delivery (by rw [hs]; exact tffDev_ok f hf) s r hr is js hi hj (s10_nogap_one hs _ false) ((s10_noover_iff _ _).mpr hm) ts vs u x
    ht hk hv hx hxl hk' (by omega) p hp

/-- **C108**, several segments per row: the same, for TLPs with at most `words - 2` words' worth of segments. -/
theorem C108_delivery_several_partial (c : S10RxCfg) (f : TfmCfg) (hf : TfmOk f) (hs : c.segs = f.segs) (s : S10Rx Tfm) (r : S10RxIn)
    (hr : r.rst = true) (is js : List S10RxIn) (hi : ∀ i ∈ is, i.rst = false)
    (hj : ∀ j ∈ js, j.rst = false ∧ ∀ p, p < 2 → j.ready p = true) (hg : S10NoGap c false (is ++ js))
    (hm : S10Room c (tfmDev f) (s10RxStep c (tfmDev f) s r) (is ++ js))
    (ts vs : List (List S10Seg)) (u x : List S10Seg) (ht : ∀ t ∈ ts, S10Tlp t) (hk : s10Sent c is = ts.flatten ++ u)
    (hv : ∀ t ∈ vs, S10Tlp t ∧ (s10TlpOut c t).length ≤ (f.words - 2) * f.segs) (hx : S10Part x)
    (hxl : x.length < (f.words - 2) * f.segs) (hk' : s10Sent c (is ++ js) = vs.flatten ++ x)
    (hn : 24 * ((f.words + 21) * f.segs) + 29 ≤ js.length) (p : Nat) (hp : p < 2) :
    (rxTlpsFor p (ts.map (s10TlpOut c))).flatten <+:
      (s10Taken c (tfmDev f) (tfmShown f) p (s10RxStep c (tfmDev f) s r) (is ++ js)).map rxLook :=
  s10_delivery (by rw [hs]; exact tfmDev_ok f hf) s r hr is js hi hj hg ((s10_noover_iff _ _).mpr hm) ts vs u x
    ht hk hv hx hxl hk' (by omega) p hp

/-! ### C109: no row is lost -/

/-- **C109**, one segment per row: if the source sends only when `rx_st_ready` was set `L` cycles before, and the watermark
leaves room for `L + 2` rows, no row is ever written over another one, whatever the receivers do. -/
theorem C109_no_loss_one (c : S10RxCfg) (f : TffCfg) (hf : TffOk f) (L : Nat) (hL : f.mark + L + 2 ≤ f.words)
    (s : S10Rx Tff) (r : S10RxIn) (hr : r.rst = true) (is : List S10RxIn) (hi : ∀ i ∈ is, i.rst = false)
    (ho : S10Obeys c (tffDev f) (fun x => x.water) L (s10RxStep c (tffDev f) s r) is) :
    S10Room c (tffDev f) (s10RxStep c (tffDev f) s r) is :=
  s10_room _ (tff_margin f hf L hL) s r hr is hi ho

@[inherit_doc C109_no_loss_one]
theorem C109_no_loss_several (c : S10RxCfg) (f : TfmCfg) (hf : TfmOk f) (L : Nat) (hL : f.mark + L + 2 ≤ f.words)
    (s : S10Rx Tfm) (r : S10RxIn) (hr : r.rst = true) (is : List S10RxIn) (hi : ∀ i ∈ is, i.rst = false)
    (ho : S10Obeys c (tfmDev f) tfmWatermark L (s10RxStep c (tfmDev f) s r) is) :
    S10Room c (tfmDev f) (s10RxStep c (tfmDev f) s r) is :=
  s10_room _ (tfm_margin f hf L hL) s r hr is hi ho

/-- **C109** with the depth and the watermark in the module, for 256 bits: a ready latency of up to 18 cycles is covered, so
what the receivers get is what was sent. The hard IP has 17. -/
theorem C109_latency_256 (c : S10RxCfg) (hs : c.segs = 1) (L : Nat) (hL : L ≤ 18) (s : S10Rx Tff) (r : S10RxIn) (hr : r.rst = true)
    (is : List S10RxIn) (hi : ∀ i ∈ is, i.rst = false)
    (ho : S10Obeys c (tffDev s10RxFifo) (fun x => x.water) L (s10RxStep c (tffDev s10RxFifo) s r) is)
    (ts : List (List S10Seg)) (u : List S10Seg) (ht : ∀ t ∈ ts, S10Tlp t) (hu : S10Part u) (hk : s10Sent c is = ts.flatten ++ u)
    (p : Nat) (hp : p < 2) :
    let s0 := s10RxStep c (tffDev s10RxFifo) s r
    (s10Taken c (tffDev s10RxFifo) tffShown p s0 is ++ tffShown ((s10RxRun c (tffDev s10RxFifo) s0 is).dx.fifo p)).map rxLook <+:
      (rxTlpsFor p (ts.map (s10TlpOut c))).flatten := by
  have hf : TffOk s10RxFifo := ⟨by decide, by decide⟩
  have e : s10RxFifo.mark = 44 ∧ s10RxFifo.words = 64 := by decide
  exact C108_route_one c _ hf hs s r hr is hi (C109_no_loss_one c _ hf L (by omega) s r hr is hi ho) ts u ht hu hk p hp

/-- **C109** with the depth and the watermark in the module, for 512 bits: the same. The hard IP has 18. -/
theorem C109_latency_512 (c : S10RxCfg) (hs : c.segs = 2) (L : Nat) (hL : L ≤ 18) (s : S10Rx Tfm) (r : S10RxIn) (hr : r.rst = true)
    (is : List S10RxIn) (hi : ∀ i ∈ is, i.rst = false) (hg : S10NoGap c false is)
    (ho : S10Obeys c (tfmDev s10RxFifo2) tfmWatermark L (s10RxStep c (tfmDev s10RxFifo2) s r) is)
    (ts : List (List S10Seg)) (u : List S10Seg) (ht : ∀ t ∈ ts, S10Tlp t) (hu : S10Part u) (hk : s10Sent c is = ts.flatten ++ u)
    (p : Nat) (hp : p < 2) :
    let s0 := s10RxStep c (tfmDev s10RxFifo2) s r
    (s10Taken c (tfmDev s10RxFifo2) (tfmShown s10RxFifo2) p s0 is ++
      tfmShown s10RxFifo2 ((s10RxRun c (tfmDev s10RxFifo2) s0 is).dx.fifo p)).map rxLook <+:
      (rxTlpsFor p (ts.map (s10TlpOut c))).flatten := by
  have hf : TfmOk s10RxFifo2 := ⟨by decide, by decide⟩
  have e : s10RxFifo2.mark = 12 ∧ s10RxFifo2.words = 32 := by decide
  exact C108_route_several c _ hf (hs.trans rfl) s r hr is hi hg (C109_no_loss_several c _ hf L (by omega) s r hr is hi ho) ts u ht hu hk p hp

/-! ### A run -/

def s10RxExCfg : S10RxCfg := ⟨1, 5⟩

def s10RxExInit : S10Rx Tff :=
  { iv := fun _ => false, iseg := fun _ => {}, dw4 := false, valid := fun _ => false, word := fun _ => {}, dx := { dm := {}, fifo := fun _ => {} } }

def s10RxExIdle : S10RxIn := { valid := fun _ => false, seg := fun _ => {}, ready := fun _ => true }

def s10RxExRow (x : S10Seg) : S10RxIn := { s10RxExIdle with valid := fun _ => true, seg := fun _ => x }

def s10RxExReset : S10RxIn := { s10RxExIdle with rst := true }

/-- A memory write of ten double words (header of three: thirteen in all), a completion with two, and a memory write of eight,
the last three of which come with the second segment and fill up the first row. -/
def s10RxExWr : List S10Seg :=
  [{ data := dwsNum [0x4000000a, 1, 2, 10, 11, 12, 13, 14], sop := true, bar := 2, func := 1 }, { data := dwsNum [15, 16, 17, 18, 19], empty := 3, eop := true }]
def s10RxExCpl : List S10Seg := [{ data := dwsNum [0x4a000002, 3, 4, 20, 21], empty := 3, sop := true, eop := true }]
def s10RxExWr8 : List S10Seg :=
  [{ data := dwsNum [0x40000008, 5, 6, 30, 31, 32, 33, 34], sop := true, bar := 6 }, { data := dwsNum [35, 36, 37], empty := 5, eop := true }]

def s10RxExHist : List S10RxIn :=
  ([s10RxExWr, s10RxExCpl, s10RxExWr8].flatten.map s10RxExRow) ++ List.replicate 8 s10RxExIdle

def s10RxExFifo : TffCfg := ⟨3, 8, 2⟩

def s10RxExStart : S10Rx Tff := s10RxStep s10RxExCfg (tffDev s10RxExFifo) s10RxExInit s10RxExReset

/-- The TLPs are sent, there is room for all rows, and the receivers get them. -/
example :
    s10Sent s10RxExCfg s10RxExHist = [s10RxExWr, s10RxExCpl, s10RxExWr8].flatten ++ [] ∧
    (List.range s10RxExHist.length).all (fun k => (s10RxRun s10RxExCfg (tffDev s10RxExFifo) s10RxExStart (s10RxExHist.take k)).iv 0 == false ||
      s10Take s10RxExCfg (tffDev s10RxExFifo) (s10RxRun s10RxExCfg (tffDev s10RxExFifo) s10RxExStart (s10RxExHist.take k)) (s10RxExHist.getD k s10RxExIdle)) = true ∧
    (s10Taken s10RxExCfg (tffDev s10RxExFifo) tffShown 0 s10RxExStart s10RxExHist).map rxLook =
      [{ data := dwsNum [10, 11, 12, 13, 14, 15, 16, 17], strb := 255, hdr := dwsNum [10, 2, 1, 0x4000000a], bar := 2, func := 1, sop := true },
        { data := dwsNum [18, 19], strb := 3, eop := true },
        { data := dwsNum [30, 31, 32, 33, 34, 35, 36, 37], strb := 255, hdr := dwsNum [30, 6, 5, 0x40000008], bar := 5, sop := true, eop := true }] ∧
    (s10Taken s10RxExCfg (tffDev s10RxExFifo) tffShown 1 s10RxExStart s10RxExHist).map rxLook =
      [{ data := dwsNum [20, 21], strb := 3, hdr := dwsNum [20, 4, 3, 0x4a000002], sop := true, eop := true }] ∧
    TffOk s10RxExFifo :=
  ⟨by decide +kernel, by decide +kernel, by decide +kernel, by decide +kernel, ⟨by decide, by decide⟩⟩

/-- They are TLPs. -/
example : S10Tlp s10RxExWr := by
  refine ⟨by simp [s10RxExWr], ?_, by decide +kernel⟩
  intro k hk
  simp only [s10RxExWr, List.length_cons, List.length_nil] at hk
  rcases (by omega : k = 0 ∨ k = 1) with rfl | rfl <;> simp [s10RxExWr]

example : S10Tlp s10RxExWr8 ∧ S10Tlp s10RxExCpl := by
  refine ⟨⟨by simp [s10RxExWr8], ?_, by decide +kernel⟩, ⟨by simp [s10RxExCpl], ?_, by decide +kernel⟩⟩
  · intro k hk
    simp only [s10RxExWr8, List.length_cons, List.length_nil] at hk
    rcases (by omega : k = 0 ∨ k = 1) with rfl | rfl <;> simp [s10RxExWr8]
  · intro k hk
    simp only [s10RxExCpl, List.length_cons, List.length_nil] at hk
    obtain rfl : k = 0 := by omega
    simp [s10RxExCpl]

/-- The source of a shorter run obeys the ready latency 1: a completion, one idle cycle after the reset. -/
example : S10Obeys s10RxExCfg (tffDev s10RxExFifo) (fun x => x.water) 1 s10RxExStart (s10RxExIdle :: s10RxExCpl.map s10RxExRow) := by
  intro k hk hv
  simp only [s10RxExCpl, List.length_cons, List.length_map, List.length_nil] at hk
  rcases (by omega : k = 0 ∨ k = 1) with rfl | rfl
  · obtain ⟨g, -, hv⟩ := hv; cases hv
  · exact ⟨by decide, by decide +kernel⟩

end Verif.Props
