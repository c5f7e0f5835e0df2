import Verif.Spec.PtileIfRx
import Verif.Proofs.TlpDemuxFifo
/-! The TLP demultiplexer with FIFOs behind a receive interface: how long before it is full the watermark is reached, and
which TLPs come out when completions and requests are separated. -/
namespace Verif.Proofs
open Verif Verif.Model Verif.Spec Verif.Props

/-! ### The watermark -/

theorem tff_count_step {c : TffCfg} {s : Tff} {acc tk : List TlpSeg} {R : Nat} (hc : TffOk c) (h : TffInv c s acc tk R)
    (i : TffIn) (hr : i.rst = false) : tffCount c (tffStep c s i) ≤ tffCount c s + 1 := by
  rw [tff_count_eq hc h, tff_count_eq hc (tff_step hc h i hr)]
  have h1 : (tffA s i acc).length ≤ acc.length + 1 := by unfold tffA; rw [List.length_append]; split <;> simp
  have h2 : R ≤ tffR s i R := by unfold tffR; split <;> omega
  omega

theorem tff_count_run {c : TffCfg} (hc : TffOk c) (is : List TffIn) {s : Tff} {acc tk : List TlpSeg} {R : Nat}
    (h : TffInv c s acc tk R) (hi : ∀ i ∈ is, i.rst = false) : tffCount c (tffRun c s is) ≤ tffCount c s + is.length := by
  induction is generalizing s acc tk R with
  | nil => exact Nat.le_refl _
  | cons i is ih =>
    have h1 := tff_count_step hc h i (hi i (by simp))
    have h2 := ih (tff_step hc h i (hi i (by simp))) (fun x hx => hi x (by simp [hx]))
    rw [tffRun, List.length_cons]
    omega

theorem tfm_count_step {c : TfmCfg} {s : Tfm} {A tk : List TlpSeg} {cR cH dR dH : Nat} (hc : TfmOk c)
    (h : TfmInv c s A tk cR cH dR dH) (i : TfmIn) (hr : i.rst = false) :
    tfmCount c (tfmStep c s i).wrCur (tfmStep c s i).rd ≤ tfmCount c s.wrCur s.rd + c.segs ∧
    tfmCount c (tfmStep c s i).wrCur (tfmStep c s i).rdC ≤ tfmCount c s.wrCur s.rdC + c.segs := by
  obtain ⟨a1, a2⟩ := tfm_count_eq hc h
  obtain ⟨b1, b2⟩ := tfm_count_eq hc (tfm_step hc h i hr)
  rw [a1, a2, b1, b2, List.length_append]
  have := tfm_new_length c s i
  omega

theorem tfm_count_run {c : TfmCfg} (hc : TfmOk c) (is : List TfmIn) {s : Tfm} {A tk : List TlpSeg} {cR cH dR dH : Nat}
    (h : TfmInv c s A tk cR cH dR dH) (hi : ∀ i ∈ is, i.rst = false) :
    tfmCount c (tfmRun c s is).wrCur (tfmRun c s is).rd ≤ tfmCount c s.wrCur s.rd + is.length * c.segs ∧
    tfmCount c (tfmRun c s is).wrCur (tfmRun c s is).rdC ≤ tfmCount c s.wrCur s.rdC + is.length * c.segs := by
  induction is generalizing s A tk cR cH dR dH with
  | nil => simp [tfmRun]
  | cons i is ih =>
    have h1 := tfm_count_step hc h i (hi i (by simp))
    have h2 := ih (tfm_step hc h i (hi i (by simp))) (fun x hx => hi x (by simp [hx]))
    rw [tfmRun, List.length_cons, Nat.succ_mul]
    omega

/-- If the FIFO is not ready, its watermark was reached at least `m` cycles ago. -/
def DevMargin {St : Type} (F : TlpDev St) (water : St → Bool) (m : Nat) : Prop :=
  ∀ s r, r.rst = true → ∀ a b : List TfmIn, (∀ i ∈ a ++ b, i.rst = false) → b.length ≤ m →
    F.ready (devRun F (F.step s r) (a ++ b)) = false → water (devRun F (F.step s r) a) = true

theorem tff_margin (f : TffCfg) (hf : TffOk f) (m : Nat) (hm : f.mark + m + 2 ≤ f.words) :
    DevMargin (tffDev f) (fun s : Tff => s.water) m := by
  intro s r hr a b hi hb hn
  rw [tffDev_run] at hn ⊢
  have h0 := tff_reset f hf s (tffIn1 r) hr
  have e0 : (tffDev f).step s r = tffStep f s (tffIn1 r) := rfl
  rw [e0] at hn ⊢
  have hi' : ∀ i ∈ (a ++ b).map tffIn1, i.rst = false := by
    intro i h
    obtain ⟨x, hx, rfl⟩ := List.mem_map.mp h
    exact hi x hx
  have hlen : b.length = (b.map tffIn1).length := by simp
  rw [List.map_append] at hn hi'
  generalize a.map tffIn1 = A at *
  generalize b.map tffIn1 = B at *
  have hn : (tffRun f (tffStep f s (tffIn1 r)) (A ++ B)).full = true := by
    have : (!(tffRun f (tffStep f s (tffIn1 r)) (A ++ B)).full) = false := hn
    simpa using this
  have c0 : tffCount f (tffStep f s (tffIn1 r)) = 0 := by rw [tff_count_eq hf h0]; rfl
  -- the last cycle
  rcases List.eq_nil_or_concat (A ++ B) with hnil | ⟨C, x, hC⟩
  · rw [hnil] at hn
    have hx : (tffIn1 r).rst = true := hr
    simp [tffRun, tffStep, hx] at hn
  rw [List.concat_eq_append] at hC
  have hx : x.rst = false := hi' x (by rw [hC]; simp)
  rw [hC, tffRun_append] at hn
  have hn : f.words - 2 ≤ tffCount f (tffRun f (tffStep f s (tffIn1 r)) C) := by
    simpa [tffRun, tffStep, hx] using hn
  rcases List.eq_nil_or_concat A with hA | ⟨A', y, hA⟩
  · subst hA
    have h1 := tff_count_run hf C h0 (fun i h => hi' i (by rw [hC]; simp [h]))
    have hl := congrArg List.length hC
    simp at hl
    omega
  · rw [List.concat_eq_append] at hA
    subst hA
    have hy : y.rst = false := hi' y (by simp)
    rw [tffRun_append]
    show (tffStep f (tffRun f (tffStep f s (tffIn1 r)) A') y).water = true
    have hw : f.mark ≤ tffCount f (tffRun f (tffStep f s (tffIn1 r)) A') := by
      -- C = A' ++ D with D.length = B.length
      have hl := congrArg List.length hC
      simp at hl
      have hCA : C = A' ++ C.drop A'.length := by
        have := congrArg (List.take A'.length) hC
        rw [List.append_assoc, List.take_left, List.take_append_of_le_length (by omega)] at this
        conv => lhs; rw [← List.take_append_drop A'.length C, ← this]
      obtain ⟨R, -, h1⟩ := tff_run hf A' h0 (fun i h => hi' i (by simp [h]))
      have h2 := tff_count_run hf (C.drop A'.length) h1 (fun i h => hi' i (by rw [hC]; simp [List.mem_of_mem_drop h]))
      rw [← tffRun_append, ← hCA, List.length_drop] at h2
      omega
    generalize tffRun f (tffStep f s (tffIn1 r)) A' = z at hw ⊢
    simp [tffStep, hy, hw]

theorem tfm_margin (f : TfmCfg) (hf : TfmOk f) (m : Nat) (hm : f.mark + m + 2 ≤ f.words) :
    DevMargin (tfmDev f) tfmWatermark m := by
  intro s r hr A B hi' hb hn
  rw [tfmDev_run] at hn ⊢
  obtain ⟨_, _, _, _, h0⟩ : ∃ a b d e, TfmInv f ((tfmDev f).step s r) [] [] a b d e := ⟨_, _, _, _, tfm_reset f hf s r hr⟩
  have hW : f.words * f.segs - f.segs * 2 = (f.words - 2) * f.segs := by rw [Nat.sub_mul]; omega
  have hmw : f.mark * f.segs + m * f.segs ≤ (f.words - 2) * f.segs := by
    rw [← Nat.add_mul]; exact Nat.mul_le_mul_right _ (by omega)
  have hbm : B.length * f.segs ≤ m * f.segs := Nat.mul_le_mul_right _ hb
  have c0 := tfm_count_eq hf h0
  simp only [List.length_nil, Nat.zero_sub] at c0
  have hpos := tfm_segs_pos f
  rcases List.eq_nil_or_concat (A ++ B) with hnil | ⟨C, x, hC⟩
  · rw [hnil] at hn
    simp [tfmRun, tfmDev, tfmReady, tfmStep, hr] at hn
  rw [List.concat_eq_append] at hC
  have hx : x.rst = false := hi' x (by rw [hC]; simp)
  rw [hC, tfmRun_append] at hn
  have hn : (f.words - 2) * f.segs ≤ tfmCount f (tfmRun f ((tfmDev f).step s r) C).wrCur (tfmRun f ((tfmDev f).step s r) C).rd ∨
      (f.words - 2) * f.segs ≤ tfmCount f (tfmRun f ((tfmDev f).step s r) C).wrCur (tfmRun f ((tfmDev f).step s r) C).rdC := by
    rw [← hW]
    have : tfmReady (tfmStep f (tfmRun f ((tfmDev f).step s r) C) x) = false := hn
    simp only [tfmReady, tfmStep, hx, Bool.not_false, Bool.true_and, Bool.not_eq_false', Bool.or_eq_true, decide_eq_true_eq] at this
    exact this
  have hl := congrArg List.length hC
  simp at hl
  rcases List.eq_nil_or_concat A with hA | ⟨A', y, hA⟩
  · subst hA
    have h1 := tfm_count_run hf C h0 (fun i h => hi' i (by rw [hC]; simp [h]))
    rw [c0.1, c0.2] at h1
    have : B.length * f.segs = C.length * f.segs + f.segs := by
      rw [show B.length = C.length + 1 by simpa using hl, Nat.succ_mul]
    generalize C.length * f.segs = X at *
    generalize (f.words - 2) * f.segs = Y at *
    generalize B.length * f.segs = Z at *
    generalize f.mark * f.segs = U at *
    generalize m * f.segs = V at *
    omega
  · rw [List.concat_eq_append] at hA
    subst hA
    have hy : y.rst = false := hi' y (by simp)
    rw [tfmRun_append]
    show tfmWatermark (tfmStep f (tfmRun f ((tfmDev f).step s r) A') y) = true
    have hCA : C = A' ++ C.drop A'.length := by
      have := congrArg (List.take A'.length) hC
      simp at hl
      rw [List.append_assoc, List.take_left, List.take_append_of_le_length (by omega)] at this
      conv => lhs; rw [← List.take_append_drop A'.length C, ← this]
    obtain ⟨_, _, _, _, h1⟩ := tfm_run hf A' h0 (fun i h => hi' i (by simp [h]))
    have h2 := tfm_count_run hf (C.drop A'.length) h1 (fun i h => hi' i (by rw [hC]; simp [List.mem_of_mem_drop h]))
    rw [← tfmRun_append, ← hCA, List.length_drop] at h2
    have : C.length - A'.length = B.length := by simp at hl; omega
    rw [this] at h2
    have hw : f.mark * f.segs ≤ tfmCount f (tfmRun f ((tfmDev f).step s r) A').wrCur (tfmRun f ((tfmDev f).step s r) A').rd ∨
        f.mark * f.segs ≤ tfmCount f (tfmRun f ((tfmDev f).step s r) A').wrCur (tfmRun f ((tfmDev f).step s r) A').rdC := by
      generalize (f.words - 2) * f.segs = Y at *
      generalize B.length * f.segs = Z at *
      generalize f.mark * f.segs = U at *
      generalize m * f.segs = V at *
      omega
    simp only [tfmWatermark, tfmStep, hy, Bool.not_false, Bool.true_and, Bool.or_eq_true, decide_eq_true_eq]
    exact hw

/-- The same for the demultiplexer: if its input is not ready, the watermark of some FIFO was reached. -/
theorem tdf_margin {St : Type} {c : TdmCfg} {F : TlpDev St} {water : St → Bool} {m : Nat} (hF : DevMargin F water m) (s : Tdf St)
    (r : TdmIn) (hr : r.rst = true) (a b : List TdmIn) (hi : ∀ i ∈ a ++ b, i.rst = false) (hb : b.length ≤ m) (j : TdmIn)
    (hj : j.enable = true) (hn : tdfReady c F (tdfRun c F (tdfStep c F s r) (a ++ b)) j = false) :
    ∃ p, p < c.ports ∧ water ((tdfRun c F (tdfStep c F s r) a).fifo p) = true := by
  have : ∃ p, p < c.ports ∧ F.ready ((tdfRun c F (tdfStep c F s r) (a ++ b)).fifo p) = false := by
    apply Classical.byContradiction
    intro hne
    rw [← Bool.not_eq_true] at hn
    apply hn
    refine (C79_ready _ _ _).mpr ⟨hj, Or.inr ?_⟩
    intro p hp
    cases hx : F.ready ((tdfRun c F (tdfStep c F s r) (a ++ b)).fifo p) with
    | true => exact hx
    | false => exact absurd ⟨p, hp, hx⟩ hne
  obtain ⟨p, hp, h⟩ := this
  refine ⟨p, hp, ?_⟩
  rw [tdfRun_fifo, tdfFfH_append] at h
  rw [tdfRun_fifo]
  refine hF (s.fifo p) (tdfFfIn c s r p) hr _ _ ?_ ?_ h
  · rw [← tdfFfH_append]; exact tdfFfH_rst c F p _ _ hi
  · rw [tdfFfH_length]; exact hb

/-! ### Completions and requests -/

theorem tdfBelonging_mono (p : Nat) (a b : List TdmItem) : tdfBelonging p a <+: tdfBelonging p (a ++ b) := by
  rw [tdfBelonging, tdfBelonging, ← tdmRoute_belongs, ← tdmRoute_belongs, tdmRoute_append, List.map_append]
  exact List.prefix_append _ _

/-- The function keeps the flags, and the header where it counts. -/
def KeepsView (v : TlpSeg → TlpSeg) : Prop :=
  ∀ x, (v x).sop = x.sop ∧ (v x).eop = x.eop ∧ (x.sop = true → (v x).hdr = x.hdr)

/-- The port is that of the header. -/
def PortOfHdr (x : TdmItem) : Prop := x.port = some (if hdrCpl x.seg.hdr then 1 else 0)

theorem rx_split (v w : TlpSeg → TlpSeg) (ts : List (List TlpSeg)) (u : List TlpSeg) (L : List TdmItem)
    (h : L.map (fun x => v x.seg) = (ts.flatten ++ u).map w) :
    ∃ (tsI : List (List TdmItem)) (uI : List TdmItem), L = tsI.flatten ++ uI ∧ tsI.map (fun t => t.map fun x => v x.seg) = ts.map (fun t => t.map w) ∧
      uI.map (fun x => v x.seg) = u.map w := by
  induction ts generalizing L with
  | nil => exact ⟨[], L, rfl, rfl, h⟩
  | cons t ts ih =>
    rw [List.flatten_cons, List.append_assoc, List.map_append] at h
    obtain ⟨a, b, rfl, ha, hb⟩ := List.map_eq_append_iff.mp h
    obtain ⟨tsI, uI, rfl, h1, h2⟩ := ih b hb
    exact ⟨a :: tsI, uI, by simp, by simp [ha, h1], h2⟩

theorem rx_getElem {v w : TlpSeg → TlpSeg} {t : List TlpSeg} {tI : List TdmItem}
    (h : tI.map (fun x => v x.seg) = t.map w) (k : Nat) (hk : k < tI.length) (hk' : k < t.length) : v tI[k].seg = w t[k] := by
  have h1 := congrArg (fun l => l[k]?) h
  simp only [List.getElem?_map, List.getElem?_eq_getElem hk, List.getElem?_eq_getElem hk', Option.map_some, Option.some.injEq] at h1
  exact h1

theorem rx_tlp {v w : TlpSeg → TlpSeg} (hv : KeepsView v) (hw : KeepsView w) {t : List TlpSeg} {tI : List TdmItem}
    (h : tI.map (fun x => v x.seg) = t.map w) (ht : SegTlp t) : TdmTlp tI := by
  have hl : tI.length = t.length := by have := congrArg List.length h; simpa using this
  refine ⟨?_, ?_⟩
  · rintro rfl
    exact ht.1 (List.length_eq_zero_iff.mp hl.symm)
  · intro k hk
    have e := rx_getElem h k hk (by omega)
    have h1 := ht.2 k (by omega)
    rw [← (hw _).1, ← (hw _).2.1, ← e, (hv _).1, (hv _).2.1, ← hl] at h1
    exact h1

theorem rx_part {v w : TlpSeg → TlpSeg} (hv : KeepsView v) (hw : KeepsView w) {t : List TlpSeg} {tI : List TdmItem}
    (h : tI.map (fun x => v x.seg) = t.map w) (ht : SegPart t) : TdmPart tI := by
  have hl : tI.length = t.length := by have := congrArg List.length h; simpa using this
  intro k hk
  have e := rx_getElem h k hk (by omega)
  have h1 := ht k (by omega)
  rw [← (hw _).1, ← (hw _).2.1, ← e, (hv _).1, (hv _).2.1] at h1
  exact h1

theorem rx_dest {v w : TlpSeg → TlpSeg} (hv : KeepsView v) (hw : KeepsView w) {t : List TlpSeg} {tI : List TdmItem}
    (h : tI.map (fun x => v x.seg) = t.map w) (ht : ∀ h : 0 < t.length, t[0].sop = true) (hP : ∀ x ∈ tI, PortOfHdr x) (p : Nat)
    (hp : p < 2) : (tdmDest tI == some p) = (t.head?.any fun x => hdrCpl x.hdr == (p == 1)) := by
  cases t with
  | nil =>
    have : tI = [] := by simpa using h
    subst this; rfl
  | cons y t =>
    cases tI with
    | nil => simp at h
    | cons x tI =>
      have e : v x.seg = w y := by simp only [List.map_cons, List.cons.injEq] at h; exact h.1
      have hs : y.sop = true := ht (by simp)
      have hs' : x.seg.sop = true := by rw [← (hv x.seg).1, e, (hw y).1]; exact hs
      have hh : x.seg.hdr = y.hdr := by rw [← (hv x.seg).2.2 hs', e, (hw y).2.2 hs]
      have hx := hP x (by simp)
      unfold PortOfHdr at hx
      simp only [tdmDest, List.head?_cons, Option.bind_some, Option.any_some, hx, hh]
      rcases (by omega : p = 0 ∨ p = 1) with rfl | rfl <;> cases hdrCpl y.hdr <;> rfl

theorem rx_for_map {v w : TlpSeg → TlpSeg} (hv : KeepsView v) (hw : KeepsView w) (p : Nat) (hp : p < 2) (ts : List (List TlpSeg))
    (tsI : List (List TdmItem)) (h : tsI.map (fun t => t.map fun x => v x.seg) = ts.map (fun t => t.map w))
    (ht : ∀ t ∈ ts, ∀ h : 0 < t.length, t[0].sop = true) (hP : ∀ tI ∈ tsI, ∀ x ∈ tI, PortOfHdr x) :
    (tdfFor p tsI).map v = (rxTlpsFor p ts).flatten.map w := by
  induction ts generalizing tsI with
  | nil =>
    have : tsI = [] := by simpa using h
    subst this; rfl
  | cons t ts ih =>
    cases tsI with
    | nil => simp at h
    | cons tI tsI =>
      simp only [List.map_cons, List.cons.injEq] at h
      have hd := rx_dest hv hw h.1 (ht t (by simp)) (hP tI (by simp)) p hp
      have ih' := ih tsI h.2 (fun t h => ht t (by simp [h])) (fun tI h => hP tI (by simp [h]))
      simp only [tdfFor, tdmFor, rxTlpsFor, List.map_map] at ih' ⊢
      rw [List.filter_cons, List.filter_cons, hd]
      split
      · simp only [List.flatten_cons, List.map_append]
        rw [ih']
        congr 1
        rw [← h.1]
        rfl
      · exact ih'

/-- What belongs to a port, and what comes out there: the TLPs whose header says so. -/
theorem rx_for {v w : TlpSeg → TlpSeg} (hv : KeepsView v) (hw : KeepsView w) (ts : List (List TlpSeg)) (u : List TlpSeg)
    (ht : ∀ t ∈ ts, SegTlp t) (hu : SegPart u) (L : List TdmItem) (hP : ∀ x ∈ L, PortOfHdr x)
    (h : L.map (fun x => v x.seg) = (ts.flatten ++ u).map w) (p : Nat) (hp : p < 2) :
    (tlpWhole (tdfBelonging p L)).map v = (rxTlpsFor p ts).flatten.map w ∧
    (tdfBelonging p L).map v = (rxTlpsFor p (ts ++ [u])).flatten.map w := by
  obtain ⟨tsI, uI, rfl, h1, h2⟩ := rx_split v w ts u L h
  have hall : ∀ tI ∈ tsI, ∃ t ∈ ts, tI.map (fun x => v x.seg) = t.map w := by
    intro tI hm
    have : tI.map (fun x => v x.seg) ∈ ts.map (fun t => t.map w) := by
      rw [← h1]; exact List.mem_map_of_mem (f := fun t : List TdmItem => t.map fun x => v x.seg) hm
    obtain ⟨t, hm', e⟩ := List.mem_map.mp this
    exact ⟨t, hm', e.symm⟩
  have hT : ∀ t ∈ tsI, TdmTlp t := by
    intro tI hm
    obtain ⟨t, hm', e⟩ := hall tI hm
    exact rx_tlp hv hw e (ht t hm')
  have hs : ∀ t ∈ ts, ∀ h : 0 < t.length, t[0].sop = true := fun t hm h => ((ht t hm).2 0 h).1.mpr rfl
  have hP' : ∀ tI ∈ tsI, ∀ x ∈ tI, PortOfHdr x := by
    intro tI hm x hx
    exact hP x (List.mem_append_left _ (List.mem_flatten.mpr ⟨tI, hm, hx⟩))
  rw [tdfFor_belonging p tsI uI hT (rx_part hv hw h2 hu), tdfFor_whole p tsI uI hT (rx_part hv hw h2 hu)]
  refine ⟨rx_for_map hv hw p hp ts tsI h1 hs hP', rx_for_map hv hw p hp _ _ ?_ ?_ ?_⟩
  · simp [h1, h2]
  · intro t hm
    rcases List.mem_append.mp hm with hm | hm
    · exact hs t hm
    · rw [List.mem_singleton] at hm
      subst hm
      exact fun h => (hu 0 h).1.mpr rfl
  · intro t hm
    rcases List.mem_append.mp hm with hm | hm
    · exact hP' t hm
    · rw [List.mem_singleton] at hm
      subst hm
      exact fun x hx => hP x (List.mem_append_right _ hx)

theorem tlpShort_map {v : TlpSeg → TlpSeg} (hv : KeepsView v) {n : Nat} {l : List TlpSeg} (h : TlpShort n (l.map v)) : TlpShort n l := by
  intro k hk
  obtain ⟨j, x, a1, a2, a3, a4⟩ := h k (by simpa using hk)
  rw [List.getElem?_map] at a3
  obtain ⟨y, hy, rfl⟩ := Option.map_eq_some_iff.mp a3
  exact ⟨j, y, a1, a2, hy, by rw [← (hv y).2.1]; exact a4⟩

theorem tlpShort_of_map {v : TlpSeg → TlpSeg} (hv : KeepsView v) {n : Nat} {l : List TlpSeg} (h : TlpShort n l) : TlpShort n (l.map v) := by
  intro k hk
  obtain ⟨j, x, a1, a2, a3, a4⟩ := h k (by simpa using hk)
  exact ⟨j, v x, a1, a2, by rw [List.getElem?_map, a3]; rfl, by rw [(hv x).2.1]; exact a4⟩

/-- A segment of a TLP that is short has an end flag nearby. -/
theorem rx_short (n : Nat) (ts : List (List TlpSeg)) (u : List TlpSeg) (ht : ∀ t ∈ ts, SegTlp t ∧ t.length ≤ n) (hu : u.length < n) :
    TlpShort n (ts.flatten ++ u) := by
  induction ts with
  | nil =>
    intro k hk
    simp at hk
    omega
  | cons t ts ih =>
    have ih' := ih fun t h => ht t (by simp [h])
    obtain ⟨⟨h0, h1⟩, h2⟩ := ht t (by simp)
    intro k hk
    rw [List.flatten_cons, List.append_assoc, List.length_append] at hk
    rw [List.flatten_cons, List.append_assoc]
    by_cases hkt : k < t.length
    · refine ⟨t.length - 1, t[t.length - 1]'(by omega), by omega, by omega, ?_, ?_⟩
      · rw [List.getElem?_append_left (by omega), List.getElem?_eq_getElem (by omega)]
      · exact (h1 _ (by omega)).2.mpr (by omega)
    · obtain ⟨j, x, a1, a2, a3, a4⟩ := ih' (k - t.length) (by omega)
      refine ⟨j + t.length, x, by omega, by omega, ?_, a4⟩
      rw [List.getElem?_append_right (by omega), Nat.add_sub_cancel]
      exact a3

/-- If all TLPs are short, so are those that belong to a port. -/
theorem rx_belonging_short {v w : TlpSeg → TlpSeg} (hv : KeepsView v) (hw : KeepsView w) (ts : List (List TlpSeg)) (u : List TlpSeg)
    (ht : ∀ t ∈ ts, SegTlp t) (hu : SegPart u) (L A : List TdmItem) (hP : ∀ x ∈ L, PortOfHdr x)
    (h : L.map (fun x => v x.seg) = (ts.flatten ++ u).map w) (p : Nat) (hp : p < 2) (n : Nat) (hn : ∀ t ∈ ts, t.length ≤ n)
    (hun : u.length < n) (hA : A <+: L) : TlpShort n (tdfBelonging p A) := by
  obtain ⟨B, rfl⟩ := hA
  refine tlpShort_prefix ?_ (tdfBelonging_mono p A B)
  refine tlpShort_map hv ?_
  rw [(rx_for hv hw ts u ht hu _ hP h p hp).2]
  refine tlpShort_of_map hw ?_
  rw [rxTlpsFor, List.filter_append, List.flatten_append]
  refine rx_short n _ _ ?_ ?_
  · intro t hm
    have := (List.mem_filter.mp hm).1
    exact ⟨ht t this, hn t this⟩
  · by_cases hd : (u.head?.any fun x => hdrCpl x.hdr == (p == 1)) = true
    · rw [List.filter_cons_of_pos (by simpa using hd)]; simpa using hun
    · rw [List.filter_cons_of_neg (by simpa using hd)]
      simp only [List.filter_nil, List.flatten_nil, List.length_nil]
      omega

end Verif.Proofs
