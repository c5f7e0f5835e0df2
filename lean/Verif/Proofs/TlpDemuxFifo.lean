import Verif.Spec.TlpDemuxFifo
import Verif.Props.TlpDemux
import Verif.Props.TlpFifo
import Verif.Props.TlpFifoSeg
/-! The demultiplexer with FIFOs as the composition of its parts. -/
namespace Verif.Proofs
open Verif Verif.Model Verif.Spec Verif.Props

section generic
variable {St : Type} (S : Nat) (F : TlpDev St) (shown : St → List TlpSeg)

def devRun : St → List TfmIn → St
  | s, [] => s
  | s, i :: is => devRun (F.step s i) is

def devAccepted : St → List TfmIn → List TlpSeg
  | _, [] => []
  | s, i :: is => (if F.ready s then ((List.range S).filter i.valid).map i.seg else []) ++ devAccepted (F.step s i) is

def devTaken : St → List TfmIn → List TlpSeg
  | _, [] => []
  | s, i :: is => (if i.ready then shown s else []) ++ devTaken (F.step s i) is

/-- What the composition needs of a FIFO. -/
structure TlpDevOk (U N D : Nat) : Prop where
  order : ∀ s r, r.rst = true → ∀ is, (∀ i ∈ is, i.rst = false) →
    devTaken F shown (F.step s r) is ++ shown (devRun F (F.step s r) is) <+: tlpWhole (devAccepted S F (F.step s r) is)
  slack : ∀ s r, r.rst = true → ∀ is, (∀ i ∈ is, i.rst = false) → ∀ i, i.rst = false →
    (devAccepted S F (F.step s r) is).length < (devTaken F shown (F.step s r) is).length + U →
    F.ready (devRun F (F.step s r) (is ++ [i])) = true
  ready : ∀ s r, r.rst = true → ∀ is js : List TfmIn, (∀ i ∈ is, i.rst = false) → (∀ j ∈ js, j.rst = false ∧ j.ready = true) →
    (devAccepted S F (F.step s r) is).length < (tlpWhole (devAccepted S F (F.step s r) is)).length + U →
    N ≤ js.length → ∃ k, k < js.length ∧ F.ready (devRun F (F.step s r) (is ++ js.take k)) = true
  drain : ∀ s r, r.rst = true → ∀ is js : List TfmIn, (∀ i ∈ is, i.rst = false) → (∀ j ∈ js, j.rst = false ∧ j.ready = true) →
    D ≤ js.length → tlpWhole (devAccepted S F (F.step s r) is) <+: devTaken F shown (F.step s r) (is ++ js)

end generic

theorem tfmDev_run (f : TfmCfg) (is : List TfmIn) (s : Tfm) : devRun (tfmDev f) s is = tfmRun f s is := by
  induction is generalizing s with
  | nil => rfl
  | cons i is ih => exact ih _

theorem tfmDev_accepted (f : TfmCfg) (is : List TfmIn) (s : Tfm) : devAccepted f.segs (tfmDev f) s is = tfmAccepted f s is := by
  induction is generalizing s with
  | nil => rfl
  | cons i is ih => simp only [devAccepted, tfmAccepted, ih]; rfl

theorem tfmDev_taken (f : TfmCfg) (is : List TfmIn) (s : Tfm) : devTaken (tfmDev f) (tfmShown f) s is = tfmTaken f s is := by
  induction is generalizing s with
  | nil => rfl
  | cons i is ih => simp only [devTaken, tfmTaken, ih]; rfl

theorem tfm_ever_ready (f : TfmCfg) (js : List TfmIn) (s : Tfm) (h : tfmEverReady f s js) :
    ∃ k, k < js.length ∧ tfmReady (tfmRun f s (js.take k)) = true := by
  induction js generalizing s with
  | nil => exact h.elim
  | cons j js ih =>
    rcases h with h | h
    · exact ⟨0, by simp, h⟩
    · obtain ⟨k, hk, h⟩ := ih _ h
      exact ⟨k + 1, by simpa using hk, h⟩

theorem tfmDev_ok (f : TfmCfg) (hf : TfmOk f) :
    TlpDevOk f.segs (tfmDev f) (tfmShown f) ((f.words - 2) * f.segs) (6 * ((f.words + 21) * f.segs) + 2)
      (6 * ((f.words + 21) * f.segs) + 21) where
  order := by
    intro s r hr is hi
    rw [tfmDev_taken, tfmDev_accepted, tfmDev_run]
    exact C81_whole_several f hf s r hr is hi
  slack := by
    intro s r hr is hi i hi' h
    rw [tfmDev_taken, tfmDev_accepted] at h
    have := (C82_ready_several f hf s r hr is hi i hi').2.1 h
    rw [tfmDev_run]
    show tfmReady (tfmRun f (tfmStep f s r) (is ++ [i])) = true
    rw [tfmRun_append]
    exact this
  ready := by
    intro s r hr is js hi hj h hn
    rw [tfmDev_accepted] at h
    have ha := (C82_ready_several f hf s r hr is hi { rst := false, valid := fun _ => false, seg := fun _ => {}, ready := false } rfl).1
    have hw := tlpWhole_length (tfmAccepted f (tfmStep f s r) is)
    obtain ⟨k, hk, h⟩ := tfm_ever_ready f js _ (C83_ready_several_partial f hf s r hr is js hi hj h (by omega))
    refine ⟨k, hk, ?_⟩
    rw [tfmDev_run]
    show tfmReady (tfmRun f (tfmStep f s r) _) = true
    rw [tfmRun_append]
    exact h
  drain := by
    intro s r hr is js hi hj hn
    rw [tfmDev_accepted, tfmDev_taken]
    have ha := (C82_ready_several f hf s r hr is hi { rst := false, valid := fun _ => false, seg := fun _ => {}, ready := false } rfl).1
    have hw := tlpWhole_length (tfmAccepted f (tfmStep f s r) is)
    exact C83_drain_several f hf s r hr is js hi hj (by omega)

def tffIn1 (i : TfmIn) : TffIn := { rst := i.rst, valid := i.valid 0, seg := i.seg 0, ready := i.ready }

theorem tffDev_run (f : TffCfg) (is : List TfmIn) (s : Tff) : devRun (tffDev f) s is = tffRun f s (is.map tffIn1) := by
  induction is generalizing s with
  | nil => rfl
  | cons i is ih => exact ih _

theorem tffDev_accepted (f : TffCfg) (is : List TfmIn) (s : Tff) :
    devAccepted 1 (tffDev f) s is = tffAccepted f s (is.map tffIn1) := by
  induction is generalizing s with
  | nil => rfl
  | cons i is ih =>
    simp only [devAccepted, List.map_cons, tffAccepted, ih]
    have e : (if (tffDev f).ready s = true then List.map i.seg (List.filter i.valid (List.range 1)) else []) =
        if tffReady s && (tffIn1 i).valid then [(tffIn1 i).seg] else [] := by
      show (if tffReady s = true then _ else _) = _
      simp only [tffIn1]
      by_cases h : i.valid 0 = true <;> cases tffReady s <;> simp [List.range_succ, h]
    rw [e]
    rfl

theorem tffDev_taken (f : TffCfg) (is : List TfmIn) (s : Tff) :
    devTaken (tffDev f) tffShown s is = tffTaken f s (is.map tffIn1) := by
  induction is generalizing s with
  | nil => rfl
  | cons i is ih => simp only [devTaken, List.map_cons, tffTaken, ih]; rfl

theorem tff_ever_ready (f : TffCfg) (js : List TffIn) (s : Tff) (h : tffEverReady f s js) :
    ∃ k, k < js.length ∧ tffReady (tffRun f s (js.take k)) = true := by
  induction js generalizing s with
  | nil => exact h.elim
  | cons j js ih =>
    rcases h with h | h
    · exact ⟨0, by simp, h⟩
    · obtain ⟨k, hk, h⟩ := ih _ h
      exact ⟨k + 1, by simpa using hk, h⟩

theorem tff_run_append (f : TffCfg) (a b : List TffIn) (s : Tff) : tffRun f s (a ++ b) = tffRun f (tffRun f s a) b := by
  induction a generalizing s with
  | nil => rfl
  | cons i a ih => exact ih _

theorem tffDev_ok (f : TffCfg) (hf : TffOk f) : TlpDevOk 1 (tffDev f) tffShown (f.words - 2) (f.words + 1) (f.words + 3) where
  order := by
    intro s r hr is hi
    rw [tffDev_taken, tffDev_accepted, tffDev_run]
    exact C81_whole_one f hf s (tffIn1 r) hr (is.map tffIn1) (by simpa [tffIn1] using hi)
  slack := by
    intro s r hr is hi i hi' h
    rw [tffDev_taken, tffDev_accepted] at h
    have := (C82_ready_one f hf s (tffIn1 r) hr (is.map tffIn1) (by simpa [tffIn1] using hi) (tffIn1 i) hi').2.1 h
    rw [tffDev_run]
    show tffReady (tffRun f (tffStep f s (tffIn1 r)) (List.map tffIn1 (is ++ [i]))) = true
    rw [List.map_append, tff_run_append]
    exact this
  ready := by
    intro s r hr is js hi hj h hn
    rw [tffDev_accepted] at h
    obtain ⟨k, hk, h⟩ := tff_ever_ready f _ _ (C83_ready_one_partial f hf s (tffIn1 r) hr (is.map tffIn1) (js.map tffIn1)
      (by simpa [tffIn1] using hi) (by simpa [tffIn1] using hj) h (by simpa using hn))
    refine ⟨k, by simpa using hk, ?_⟩
    rw [tffDev_run]
    show tffReady (tffRun f (tffStep f s (tffIn1 r)) _) = true
    rw [List.map_append, tff_run_append, List.map_take]
    exact h
  drain := by
    intro s r hr is js hi hj hn
    rw [tffDev_accepted, tffDev_taken, List.map_append]
    have ha := (C82_ready_one f hf s (tffIn1 r) hr (is.map tffIn1) (by simpa [tffIn1] using hi)
      { rst := false, valid := false, seg := {}, ready := false } rfl).1
    have hw := tlpWhole_length (tffAccepted f (tffStep f s (tffIn1 r)) (is.map tffIn1))
    refine C83_drain_one f hf s (tffIn1 r) hr (is.map tffIn1) (js.map tffIn1) (by simpa [tffIn1] using hi)
      (by simpa [tffIn1] using hj) ?_
    rw [List.length_map]
    omega

section compose
variable {St : Type} (c : TdmCfg) (F : TlpDev St) (shown : St → List TlpSeg)

/-- The history that the demultiplexer proper sees. -/
def tdfDmH : Tdf St → List TdmIn → List TdmIn
  | _, [] => []
  | s, i :: is => tdfDmIn F s i :: tdfDmH (tdfStep c F s i) is

/-- The history that the FIFO of port `p` sees. -/
def tdfFfH (p : Nat) : Tdf St → List TdmIn → List TfmIn
  | _, [] => []
  | s, i :: is => tdfFfIn c s i p :: tdfFfH p (tdfStep c F s i) is

theorem tdfRun_dm (is : List TdmIn) (s : Tdf St) : (tdfRun c F s is).dm = tdmRun c s.dm (tdfDmH c F s is) := by
  induction is generalizing s with
  | nil => rfl
  | cons i is ih => exact ih _

theorem tdfRun_fifo (p : Nat) (is : List TdmIn) (s : Tdf St) :
    (tdfRun c F s is).fifo p = devRun F (s.fifo p) (tdfFfH c F p s is) := by
  induction is generalizing s with
  | nil => rfl
  | cons i is ih => exact ih _

theorem tdfAccepted_dm (is : List TdmIn) (s : Tdf St) : tdfAccepted c F s is = tdmAccepted c s.dm (tdfDmH c F s is) := by
  induction is generalizing s with
  | nil => rfl
  | cons i is ih => simp only [tdfAccepted, tdfDmH, tdmAccepted, ih]; rfl

theorem tdfTaken_fifo (p : Nat) (is : List TdmIn) (s : Tdf St) :
    tdfTaken c F shown p s is = devTaken F shown (s.fifo p) (tdfFfH c F p s is) := by
  induction is generalizing s with
  | nil => rfl
  | cons i is ih => simp only [tdfTaken, tdfFfH, devTaken, ih]; rfl

/-- What the FIFO of a port accepts is what the demultiplexer proper hands over. -/
theorem tdf_link (p : Nat) (is : List TdmIn) (s : Tdf St) :
    devAccepted c.segs F (s.fifo p) (tdfFfH c F p s is) = (tdmTaken c p s.dm (tdfDmH c F s is)).map (·.2) := by
  induction is generalizing s with
  | nil => rfl
  | cons i is ih =>
    simp only [tdfFfH, devAccepted, tdfDmH, tdmTaken, List.map_append]
    congr 1
    · show _ = List.map (·.2) (if F.ready (s.fifo p) = true then tdmShown c s.dm p else [])
      cases F.ready (s.fifo p)
      · rfl
      · simp [tdmShown, tdfFfIn, Function.comp_def]
    · exact ih (tdfStep c F s i)

theorem tdfRun_append (a b : List TdmIn) (s : Tdf St) : tdfRun c F s (a ++ b) = tdfRun c F (tdfRun c F s a) b := by
  induction a generalizing s with
  | nil => rfl
  | cons i a ih => exact ih _

theorem tdfFfH_append (p : Nat) (a b : List TdmIn) (s : Tdf St) :
    tdfFfH c F p s (a ++ b) = tdfFfH c F p s a ++ tdfFfH c F p (tdfRun c F s a) b := by
  induction a generalizing s with
  | nil => rfl
  | cons i a ih => simp only [List.cons_append, tdfFfH, ih, tdfRun]

theorem tdfDmH_append (a b : List TdmIn) (s : Tdf St) :
    tdfDmH c F s (a ++ b) = tdfDmH c F s a ++ tdfDmH c F (tdfRun c F s a) b := by
  induction a generalizing s with
  | nil => rfl
  | cons i a ih => simp only [List.cons_append, tdfDmH, ih, tdfRun]

theorem tdfAccepted_append (a b : List TdmIn) (s : Tdf St) :
    tdfAccepted c F s (a ++ b) = tdfAccepted c F s a ++ tdfAccepted c F (tdfRun c F s a) b := by
  induction a generalizing s with
  | nil => rfl
  | cons i a ih => simp only [List.cons_append, tdfAccepted, ih, tdfRun, List.append_assoc]

theorem tdfTaken_append (p : Nat) (a b : List TdmIn) (s : Tdf St) :
    tdfTaken c F shown p s (a ++ b) = tdfTaken c F shown p s a ++ tdfTaken c F shown p (tdfRun c F s a) b := by
  induction a generalizing s with
  | nil => rfl
  | cons i a ih => simp only [List.cons_append, tdfTaken, ih, tdfRun, List.append_assoc]

theorem tdfFfH_length (p : Nat) (is : List TdmIn) (s : Tdf St) : (tdfFfH c F p s is).length = is.length := by
  induction is generalizing s with
  | nil => rfl
  | cons i is ih => simp only [tdfFfH, List.length_cons, ih]

theorem tdfFfH_take (p : Nat) (k : Nat) (is : List TdmIn) (s : Tdf St) :
    (tdfFfH c F p s is).take k = tdfFfH c F p s (is.take k) := by
  induction is generalizing s k with
  | nil => simp [tdfFfH]
  | cons i is ih =>
    cases k with
    | zero => rfl
    | succ k => simp only [tdfFfH, List.take_succ_cons, ih]

theorem tdfFfH_ready (p : Nat) (is : List TdmIn) (s : Tdf St) (h : ∀ i ∈ is, i.rst = false ∧ i.ready p = true) :
    ∀ j ∈ tdfFfH c F p s is, j.rst = false ∧ j.ready = true := by
  induction is generalizing s with
  | nil => intro j hj; cases hj
  | cons i is ih =>
    intro j hj
    rcases List.mem_cons.mp hj with rfl | hj
    · exact h i (by simp)
    · exact ih _ (fun x hx => h x (by simp [hx])) j hj

theorem tdfFfH_rst (p : Nat) (is : List TdmIn) (s : Tdf St) (h : ∀ i ∈ is, i.rst = false) :
    ∀ j ∈ tdfFfH c F p s is, j.rst = false := by
  induction is generalizing s with
  | nil => intro j hj; cases hj
  | cons i is ih =>
    intro j hj
    rcases List.mem_cons.mp hj with rfl | hj
    · exact h i (by simp)
    · exact ih _ (fun x hx => h x (by simp [hx])) j hj

theorem tdfDmH_rst (is : List TdmIn) (s : Tdf St) (h : ∀ i ∈ is, i.rst = false) :
    ∀ j ∈ tdfDmH c F s is, j.rst = false := by
  induction is generalizing s with
  | nil => intro j hj; cases hj
  | cons i is ih =>
    intro j hj
    rcases List.mem_cons.mp hj with rfl | hj
    · exact h i (by simp)
    · exact ih _ (fun x hx => h x (by simp [hx])) j hj

/-- The accepted segments that belong to port `p` are those that went into the FIFO and those in the register. -/
theorem tdf_split (s : Tdf St) (r : TdmIn) (hr : r.rst = true) (is : List TdmIn) (hi : ∀ i ∈ is, i.rst = false) (p : Nat)
    (hp : p < c.ports) :
    tdfBelonging p (tdfAccepted c F (tdfStep c F s r) is) =
      devAccepted c.segs F ((tdfStep c F s r).fifo p) (tdfFfH c F p (tdfStep c F s r) is) ++
        (tdmShown c (tdfRun c F (tdfStep c F s r) is).dm p).map (·.2) := by
  rw [tdf_link, tdfRun_dm, ← List.map_append, tdfAccepted_dm, tdfBelonging]
  congr 1
  exact (C78_route c s.dm (tdfDmIn F s r) hr _ (tdfDmH_rst c F is _ hi) p hp).symm

end compose

theorem tlpWhole_prefix_mono {a b : List TlpSeg} (h : a <+: b) : tlpWhole a <+: tlpWhole b := by
  obtain ⟨t, rfl⟩ := h
  have h1 := tlpWhole_prefix a
  have h2 := tlpWhole_prefix (a ++ t)
  exact List.prefix_of_prefix_length_le (h1.trans (List.prefix_append a t)) h2 (tlpWhole_mono a t)

theorem tlpWhole_rest (l : List TlpSeg) : ∀ j x, (tlpWhole l).length ≤ j → l[j]? = some x → x.eop = false := by
  induction l using tdm_snoc_ind with
  | h0 => intro j x _ h; simp at h
  | h1 l y ih =>
    intro j x hj h
    rw [tlpWhole_snoc] at hj
    cases hy : y.eop with
    | true =>
      rw [hy, if_pos rfl] at hj
      have := tdm_get_lt h
      omega
    | false =>
      rw [hy, if_neg (by simp)] at hj
      rcases (tdm_snoc_get l y j x).mp h with h' | ⟨_, rfl⟩
      · exact ih j x hj h'
      · exact hy

theorem tlpShort_prefix {n : Nat} {a b : List TlpSeg} (h : TlpShort n b) (hp : a <+: b) : TlpShort n a := by
  intro k hk
  obtain ⟨t, rfl⟩ := hp
  obtain ⟨j, x, h1, h2, h3, h4⟩ := h k (by rw [List.length_append]; omega)
  refine ⟨j, x, h1, h2, ?_, h4⟩
  rwa [List.getElem?_append_left (by omega)] at h3

theorem tlpShort_whole {n : Nat} {l : List TlpSeg} (h : TlpShort n l) : l.length < (tlpWhole l).length + n := by
  apply Classical.byContradiction
  intro hn
  obtain ⟨j, x, h1, h2, h3, h4⟩ := h (tlpWhole l).length (by omega)
  rw [tlpWhole_rest l j x h1 h3] at h4
  cases h4

section main
variable {St : Type} {c : TdmCfg} {F : TlpDev St} {shown : St → List TlpSeg} {U N D : Nat}

theorem tdf_order (hF : TlpDevOk c.segs F shown U N D) (s : Tdf St) (r : TdmIn) (hr : r.rst = true) (is : List TdmIn)
    (hi : ∀ i ∈ is, i.rst = false) (p : Nat) (hp : p < c.ports) :
    tdfTaken c F shown p (tdfStep c F s r) is ++ shown ((tdfRun c F (tdfStep c F s r) is).fifo p) <+:
      tlpWhole (tdfBelonging p (tdfAccepted c F (tdfStep c F s r) is)) := by
  rw [tdfTaken_fifo, tdfRun_fifo, tdf_split c F s r hr is hi p hp]
  exact (hF.order (s.fifo p) (tdfFfIn c s r p) hr _ (tdfFfH_rst c F p is _ hi)).trans
    (tlpWhole_prefix_mono (List.prefix_append _ _))

/-- If the FIFO of a port is ready in some cycle, what was accepted for it before that cycle is in the FIFO after it. -/
theorem tdf_hand (s : Tdf St) (r : TdmIn) (hr : r.rst = true) (is ks : List TdmIn) (x : TdmIn)
    (hi : ∀ i ∈ is, i.rst = false) (hk : ∀ i ∈ ks, i.rst = false) (p : Nat) (hp : p < c.ports)
    (hF : F.ready ((tdfRun c F (tdfStep c F s r) (is ++ ks)).fifo p) = true) :
    tdfBelonging p (tdfAccepted c F (tdfStep c F s r) is) <+:
      devAccepted c.segs F ((tdfStep c F s r).fifo p) (tdfFfH c F p (tdfStep c F s r) (is ++ ks ++ [x])) := by
  have hik : ∀ i ∈ is ++ ks, i.rst = false := by
    intro i h
    rcases List.mem_append.mp h with h | h
    · exact hi i h
    · exact hk i h
  have e : devAccepted c.segs F ((tdfStep c F s r).fifo p) (tdfFfH c F p (tdfStep c F s r) (is ++ ks ++ [x])) =
      tdfBelonging p (tdfAccepted c F (tdfStep c F s r) (is ++ ks)) := by
    rw [tdf_link, tdfAccepted_dm, tdfBelonging, tdfDmH_append]
    congr 1
    exact C79_delivery c s.dm (tdfDmIn F s r) hr _ (tdfDmH_rst c F _ _ hik) _ p hp hF
  rw [e, tdfAccepted_append, tdfBelonging, tdfBelonging, ← tdmRoute_belongs, ← tdmRoute_belongs, tdmRoute_append,
    List.map_append]
  exact List.prefix_append _ _

theorem tdf_fifo_ready (hF : TlpDevOk c.segs F shown U N D) (s : Tdf St) (r : TdmIn) (hr : r.rst = true) (is js : List TdmIn)
    (hi : ∀ i ∈ is, i.rst = false) (p : Nat) (hp : p < c.ports) (hj : ∀ j ∈ js, j.rst = false ∧ j.ready p = true)
    (hs : TlpShort U (tdfBelonging p (tdfAccepted c F (tdfStep c F s r) is))) (hn : N ≤ js.length) :
    ∃ k, k < js.length ∧ F.ready ((tdfRun c F (tdfStep c F s r) (is ++ js.take k)).fifo p) = true := by
  have h1 : TlpShort U (devAccepted c.segs F ((tdfStep c F s r).fifo p) (tdfFfH c F p (tdfStep c F s r) is)) := by
    rw [tdf_split c F s r hr is hi p hp] at hs
    exact tlpShort_prefix hs (List.prefix_append _ _)
  obtain ⟨k, hk, h⟩ := hF.ready (s.fifo p) (tdfFfIn c s r p) hr (tdfFfH c F p (tdfStep c F s r) is)
    (tdfFfH c F p (tdfRun c F (tdfStep c F s r) is) js) (tdfFfH_rst c F p is _ hi) (tdfFfH_ready c F p js _ hj) (tlpShort_whole h1)
    (by rw [tdfFfH_length]; exact hn)
  rw [tdfFfH_length] at hk
  refine ⟨k, hk, ?_⟩
  rw [tdfRun_fifo, tdfFfH_append, ← tdfFfH_take]
  exact h

theorem tdf_delivery (hF : TlpDevOk c.segs F shown U N D) (s : Tdf St) (r : TdmIn) (hr : r.rst = true) (is js : List TdmIn)
    (hi : ∀ i ∈ is, i.rst = false) (p : Nat) (hp : p < c.ports) (hj : ∀ j ∈ js, j.rst = false ∧ j.ready p = true)
    (hs : TlpShort U (tdfBelonging p (tdfAccepted c F (tdfStep c F s r) is))) (hn : N + D ≤ js.length) :
    tlpWhole (tdfBelonging p (tdfAccepted c F (tdfStep c F s r) is)) <+: tdfTaken c F shown p (tdfStep c F s r) (is ++ js) := by
  have hm : (js.take N).length = N := by rw [List.length_take]; omega
  obtain ⟨k, hk, h⟩ := tdf_fifo_ready hF s r hr is (js.take N) hi p hp (fun j h => hj j (List.mem_of_mem_take h)) hs
    (by omega)
  rw [hm] at hk
  rw [List.take_take, Nat.min_eq_left (by omega)] at h
  obtain ⟨ks, x, ls, rfl, hk'⟩ : ∃ ks x ls, js = ks ++ x :: ls ∧ ks = js.take k :=
    ⟨js.take k, js[k]'(by omega), js.drop (k + 1), by rw [List.getElem_cons_drop, List.take_append_drop], rfl⟩
  rw [← hk'] at h
  have hkl : ks.length = k := by
    have := congrArg List.length hk'
    rw [List.length_take] at this
    omega
  have h1 := tdf_hand s r hr is ks x hi (fun i hx => (hj i (by simp [hx])).1) p hp h
  refine (tlpWhole_prefix_mono h1).trans ?_
  have e : is ++ (ks ++ x :: ls) = is ++ ks ++ [x] ++ ls := by simp
  rw [tdfTaken_fifo, e, tdfFfH_append c F p (is ++ ks ++ [x]) ls]
  refine hF.drain (s.fifo p) (tdfFfIn c s r p) hr _ _ (tdfFfH_rst c F p _ _ ?_) (tdfFfH_ready c F p ls _ ?_) ?_
  · intro i hx
    simp only [List.append_assoc, List.mem_append, List.mem_singleton] at hx
    rcases hx with h | h | rfl
    · exact hi i h
    · exact (hj i (by simp [h])).1
    · exact (hj i (by simp)).1
  · intro i hx; exact hj i (by simp [hx])
  · rw [tdfFfH_length]
    simp only [List.length_append, List.length_cons] at hn
    omega

theorem tdf_slack (hF : TlpDevOk c.segs F shown U N D) (s : Tdf St) (r : TdmIn) (hr : r.rst = true) (is : List TdmIn)
    (hi : ∀ i ∈ is, i.rst = false) (i j : TdmIn) (hi' : i.rst = false) (hj : j.enable = true)
    (h : ∀ p, p < c.ports → (tdfBelonging p (tdfAccepted c F (tdfStep c F s r) is)).length <
      (tdfTaken c F shown p (tdfStep c F s r) is).length + U) :
    tdfReady c F (tdfRun c F (tdfStep c F s r) (is ++ [i])) j = true := by
  refine (C79_ready _ _ _).mpr ⟨hj, Or.inr ?_⟩
  intro p hp
  show F.ready ((tdfRun c F (tdfStep c F s r) (is ++ [i])).fifo p) = true
  have h := h p hp
  rw [tdf_split c F s r hr is hi p hp, tdfTaken_fifo, List.length_append] at h
  rw [tdfRun_fifo, tdfFfH_append]
  exact hF.slack (s.fifo p) (tdfFfIn c s r p) hr _ (tdfFfH_rst c F p is _ hi) _ hi' (Nat.lt_of_le_of_lt (Nat.le_add_right _ _) h)

/-- While the input is not ready, the register of a port is only emptied. -/
theorem tdf_empty_step (s : Tdf St) (i : TdmIn) (hr : i.rst = false) (hn : tdfReady c F s i = false) (p : Nat) (hp : p < c.ports)
    (h : tdmShown c s.dm p = [] ∨ F.ready (s.fifo p) = true) : tdmShown c (tdfStep c F s i).dm p = [] := by
  have e := (tdm_step c s.dm (tdfDmIn F s i) hr).2 p hp
  have hn' : tdmReady c s.dm (tdfDmIn F s i) = false := hn
  rw [hn'] at e
  simp only [Bool.false_eq_true, if_false, tdmRoute, List.append_nil] at e
  show tdmShown c (tdmStep c s.dm (tdfDmIn F s i)) p = []
  rcases h with h | h
  · rw [h] at e; simpa using e
  · have hx : (tdfDmIn F s i).ready p = true := h
    rw [hx] at e
    simpa using e

theorem tdf_empty_stay (is : List TdmIn) (s : Tdf St) (hi : ∀ i ∈ is, i.rst = false)
    (hn : ∀ k (h : k < is.length), tdfReady c F (tdfRun c F s (is.take k)) is[k] = false) (p : Nat) (hp : p < c.ports) (k : Nat)
    (hk : k < is.length) (hF : F.ready ((tdfRun c F s (is.take k)).fifo p) = true) : tdmShown c (tdfRun c F s is).dm p = [] := by
  induction is using tdm_snoc_ind with
  | h0 => simp at hk
  | h1 is x ih =>
    have hx := hn is.length (by simp)
    simp only [List.take_left, List.getElem_concat_length] at hx
    rw [tdfRun_append]
    refine tdf_empty_step _ x (hi x (by simp)) hx p hp ?_
    rcases Nat.lt_or_ge k is.length with h | h
    · left
      refine ih (fun i hi' => hi i (by simp [hi'])) ?_ h ?_
      · intro n hn'
        have := hn n (by rw [List.length_append]; omega)
        rwa [List.take_append_of_le_length (by omega), List.getElem_append_left hn'] at this
      · rwa [List.take_append_of_le_length (by omega)] at hF
    · right
      have : k = is.length := by simp at hk; omega
      subst this
      rwa [List.take_left] at hF

theorem tdf_progress (hF : TlpDevOk c.segs F shown U N D) (s : Tdf St) (r : TdmIn) (hr : r.rst = true) (is js : List TdmIn)
    (hi : ∀ i ∈ is, i.rst = false)
    (hj : ∀ j ∈ js, j.rst = false ∧ j.enable = true ∧ ∀ p, p < c.ports → j.ready p = true)
    (hs : ∀ p, p < c.ports → TlpShort U (tdfBelonging p (tdfAccepted c F (tdfStep c F s r) is))) (hn : N + 1 ≤ js.length) :
    ∃ k, ∃ h : k < js.length, tdfReady c F (tdfRun c F (tdfStep c F s r) (is ++ js.take k)) js[k] = true := by
  apply Classical.byContradiction
  intro hne
  have hne : ∀ k (h : k < js.length), tdfReady c F (tdfRun c F (tdfStep c F s r) (is ++ js.take k)) js[k] = false := by
    intro k h
    cases hx : tdfReady c F (tdfRun c F (tdfStep c F s r) (is ++ js.take k)) js[k] with
    | false => rfl
    | true => exact absurd ⟨k, h, hx⟩ hne
  have hlast := hne N (by omega)
  rw [← Bool.not_eq_true] at hlast
  apply hlast
  refine (C79_ready _ _ _).mpr ⟨(hj _ (List.getElem_mem _)).2.1, Or.inl ?_⟩
  intro p hp
  have hm : (js.take N).length = N := by rw [List.length_take]; omega
  obtain ⟨k, hk, h⟩ := tdf_fifo_ready hF s r hr is (js.take N) hi p hp
    (fun j h => have := hj j (List.mem_of_mem_take h); ⟨this.1, this.2.2 p hp⟩) (hs p hp) (by omega)
  rw [tdfRun_append] at h ⊢
  refine tdf_empty_stay (js.take N) _ (fun i h => (hj i (List.mem_of_mem_take h)).1) ?_ p hp k hk h
  intro n hn'
  have := hne n (by omega)
  rw [tdfRun_append] at this
  rw [List.take_take, Nat.min_eq_left (by omega), List.getElem_take]
  exact this

end main

/-- The complete TLPs among the segments for port `p` are the whole TLPs assigned to it. -/
theorem tdfFor_whole (p : Nat) (ts : List (List TdmItem)) (u : List TdmItem) (ht : ∀ t ∈ ts, TdmTlp t) (hu : TdmPart u) :
    tlpWhole (tdfFor p (ts ++ [u])) = tdfFor p ts := by
  have hw : ∀ (l m : List TlpSeg), (∀ x ∈ m, x.eop = false) → tlpWhole (l ++ m) = tlpWhole l := by
    intro l m
    induction m using tdm_snoc_ind with
    | h0 => intro _; rw [List.append_nil]
    | h1 m y ih =>
      intro h
      rw [← List.append_assoc, tlpWhole_snoc, h y (by simp), if_neg (by simp)]
      exact ih fun x hx => h x (by simp [hx])
  have e1 : tlpWhole (tdfFor p ts) = tdfFor p ts := by
    induction ts using tdm_snoc_ind with
    | h0 => rfl
    | h1 ts t ih =>
      have hts := ih fun t h => ht t (by simp [h])
      obtain ⟨h1, h2⟩ := ht t (by simp)
      simp only [tdfFor, tdmFor, List.filter_append, List.flatten_append, List.map_append] at hts ⊢
      by_cases hd : tdmDest t == some p
      · rw [List.filter_cons_of_pos (by simpa using hd)]
        obtain ⟨v, y, rfl⟩ : ∃ v y, t = v ++ [y] := by
          rcases List.eq_nil_or_concat t with h | ⟨v, y, h⟩
          · exact absurd h h1
          · exact ⟨v, y, by rw [h, List.concat_eq_append]⟩
        have hy := (h2 v.length (by simp)).2.mpr (by simp)
        simp only [List.getElem_concat_length] at hy
        simp only [List.filter_nil, List.flatten_cons, List.flatten_nil, List.append_nil, List.map_append, List.map_cons, List.map_nil]
        rw [← List.append_assoc, tlpWhole_snoc, hy, if_pos rfl]
      · rw [List.filter_cons_of_neg (by simpa using hd)]
        simpa using hts
  rw [← e1]
  conv => lhs; simp only [tdfFor, tdmFor, List.filter_append, List.flatten_append, List.map_append]
  apply hw
  intro x hx
  by_cases hd : tdmDest u == some p
  · rw [List.filter_cons_of_pos (by simpa using hd)] at hx
    simp only [List.filter_nil, List.flatten_cons, List.flatten_nil, List.append_nil, List.map_map, List.mem_map, Function.comp_apply] at hx
    obtain ⟨y, hy, rfl⟩ := hx
    obtain ⟨k, hk, rfl⟩ := List.getElem_of_mem hy
    exact (hu k hk).2
  · rw [List.filter_cons_of_neg (by simpa using hd)] at hx
    simp at hx

theorem tdfFor_belonging (p : Nat) (ts : List (List TdmItem)) (u : List TdmItem) (ht : ∀ t ∈ ts, TdmTlp t) (hu : TdmPart u) :
    tdfBelonging p (ts.flatten ++ u) = tdfFor p (ts ++ [u]) := by
  rw [tdfBelonging, ← tdmRoute_belongs, tdmRoute_tlps p ts u ht hu, tdfFor]

end Verif.Proofs

namespace Verif.Proofs
open Verif Verif.Model Verif.Spec Verif.Props

section bar
variable {St : Type}

theorem tdfDmH_bar (c : TdmCfg) (F : TlpDev St) (b : TdmBarCfg) (is : List TdmIn) (s : Tdf St) :
    tdfDmH c F s (is.map (tdmBarIn c b)) = (tdfDmH c F s (is.map (tdmBarIn c b))).map (tdmBarIn c b) := by
  induction is generalizing s with
  | nil => rfl
  | cons i is ih =>
    simp only [List.map_cons, tdfDmH]
    rw [← ih]
    rfl

/-- The TLPs that the selection by BAR assigns to port `p` are those with its BAR number. -/
theorem tdf_bar_for (c : TdmCfg) (F : TlpDev St) (b : TdmBarCfg) (hb : tdmBarOk c b = true) (s : Tdf St) (is : List TdmIn)
    (ts : List (List TdmItem)) (u : List TdmItem) (ha : tdfAccepted c F s (is.map (tdmBarIn c b)) = ts.flatten ++ u) (p : Nat)
    (hp : p < c.ports) : tdmFor p ts = tdmForBar (tdmBarOf b p) ts := by
  have hport := tdmBar_accepted c b ((C80_checks c b).mp hb).2 s.dm (tdfDmH c F s (is.map (tdmBarIn c b)))
  rw [← tdfDmH_bar, ← tdfAccepted_dm, ha] at hport
  unfold tdmFor tdmForBar
  congr 2
  apply List.filter_congr
  intro t htm
  have hmem : ∀ x ∈ t, x ∈ ts.flatten ++ u := fun x hx => List.mem_append_left _ (List.mem_flatten_of_mem htm hx)
  cases t with
  | nil => rfl
  | cons x t =>
    have := hport x (hmem x (by simp)) p hp
    simp only [tdmDest, List.head?_cons, Option.bind_some, Option.map_some]
    rw [Bool.eq_iff_iff]
    simpa using this

end bar

/-- A FIFO that is never ready again blocks the demultiplexer as long as its register is not empty. -/
theorem tdf_stuck {St : Type} (c : TdmCfg) (F : TlpDev St) (p : Nat) (hp : p < c.ports) (js : List TdmIn) (s : Tdf St)
    (hj : ∀ j ∈ js, j.rst = false) (hs : tdmShown c s.dm p ≠ [])
    (hf : ∀ ks, ks <+: js → F.ready ((tdfRun c F s ks).fifo p) = false) :
    ∀ k (h : k < js.length), tdfReady c F (tdfRun c F s (js.take k)) js[k] = false := by
  have key : ∀ (s : Tdf St) (i : TdmIn), tdmShown c s.dm p ≠ [] → F.ready (s.fifo p) = false → tdfReady c F s i = false := by
    intro s i h1 h2
    cases hx : tdfReady c F s i with
    | false => rfl
    | true =>
      rcases ((C79_ready c s.dm (tdfDmIn F s i)).mp hx).2 with h | h
      · exact absurd (h p hp) h1
      · have h3 : F.ready (s.fifo p) = true := h p hp
        rw [h2] at h3; cases h3
  induction js generalizing s with
  | nil => intro k h; simp at h
  | cons j js ih =>
    have h0 := hf [] (List.nil_prefix)
    intro k hk
    cases k with
    | zero => exact key s j hs h0
    | succ k =>
      refine ih (tdfStep c F s j) (fun x hx => hj x (by simp [hx])) ?_ ?_ k (by simpa using hk)
      · have : tdmShown c (tdfStep c F s j).dm p = tdmShown c s.dm p :=
          C79_stable c s.dm (tdfDmIn F s j) (hj j (by simp)) p hp h0 hs
        rw [this]; exact hs
      · intro ks hks
        exact hf (j :: ks) (List.cons_prefix_cons.mpr ⟨rfl, hks⟩)

theorem tff_never (f : TffCfg) (js : List TffIn) (s : Tff) (h : ¬ tffEverReady f s js) (k : Nat) (hk : k < js.length) :
    tffReady (tffRun f s (js.take k)) = false := by
  induction js generalizing s k with
  | nil => simp at hk
  | cons j js ih =>
    have h := not_or.mp h
    cases k with
    | zero => exact Bool.eq_false_iff.mpr h.1
    | succ k => exact ih _ h.2 k (by simpa using hk)

theorem tfm_never (f : TfmCfg) (js : List TfmIn) (s : Tfm) (h : ¬ tfmEverReady f s js) (k : Nat) (hk : k < js.length) :
    tfmReady (tfmRun f s (js.take k)) = false := by
  induction js generalizing s k with
  | nil => simp at hk
  | cons j js ih =>
    have h := not_or.mp h
    cases k with
    | zero => exact Bool.eq_false_iff.mpr h.1
    | succ k => exact ih _ h.2 k (by simpa using hk)

/-- The condition under which a FIFO hangs, for the composition. -/
def TlpDevStuck {St : Type} (S : Nat) (F : TlpDev St) (U : Nat) : Prop :=
  ∀ s r, r.rst = true → ∀ is js : List TfmIn, (∀ i ∈ is, i.rst = false) → (∀ j ∈ js, j.rst = false) →
    (tlpWhole (devAccepted S F (F.step s r) is)).length + U ≤ (devAccepted S F (F.step s r) is).length →
    F.ready (devRun F (F.step s r) is) = false → F.ready (devRun F (F.step s r) (is ++ js)) = false

theorem tfmDev_stuck (f : TfmCfg) (hf : TfmOk f) : TlpDevStuck f.segs (tfmDev f) ((f.words - 2) * f.segs) := by
  intro s r hr is js hi hj hu hx
  rw [tfmDev_accepted] at hu
  rw [tfmDev_run] at hx ⊢
  have h := C83_long_several_fails f hf s r hr is (js ++ [{ rst := false, valid := fun _ => false, seg := fun _ => {}, ready := false }]) hi
    (by intro j h; rcases List.mem_append.mp h with h | h
        · exact hj j h
        · rw [List.mem_singleton.mp h]) hu hx
  have := tfm_never f _ _ h js.length (by simp)
  rw [List.take_left] at this
  show tfmReady (tfmRun f (tfmStep f s r) (is ++ js)) = false
  rw [tfmRun_append]
  exact this

theorem tffDev_stuck (f : TffCfg) (hf : TffOk f) : TlpDevStuck 1 (tffDev f) (f.words - 2) := by
  intro s r hr is js hi hj hu hx
  rw [tffDev_accepted] at hu
  rw [tffDev_run] at hx ⊢
  have h := C83_long_fails f hf s (tffIn1 r) hr (is.map tffIn1) (js.map tffIn1 ++ [{ rst := false, valid := false, seg := {}, ready := false }])
    (by simpa [tffIn1] using hi)
    (by intro j h; rcases List.mem_append.mp h with h | h
        · obtain ⟨x, hx, rfl⟩ := List.mem_map.mp h
          exact hj x hx
        · rw [List.mem_singleton.mp h]) hu hx
  have := tff_never f _ _ h (js.map tffIn1).length (by simp)
  rw [List.take_left] at this
  show tffReady (tffRun f (tffStep f s (tffIn1 r)) (List.map tffIn1 (is ++ js))) = false
  rw [List.map_append, tff_run_append]
  exact this

theorem tdmShown_length (c : TdmCfg) (s : Tdm) (p : Nat) : (tdmShown c s p).length ≤ c.segs := by
  unfold tdmShown
  rw [List.length_map]
  exact Nat.le_trans (List.length_filter_le _ _) (by simp)

theorem tdf_long {St : Type} {c : TdmCfg} {F : TlpDev St} {U : Nat} (hF : TlpDevStuck c.segs F U) (s : Tdf St) (r : TdmIn)
    (hr : r.rst = true) (is js : List TdmIn) (hi : ∀ i ∈ is, i.rst = false) (hj : ∀ j ∈ js, j.rst = false) (p : Nat)
    (hp : p < c.ports)
    (hu : (tlpWhole (tdfBelonging p (tdfAccepted c F (tdfStep c F s r) is))).length + U + c.segs ≤
      (tdfBelonging p (tdfAccepted c F (tdfStep c F s r) is)).length)
    (hf : F.ready ((tdfRun c F (tdfStep c F s r) is).fifo p) = false)
    (hs : tdmShown c (tdfRun c F (tdfStep c F s r) is).dm p ≠ []) :
    ∀ k (h : k < js.length), tdfReady c F (tdfRun c F (tdfStep c F s r) (is ++ js.take k)) js[k] = false := by
  intro k h
  rw [tdfRun_append]
  refine tdf_stuck c F p hp js _ hj hs ?_ k h
  intro ks hks
  rw [← tdfRun_append, tdfRun_fifo, tdfFfH_append]
  rw [tdfRun_fifo] at hf
  refine hF (s.fifo p) (tdfFfIn c s r p) hr _ _ (tdfFfH_rst c F p is _ hi)
    (tdfFfH_rst c F p ks _ fun j hj' => hj j (hks.subset hj')) ?_ hf
  rw [tdf_split c F s r hr is hi p hp, List.length_append, List.length_map] at hu
  have h1 := tdmShown_length c (tdfRun c F (tdfStep c F s r) is).dm p
  have h2 := tlpWhole_mono (devAccepted c.segs F ((tdfStep c F s r).fifo p) (tdfFfH c F p (tdfStep c F s r) is))
    ((tdmShown c (tdfRun c F (tdfStep c F s r) is).dm p).map (·.2))
  show (tlpWhole (devAccepted c.segs F ((tdfStep c F s r).fifo p) _)).length + U ≤ (devAccepted c.segs F ((tdfStep c F s r).fifo p) _).length
  omega

end Verif.Proofs
