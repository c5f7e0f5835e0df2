import Verif.Proofs.TlpDemuxRx
/-! The receive side of the P-Tile adapter: a register in front of the demultiplexer. -/
namespace Verif.Proofs
open Verif Verif.Model Verif.Spec Verif.Props

section
variable {St : Type} (c : PtRxCfg) (F : TlpDev St)

/-- The history of the demultiplexer. -/
def ptRxH : PtRx St → List PtRxIn → List TdmIn
  | _, [] => []
  | s, i :: is => ptRxDxIn c s i :: ptRxH (ptRxStep c F s i) is

theorem ptRxRun_dx (is : List PtRxIn) (s : PtRx St) : (ptRxRun c F s is).dx = tdfRun c.tdm F s.dx (ptRxH c F s is) := by
  induction is generalizing s with
  | nil => rfl
  | cons i is ih => simp only [ptRxRun, ptRxH, tdfRun, ih]; rfl

theorem ptRxTaken_dx (shown : St → List TlpSeg) (p : Nat) (is : List PtRxIn) (s : PtRx St) :
    ptRxTaken c F shown p s is = tdfTaken c.tdm F shown p s.dx (ptRxH c F s is) := by
  induction is generalizing s with
  | nil => rfl
  | cons i is ih => simp only [ptRxTaken, ptRxH, tdfTaken, ih]; rfl

theorem ptRxRun_append (a b : List PtRxIn) (s : PtRx St) : ptRxRun c F s (a ++ b) = ptRxRun c F (ptRxRun c F s a) b := by
  induction a generalizing s with
  | nil => rfl
  | cons i a ih => simp only [List.cons_append, ptRxRun, ih]

theorem ptRxH_append (a b : List PtRxIn) (s : PtRx St) :
    ptRxH c F s (a ++ b) = ptRxH c F s a ++ ptRxH c F (ptRxRun c F s a) b := by
  induction a generalizing s with
  | nil => rfl
  | cons i a ih => simp only [List.cons_append, ptRxH, ptRxRun, ih]

theorem ptRxKept_append (a b : List PtRxIn) (s : PtRx St) :
    ptRxKept c F s (a ++ b) = ptRxKept c F s a ++ ptRxKept c F (ptRxRun c F s a) b := by
  induction a generalizing s with
  | nil => rfl
  | cons i a ih => simp only [List.cons_append, ptRxKept, ptRxRun, ih, List.append_assoc]

theorem ptRxH_length (is : List PtRxIn) (s : PtRx St) : (ptRxH c F s is).length = is.length := by
  induction is generalizing s with
  | nil => rfl
  | cons i is ih => simp only [ptRxH, List.length_cons, ih]

theorem ptRxH_rst (is : List PtRxIn) (s : PtRx St) (h : ∀ i ∈ is, i.rst = false) : ∀ i ∈ ptRxH c F s is, i.rst = false := by
  induction is generalizing s with
  | nil => intro i hi; cases hi
  | cons j is ih =>
    intro i hi
    rcases List.mem_cons.mp hi with rfl | hi
    · exact h j (by simp)
    · exact ih _ (fun i h' => h i (by simp [h'])) i hi

theorem ptRxH_ready (P : Nat → Prop) (is : List PtRxIn) (s : PtRx St) (h : ∀ i ∈ is, i.rst = false ∧ ∀ p, P p → i.ready p = true) :
    ∀ i ∈ ptRxH c F s is, i.rst = false ∧ i.enable = true ∧ ∀ p, P p → i.ready p = true := by
  induction is generalizing s with
  | nil => intro i hi; cases hi
  | cons j is ih =>
    intro i hi
    rcases List.mem_cons.mp hi with rfl | hi
    · exact ⟨(h j (by simp)).1, rfl, (h j (by simp)).2⟩
    · exact ih _ (fun i h' => h i (by simp [h'])) i hi

theorem ptRxH_take (k : Nat) (is : List PtRxIn) (s : PtRx St) : ptRxH c F s (is.take k) = (ptRxH c F s is).take k := by
  induction is generalizing s k with
  | nil => simp [ptRxH]
  | cons i is ih => cases k with
    | zero => rfl
    | succ k => simp only [List.take_succ_cons, ptRxH, ih]

theorem ptRxH_get (is : List PtRxIn) (s : PtRx St) (k : Nat) (h : k < is.length) :
    (ptRxH c F s is)[k]'(by rw [ptRxH_length]; exact h) = ptRxDxIn c (ptRxRun c F s (is.take k)) is[k] := by
  induction is generalizing s k with
  | nil => simp at h
  | cons i is ih => cases k with
    | zero => rfl
    | succ k => simp only [ptRxH, List.getElem_cons_succ, List.take_succ_cons, ptRxRun]; exact ih _ _ (by simpa using h)

/-! ### The register -/

/-- The segments in the register, as the demultiplexer sees them. -/
def ptRxFront (s : PtRx St) : List TdmItem :=
  tdmItems c.tdm (ptRxDxIn c s { valid := fun _ => false, sop := fun _ => false, eop := fun _ => false, data := fun _ => 0, empty := fun _ => 0, hdr := fun _ => 0, bar := fun _ => 0, func := 0, ready := fun _ => false })

theorem ptRxFront_items (s : PtRx St) (i : PtRxIn) : tdmItems c.tdm (ptRxDxIn c s i) = ptRxFront c s := rfl

theorem ptRx_cpl (h : Nat) : decide (h >>> 121 % 32 = 5) = hdrCpl h := by
  unfold hdrCpl
  rw [Nat.shiftRight_eq_div_pow, show (2 : Nat) ^ 121 = 2 ^ 120 * 2 from rfl, show (2 : Nat) ^ 125 = 2 ^ 120 * 32 from rfl,
    ← Nat.div_div_eq_div_mul, ← Nat.div_div_eq_div_mul]
  generalize h / 2 ^ 120 = x
  rw [Bool.eq_iff_iff]
  simp only [decide_eq_true_eq, Bool.and_eq_true, Bool.or_eq_true, beq_iff_eq]
  omega

theorem ptRxFront_port (s : PtRx St) : ∀ x ∈ ptRxFront c s, PortOfHdr x := by
  intro x hx
  obtain ⟨g, hg, rfl⟩ := List.mem_map.mp hx
  have hg : g < c.segs := List.mem_range.mp (List.mem_filter.mp hg).1
  have e0 : ptRxSelect (s.word ((c.segs * 0 + g) % c.segs)).hdr ((c.segs * 0 + g) / c.segs) = !hdrCpl (s.word g).hdr := by
    rw [Nat.mul_zero, Nat.zero_add, Nat.mod_eq_of_lt hg, Nat.div_eq_of_lt hg]
    simp [ptRxSelect, ptRx_cpl]
  have e1 : ptRxSelect (s.word ((c.segs * 1 + g) % c.segs)).hdr ((c.segs * 1 + g) / c.segs) = hdrCpl (s.word g).hdr := by
    rw [Nat.mul_add_mod, Nat.mod_eq_of_lt hg, Nat.mul_add_div (by omega), Nat.div_eq_of_lt hg]
    simp [ptRxSelect, ptRx_cpl]
  simp only [PortOfHdr, tdmAssign, ptRxDxIn, PtRxCfg.tdm, Bool.false_eq_true, if_false]
  rw [show List.range 2 = [0, 1] from rfl]
  simp only [List.filter_cons, List.filter_nil, e0, e1]
  by_cases hh : hdrCpl (s.word g).hdr = true <;> simp [hh]

theorem ptRxAccepted_port (is : List PtRxIn) (s : PtRx St) : ∀ x ∈ tdfAccepted c.tdm F s.dx (ptRxH c F s is), PortOfHdr x := by
  induction is generalizing s with
  | nil => intro x h; cases h
  | cons i is ih =>
    intro x hx
    rw [ptRxH, tdfAccepted, ptRxFront_items] at hx
    rcases List.mem_append.mp hx with hx | hx
    · split at hx
      · exact ptRxFront_port c s x hx
      · cases hx
    · exact ih (ptRxStep c F s i) x hx

theorem ptRxStrb_eq (i : PtRxIn) (g : Nat) : ptRxStrb c i g = 2 ^ ptRxDws c i g - 1 := by
  unfold ptRxStrb ptRxDws
  have hb : (i.hdr g).testBit 126 = decide (i.hdr g / 2 ^ 126 % 2 = 1) := Nat.testBit_eq_decide_div_mod_eq
  cases he : i.eop g with
  | false => simp
  | true =>
    simp only [if_true, Bool.true_eq_false, if_false]
    have hsh : (2 ^ c.dws - 1) >>> i.empty g = 2 ^ (c.dws - i.empty g) - 1 := by
      rw [Nat.shiftRight_eq_div_pow]
      by_cases hle : i.empty g ≤ c.dws
      · obtain ⟨d, hd⟩ := Nat.exists_eq_add_of_le hle
        rw [hd, Nat.add_sub_cancel_left, Nat.pow_add]
        have h1 := Nat.two_pow_pos (i.empty g)
        have h2 := Nat.two_pow_pos d
        rw [Nat.div_eq_of_lt_le]
        · rw [Nat.sub_mul, Nat.mul_comm]; omega
        · rw [Nat.sub_add_cancel h2, Nat.mul_comm]
          have := Nat.mul_pos h1 h2
          rw [Nat.mul_comm] at this
          omega
      · have hz : c.dws - i.empty g = 0 := by omega
        rw [hz, Nat.div_eq_of_lt]
        have := Nat.pow_lt_pow_right (a := 2) (by omega) (show c.dws < i.empty g by omega)
        have h3 := Nat.two_pow_pos c.dws
        omega
    rw [hsh, hb]
    cases hs : i.sop g with
    | false => simp
    | true =>
      rcases Nat.mod_two_eq_zero_or_one (i.hdr g / 2 ^ 126) with h | h <;> simp [h]

theorem ptRxBar_eq (i : PtRxIn) (g : Nat) : ptRxBar c i g = ptRxBarOf c (i.bar g) := by
  unfold ptRxBar ptRxBarOf
  split
  · rename_i h; rw [h]; rfl
  · split
    · rename_i h; rw [h]; rfl
    · split <;> first | contradiction | rfl

theorem ptRxFront_hold (s : PtRx St) (i : PtRxIn) (hr : i.rst = false) (ht : ptRxTake c F s i = false) :
    ptRxFront c (ptRxStep c F s i) = ptRxFront c s := by
  have e1 : (ptRxStep c F s i).valid = s.valid := by funext g; simp [ptRxStep, hr, ht]
  have e2 : (ptRxStep c F s i).word = s.word := by funext g; simp [ptRxStep, ht]
  simp only [ptRxFront, ptRxDxIn, e1, e2]

/-- A view under which what is stored is what the source says. -/
def PtRxView (v w : TlpSeg → TlpSeg) (is : List PtRxIn) : Prop :=
  KeepsView v ∧ KeepsView w ∧
    ∀ i ∈ is, ∀ g, g < c.segs → ∀ old, i.valid g = true → v (ptRxSeg c i old g) = w (ptRxSays c i g)

theorem ptRx_view_base (c : PtRxCfg) (i : PtRxIn) (old : TlpSeg) (g : Nat) (hv : i.valid g = true)
    (hf : i.sop g = true → ptRxFunc i g = i.func / 8 ^ g % 8) : rxView (ptRxSeg c i old g) = ptRxSays c i g := by
  simp only [ptRxSeg, hv, if_true, ptRxStrb_eq, ptRxBar_eq, ptRxSays, rxView]
  cases hs : i.sop g with
  | true => simp [hf hs]
  | false => simp

theorem ptRx_view_nofunc (c : PtRxCfg) (is : List PtRxIn) : PtRxView c (fun x => rxNoFunc (rxView x)) rxNoFunc is := by
  refine ⟨?_, ?_, ?_⟩
  · intro x; cases hs : x.sop <;> simp [rxNoFunc, rxView, hs]
  · intro x; simp [rxNoFunc]
  · intro i _ g _ old hv
    simp only [ptRxSeg, hv, if_true, ptRxStrb_eq, ptRxBar_eq, ptRxSays, rxView]
    cases hs : i.sop g <;> simp [rxNoFunc]

theorem ptRx_view_func (c : PtRxCfg) (is : List PtRxIn)
    (hf : ∀ i ∈ is, ∀ g, g < c.segs → i.valid g = true → i.sop g = true → i.func / 4 ^ g % 4 = i.func / 8 ^ g % 8) :
    PtRxView c rxView id is := by
  refine ⟨?_, ?_, ?_⟩
  · intro x; cases hs : x.sop <;> simp [rxView, hs]
  · intro x; simp
  · intro i hi g hg old hv
    refine ptRx_view_base c i old g hv fun hs => ?_
    rw [← hf i hi g hg hv hs, ptRxFunc, Nat.pow_mul]

/-- What the demultiplexer has accepted and what waits in the register: what was stored. -/
theorem ptRx_ledger {v w : TlpSeg → TlpSeg} (is : List PtRxIn) (s : PtRx St) (hi : ∀ i ∈ is, i.rst = false) (hv : PtRxView c v w is) :
    (tdfAccepted c.tdm F s.dx (ptRxH c F s is) ++ ptRxFront c (ptRxRun c F s is)).map (fun x => v x.seg) =
      (ptRxFront c s).map (fun x => v x.seg) ++ (ptRxKept c F s is).map w := by
  induction is generalizing s with
  | nil => simp [ptRxH, tdfAccepted, ptRxRun, ptRxKept]
  | cons i is ih =>
    have h1 := ih (ptRxStep c F s i) (fun j h => hi j (by simp [h])) ⟨hv.1, hv.2.1, fun j h => hv.2.2 j (by simp [h])⟩
    have hr := hi i (by simp)
    rw [ptRxH, tdfAccepted, ptRxRun, ptRxKept, ptRxFront_items, List.append_assoc, List.map_append, List.map_append (f := w)]
    have h1' : (tdfAccepted c.tdm F (tdfStep c.tdm F s.dx (ptRxDxIn c s i)) (ptRxH c F (ptRxStep c F s i) is) ++
        ptRxFront c (ptRxRun c F (ptRxStep c F s i) is)).map (fun x => v x.seg) = _ := h1
    rw [h1']
    have ht : tdfReady c.tdm F s.dx (ptRxDxIn c s i) = ptRxTake c F s i := rfl
    rw [ht]
    cases h : ptRxTake c F s i with
    | false =>
      rw [ptRxFront_hold c F s i hr h]
      simp
    | true =>
      have : (ptRxFront c (ptRxStep c F s i)).map (fun x => v x.seg) = (ptRxRow c i).map w := by
        simp only [ptRxFront, tdmItems, ptRxRow, ptRxDxIn, PtRxCfg.tdm, List.map_map]
        have e : (ptRxStep c F s i).valid = i.valid := by simp [ptRxStep, hr, h]
        rw [e]
        apply List.map_congr_left
        intro g hg
        have hg' := List.mem_filter.mp hg
        have hgv : i.valid g = true := hg'.2
        simp only [Function.comp_apply]
        have e2 : (ptRxStep c F s i).word g = ptRxSeg c i (s.word g) g := by simp [ptRxStep, h]
        rw [e2, ← hv.2.2 i (by simp) g (List.mem_range.mp hg'.1) (s.word g) hgv]
        congr 1
        simp [ptRxSeg, hgv]
      rw [this]
      simp

theorem ptRxFront_reset (s : PtRx St) (r : PtRxIn) (hr : r.rst = true) : ptRxFront c (ptRxStep c F s r) = [] := by
  have e : (ptRxStep c F s r).valid = fun _ => false := by funext g; simp [ptRxStep, hr]
  simp only [ptRxFront, tdmItems, ptRxDxIn, e]
  simp

end

section main
variable {St : Type} {c : PtRxCfg} {F : TlpDev St} {shown : St → List TlpSeg} {U N D : Nat} {v w : TlpSeg → TlpSeg}

theorem ptRx_port_all (is : List PtRxIn) (s : PtRx St) :
    ∀ x ∈ tdfAccepted c.tdm F s.dx (ptRxH c F s is) ++ ptRxFront c (ptRxRun c F s is), PortOfHdr x := by
  intro x hx
  rcases List.mem_append.mp hx with hx | hx
  · exact ptRxAccepted_port c F is s x hx
  · exact ptRxFront_port c _ x hx

theorem ptRx_route (hF : TlpDevOk c.segs F shown U N D) (s : PtRx St) (r : PtRxIn) (hr : r.rst = true) (is : List PtRxIn)
    (hi : ∀ i ∈ is, i.rst = false) (hv : PtRxView c v w is) (ts : List (List TlpSeg)) (u : List TlpSeg) (ht : ∀ t ∈ ts, SegTlp t)
    (hu : SegPart u) (hk : ptRxKept c F (ptRxStep c F s r) is = ts.flatten ++ u) (p : Nat) (hp : p < 2) :
    (ptRxTaken c F shown p (ptRxStep c F s r) is ++ shown ((ptRxRun c F (ptRxStep c F s r) is).dx.fifo p)).map v <+:
      (rxTlpsFor p ts).flatten.map w := by
  have h1 := tdf_order (c := c.tdm) hF s.dx (ptRxDxIn c s r) hr (ptRxH c F (ptRxStep c F s r) is) (ptRxH_rst c F is _ hi) p hp
  have h2 := ptRx_ledger c F is (ptRxStep c F s r) hi hv
  rw [ptRxFront_reset c F s r hr, List.map_nil, List.nil_append, hk] at h2
  have h3 := (rx_for hv.1 hv.2.1 ts u ht hu _ (ptRx_port_all is _) h2 p hp).1
  rw [← h3, ptRxTaken_dx, ptRxRun_dx]
  exact (h1.trans (tlpWhole_prefix_mono (tdfBelonging_mono p _ _))).map v

theorem ptRx_kept (water : St → Bool) {L : Nat} (hF : DevMargin F water L) (s : PtRx St) (r : PtRxIn) (hr : r.rst = true)
    (is : List PtRxIn) (hi : ∀ i ∈ is, i.rst = false) (ho : PtRxObeys c F water L (ptRxStep c F s r) is) :
    ptRxKept c F (ptRxStep c F s r) is = ptRxSent c is := by
  induction is using tdm_snoc_ind with
  | h0 => rfl
  | h1 is i ih =>
    have ih := ih (fun j h => hi j (by simp [h])) (by
      intro k hk hv
      have := ho k (by simp; omega)
      rw [List.getElem_append_left hk] at this
      obtain ⟨h1, h2⟩ := this hv
      rw [List.take_append_of_le_length (by omega)] at h2
      exact ⟨h1, h2⟩)
    rw [ptRxKept_append, ih]
    have e : ptRxSent c (is ++ [i]) = ptRxSent c is ++ ptRxSent c [i] := List.flatMap_append ..
    rw [e]
    congr 1
    unfold ptRxSent
    simp only [ptRxKept, List.flatMap_cons, List.flatMap_nil, List.append_nil]
    cases ht : ptRxTake c F (ptRxRun c F (ptRxStep c F s r) is) i with
    | true => simp
    | false =>
      simp only [Bool.false_eq_true, if_false]
      unfold ptRxRow
      rw [List.filter_eq_nil_iff.mpr]
      · rfl
      · intro g hg hgv
        obtain ⟨h1, h2⟩ := ho is.length (by simp) ⟨g, List.mem_range.mp hg, by simpa using hgv⟩
        rw [List.take_append_of_le_length (by omega)] at h2
        have hsplit : is.take (is.length - L) ++ is.drop (is.length - L) = is := List.take_append_drop _ _
        have hm : tdfReady c.tdm F (tdfRun c.tdm F (ptRxStep c F s r).dx (ptRxH c F (ptRxStep c F s r) is))
            (ptRxDxIn c (ptRxRun c F (ptRxStep c F s r) is) i) = false := by
          rw [← ptRxRun_dx]; exact ht
        rw [← hsplit, ptRxH_append] at hm
        obtain ⟨p, hp, hw⟩ := tdf_margin (c := c.tdm) hF s.dx (ptRxDxIn c s r) hr _ _
          (by rw [← ptRxH_append, hsplit]; exact ptRxH_rst c F is _ (fun j h => hi j (by simp [h])))
          (by rw [ptRxH_length, List.length_drop]; omega) _ rfl hm
        have hw : water ((ptRxRun c F (ptRxStep c F s r) (is.take (is.length - L))).dx.fifo p) = true := by
          rw [ptRxRun_dx]; exact hw
        have hp : p < 2 := hp
        unfold ptRxReady at h2
        rcases (by omega : p = 0 ∨ p = 1) with rfl | rfl <;> rw [hw] at h2 <;> simp at h2

theorem ptRx_delivery (hF : TlpDevOk c.segs F shown U N D) (s : PtRx St) (r : PtRxIn) (hr : r.rst = true) (is js : List PtRxIn)
    (hi : ∀ i ∈ is, i.rst = false) (hj : ∀ j ∈ js, j.rst = false ∧ ∀ p, p < 2 → j.ready p = true) (hv : PtRxView c v w (is ++ js))
    (ts vs : List (List TlpSeg)) (u x : List TlpSeg) (ht : ∀ t ∈ ts, SegTlp t ∧ t.length ≤ U) (hu : SegPart u)
    (hk : ptRxKept c F (ptRxStep c F s r) is = ts.flatten ++ u)
    (ht' : ∀ t ∈ vs, SegTlp t ∧ t.length ≤ U) (hx : SegPart x) (hxl : x.length < U)
    (hk' : ptRxKept c F (ptRxStep c F s r) (is ++ js) = vs.flatten ++ x)
    (hn : 2 * N + 1 + D ≤ js.length) (p : Nat) (hp : p < 2) :
    (rxTlpsFor p ts).flatten.map w <+: (ptRxTaken c F shown p (ptRxStep c F s r) (is ++ js)).map v := by
  generalize hs0 : ptRxStep c F s r = s0 at *
  have hd0 : s0.dx = tdfStep c.tdm F s.dx (ptRxDxIn c s r) := by rw [← hs0]; rfl
  have hf0 : ptRxFront c s0 = [] := by rw [← hs0]; exact ptRxFront_reset c F s r hr
  have hij : ∀ i ∈ is ++ js, i.rst = false := by
    intro i h
    rcases List.mem_append.mp h with h | h
    · exact hi i h
    · exact (hj i h).1
  -- all beginnings are short
  have hshort : ∀ (a b : List PtRxIn), a ++ b = is ++ js → ∀ q, q < 2 →
      TlpShort U (tdfBelonging q (tdfAccepted c.tdm F s0.dx (ptRxH c F s0 a))) := by
    intro a b hab q hq
    have hl := ptRx_ledger c F (is ++ js) s0 hij hv
    rw [hf0, List.map_nil, List.nil_append, hk'] at hl
    refine rx_belonging_short hv.1 hv.2.1 vs x (fun t h => (ht' t h).1) hx _ _ (ptRx_port_all (is ++ js) s0) hl q hq U
      (fun t h => (ht' t h).2) hxl ?_
    rw [← hab, ptRxH_append, tdfAccepted_append, List.append_assoc]
    exact List.prefix_append _ _
  -- the demultiplexer becomes ready
  have hjs := ptRxH_ready c F (fun p => p < 2) js (ptRxRun c F s0 is) hj
  obtain ⟨k, hk1, hrdy⟩ := tdf_progress (c := c.tdm) hF s.dx (ptRxDxIn c s r) hr (ptRxH c F s0 is)
    ((ptRxH c F (ptRxRun c F s0 is) js).take (N + 1)) (ptRxH_rst c F is _ hi) (fun j h => hjs j (List.mem_of_mem_take h))
    (fun q hq => by rw [← hd0]; exact hshort is js rfl q hq)
    (by rw [List.length_take, ptRxH_length]; omega)
  rw [List.length_take, ptRxH_length] at hk1
  rw [List.take_take, Nat.min_eq_left (by omega), List.getElem_take, ptRxH_get c F js _ k (by omega), ← ptRxH_take, ← ptRxH_append,
    ← hd0, ← ptRxRun_dx, ← ptRxRun_append] at hrdy
  -- then all rows of `is` are accepted
  have hsplit : is ++ js = (is ++ js.take k ++ [js[k]'(by omega)]) ++ js.drop (k + 1) := by
    rw [List.append_assoc, List.append_assoc, List.singleton_append, List.getElem_cons_drop, List.take_append_drop]
  have hacc : (tdfAccepted c.tdm F s0.dx (ptRxH c F s0 (is ++ js.take k ++ [js[k]'(by omega)]))) =
      tdfAccepted c.tdm F s0.dx (ptRxH c F s0 (is ++ js.take k)) ++ ptRxFront c (ptRxRun c F s0 (is ++ js.take k)) := by
    rw [ptRxH_append, tdfAccepted_append, ← ptRxRun_dx]
    congr 1
    simp only [ptRxH, tdfAccepted, ptRxFront_items, List.append_nil]
    rw [ptRxRun_append] at hrdy ⊢
    rw [hrdy]; rfl
  have hsub1 : ∀ i ∈ is ++ js.take k, i ∈ is ++ js := by
    intro i h
    rcases List.mem_append.mp h with h | h
    · exact List.mem_append_left _ h
    · exact List.mem_append_right _ (List.mem_of_mem_take h)
  have hl1 := ptRx_ledger c F (is ++ js.take k) s0 (fun i h => hij i (hsub1 i h)) ⟨hv.1, hv.2.1, fun i h => hv.2.2 i (hsub1 i h)⟩
  rw [hf0, List.map_nil, List.nil_append, ptRxKept_append, hk, ← hacc, List.map_append] at hl1
  -- split what was accepted
  obtain ⟨A, B, hAB, hA, hB⟩ := List.map_eq_append_iff.mp hl1
  have hport : ∀ y ∈ A, PortOfHdr y := by
    intro y hy
    exact ptRxAccepted_port c F (is ++ js.take k ++ [js[k]'(by omega)]) s0 y (by rw [hAB]; exact List.mem_append_left _ hy)
  have hfor := (rx_for hv.1 hv.2.1 ts u (fun t h => (ht t h).1) hu A hport hA p hp).1
  have hdel := tdf_delivery (c := c.tdm) hF s.dx (ptRxDxIn c s r) hr (ptRxH c F s0 (is ++ js.take k ++ [js[k]'(by omega)]))
    (ptRxH c F (ptRxRun c F s0 (is ++ js.take k ++ [js[k]'(by omega)])) (js.drop (k + 1)))
    (ptRxH_rst c F _ _ (fun i h => hij i (by rw [hsplit]; exact List.mem_append_left _ h))) p hp
    (fun j h => by
      have := ptRxH_ready c F (fun p => p < 2) (js.drop (k + 1)) _ (fun j h => hj j (List.mem_of_mem_drop h)) j h
      exact ⟨this.1, this.2.2 p hp⟩)
    (by rw [← hd0]; exact hshort _ _ hsplit.symm p hp)
    (by rw [ptRxH_length, List.length_drop]; omega)
  rw [← hd0, ← ptRxH_append, ← hsplit, ← ptRxTaken_dx, hAB] at hdel
  rw [← hfor]
  exact ((tlpWhole_prefix_mono (tdfBelonging_mono p A B)).trans hdel).map v

end main

end Verif.Proofs
