import Verif.Proofs.TlpFifoMuxGap
import Verif.Spec.PtileIfTx
/-! The P-Tile transmit adapter is the multiplexer with a register behind it. -/
namespace Verif.Proofs
open Verif.Model Verif.Spec

/-- What the multiplexer sees in a history. -/
def pttIns (f : TffCfg) : Ptt → List PttIn → List TxmIn
  | _, [] => []
  | s, i :: is => pttMuxIn s i :: pttIns f (pttStep f s i) is

theorem ptt_mux (f : TffCfg) (is : List PttIn) (s : Ptt) :
    (pttRun f s is).mux = txmRun (pttMux f) s.mux (pttIns f s is) := by
  induction is generalizing s with
  | nil => rfl
  | cons i is ih => exact ih (pttStep f s i)

theorem ptt_rst (f : TffCfg) (is : List PttIn) (s : Ptt) (h : ∀ i ∈ is, i.rst = false) :
    ∀ i ∈ pttIns f s is, i.rst = false := by
  induction is generalizing s with
  | nil => intro i hi; cases hi
  | cons i is ih =>
    intro x hx
    rcases List.mem_cons.mp hx with rfl | hx
    · exact h i (by simp)
    · exact ih (pttStep f s i) (fun i hi => h i (by simp [hi])) x hx

theorem ptt_sent (f : TffCfg) (is : List PttIn) (s : Ptt) (h : ∀ i ∈ is, i.rst = false) :
    pttSent f s is = (txmTaken (pttMux f) s.mux (pttIns f s is)).map pttWord := by
  induction is generalizing s with
  | nil => rfl
  | cons i is ih =>
    have hr := h i (by simp)
    rw [pttSent, pttIns, txmTaken, List.map_append, ih _ fun i hi => h i (by simp [hi])]
    congr 1
    have e1 : (pttStep f s i).valid = (s.rdy2 && s.mux.out.valid) := by show (!i.rst && _) = _; rw [hr]; rfl
    have e2 : (pttStep f s i).seg = if s.rdy2 then pttWord s.mux.out.out else {} := rfl
    have e3 : (pttMuxIn s i).ready = s.rdy2 := rfl
    rw [e1, e2, e3, txmShown]
    cases s.rdy2 <;> cases s.mux.out.valid <;> rfl

theorem ptt_accepted (f : TffCfg) (p : Nat) (is : List PttIn) (s : Ptt) :
    txmAccepted (pttMux f) p s.mux (pttIns f s is) = (pttAccepted f p s is).map (pttConv p) := by
  induction is generalizing s with
  | nil => rfl
  | cons i is ih =>
    rw [pttIns, txmAccepted, pttAccepted, List.map_append]
    rw [show txmStep (pttMux f) s.mux (pttMuxIn s i) = (pttStep f s i).mux from rfl, ih]
    congr 1
    show (if (txmReady s.mux p && i.valid p) = true then [pttConv p (i.seg p)] else []) = _
    split <;> rfl

theorem ptt_word (p : Nat) (g : TlpSeg) : pttWord (pttConv p g) = pttExpect p g := by
  unfold pttConv pttExpect
  split <;> rfl

theorem tlpWhole_map (c : TlpSeg → TlpSeg) (h : ∀ g, (c g).eop = g.eop) (l : List TlpSeg) :
    tlpWhole (l.map c) = (tlpWhole l).map c := by
  unfold tlpWhole
  rw [← List.map_reverse, List.dropWhile_map, List.map_reverse]
  congr 3
  funext g
  simp [h]

theorem tlpWhole_all {l : List TlpSeg} (h : ∀ g ∈ l, g.eop = true) : tlpWhole l = l := by
  have : l.reverse.dropWhile (fun x => !x.eop) = l.reverse := by
    cases hr : l.reverse with
    | nil => rfl
    | cons g m =>
      have := h g (by rw [← List.mem_reverse, hr]; simp)
      simp [List.dropWhile_cons, this]
  rw [tlpWhole, this, List.reverse_reverse]

theorem ptt_whole (p : Nat) (l : List TlpSeg) : tlpWhole (l.map (pttConv p)) = (pttWhole p l).map (pttConv p) := by
  unfold pttWhole
  split
  · rename_i hp
    subst hp
    refine tlpWhole_all fun g hg => ?_
    obtain ⟨x, -, rfl⟩ := List.mem_map.mp hg
    rfl
  · rename_i hp
    refine tlpWhole_map _ (fun g => ?_) l
    simp [pttConv, hp]

theorem ptt_run_append (f : TffCfg) (a b : List PttIn) (s : Ptt) : pttRun f s (a ++ b) = pttRun f (pttRun f s a) b := by
  induction a generalizing s with
  | nil => rfl
  | cons y a ih => exact ih (pttStep f s y)

theorem ptt_ins_append (f : TffCfg) (a b : List PttIn) (s : Ptt) :
    pttIns f s (a ++ b) = pttIns f s a ++ pttIns f (pttRun f s a) b := by
  induction a generalizing s with
  | nil => rfl
  | cons y a ih => rw [List.cons_append, pttIns, ih]; rfl

theorem ptt_ins_length (f : TffCfg) (a : List PttIn) (s : Ptt) : (pttIns f s a).length = a.length := by
  induction a generalizing s with
  | nil => rfl
  | cons y a ih => rw [pttIns, List.length_cons, ih]; rfl

theorem ptt_accepted_append (f : TffCfg) (p : Nat) (a b : List PttIn) (s : Ptt) :
    pttAccepted f p s (a ++ b) = pttAccepted f p s a ++ pttAccepted f p (pttRun f s a) b := by
  induction a generalizing s with
  | nil => rfl
  | cons y a ih => rw [List.cons_append, pttAccepted, ih, pttAccepted, List.append_assoc]; rfl

theorem pttDrains_all (f : TffCfg) (m : Nat) (qs : List PttIn) (s : Ptt) (h : PttDrains f m s qs) :
    ∀ i ∈ qs, i.rst = false ∧ ∀ p < 4, i.valid p = false := by
  induction qs generalizing s with
  | nil => intro i hi; cases hi
  | cons q qs ih =>
    intro i hi
    rcases List.mem_cons.mp hi with rfl | hi
    · exact ⟨h.1.2.1, h.1.2.2.2.2⟩
    · exact ih _ h.2 i hi

/-- After two quiet cycles no port is paused and the multiplexer may send. -/
theorem ptt_open (f : TffCfg) (m : Nat) (s : Ptt) (a b : PttIn) (h : PttDrains f m s [a, b]) :
    (pttStep f (pttStep f s a) b).rdy2 = true ∧ ∀ p, pttPause (pttStep f (pttStep f s a) b) p = false := by
  obtain ⟨⟨-, ha, har, ham, -⟩, ⟨hb, hbr, -, -, -⟩, -⟩ := h
  have e1 : (pttStep f (pttStep f s a) b).rdy2 = true := by
    show (!b.rst && (!a.rst && a.ready)) = true
    rw [hbr, ha, har]; rfl
  have em : (pttStep f s a).mps = 8 * 2 ^ min m 5 := by
    show 8 * 2 ^ (if a.mps > 5 then 5 else a.mps) = _
    rw [ham]
    have : (if m > 5 then 5 else m) = min m 5 := by rw [Nat.min_def]; split <;> split <;> omega
    rw [this]
  generalize pttStep f s a = v at *
  obtain ⟨h1, h2, h3, h4, h5⟩ := hb
  have hd : 128 * 2 ^ min m 5 / 16 = 8 * 2 ^ min m 5 := by omega
  rw [hd] at h4 h5
  have p1 : (pttStep f v b).haveP = true := by
    show (decide (v.ph.av > 4) && decide (v.pd.av > v.mps * 2)) = true
    rw [em]; simp; omega
  have p2 : (pttStep f v b).haveNp = true := by
    show decide (v.nph.av > 4) = true
    simp; omega
  have p3 : (pttStep f v b).haveCpl = true := by
    show (decide (v.cplh.av > 4) && decide (v.cpld.av > v.mps * 2)) = true
    rw [em]; simp; omega
  refine ⟨e1, fun p => ?_⟩
  unfold pttPause
  rw [p1, p2, p3]
  split
  · rfl
  · split <;> rfl

/-- From the third quiet cycle on the multiplexer is quiet, too. -/
theorem ptt_quiet (f : TffCfg) (m : Nat) (s : Ptt) (qs : List PttIn) (a b : PttIn) (h : PttDrains f m s (a :: b :: qs)) :
    ∀ i ∈ pttIns f (pttStep f (pttStep f s a) b) qs, TxmQuiet (pttMux f) i := by
  induction qs generalizing s a b with
  | nil => intro i hi; cases hi
  | cons q qs ih =>
    intro i hi
    rcases List.mem_cons.mp hi with rfl | hi
    · obtain ⟨h1, h2⟩ := ptt_open f m s a b ⟨h.1, h.2.1, trivial⟩
      exact ⟨h.2.2.1.2.1, h1, fun p hp => ⟨h.2.2.1.2.2.2.2 p hp, h2 p⟩⟩
    · exact ih (pttStep f s a) b q h.2 i hi

end Verif.Proofs
