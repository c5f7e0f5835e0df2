import Verif.Spec.DmaIfMux
import Verif.Spec.RamDemux
import Verif.Proofs.ArbMux
import Verif.Basic.Clog2
/-! Lemmas for `Props/DmaIfMux.lean`. -/
namespace Verif.Proofs
open Verif Verif.Model Verif.Spec

/-! ### The composition is the product of its parts -/

theorem dimRdGiven_eq (c : DimCfg) (p : Nat) (is : List DimRdIn) (s : DimRd) :
    dimRdGiven c p s is = muxAccepted c.rdDesc.mux p s.mux (is.map fun i => dimRdMuxIn i.toDimDescIn) := by
  induction is generalizing s with
  | nil => rfl
  | cons i is ih => simp only [dimRdGiven, List.map_cons, muxAccepted, ih]; rfl

theorem dimRdSent_eq (c : DimCfg) (is : List DimRdIn) (s : DimRd) :
    dimRdSent c s is = muxEmitted c.rdDesc.mux s.mux (is.map fun i => dimRdMuxIn i.toDimDescIn) := by
  induction is generalizing s with
  | nil => rfl
  | cons i is ih => simp only [dimRdSent, List.map_cons, muxEmitted, ih]; rfl

theorem dimRdCmds_eq (c : DimCfg) (n : Nat) (is : List DimRdIn) (s : DimRd) :
    dimRdCmds c n s is = wrAccepted c.demux (s.dx n) (is.map (dimRdDxIn n)) := by
  induction is generalizing s with
  | nil => rfl
  | cons i is ih => simp only [dimRdCmds, List.map_cons, wrAccepted, ih]; rfl

theorem dimRdRam_eq (c : DimCfg) (p n : Nat) (is : List DimRdIn) (s : DimRd) :
    dimRdRam c p n s is = wrForwarded c.demux p (s.dx n) (is.map (dimRdDxIn n)) := by
  induction is generalizing s with
  | nil => rfl
  | cons i is ih => simp only [dimRdRam, List.map_cons, wrForwarded, ih]; rfl

theorem dimRdRamDone_eq (p n : Nat) (is : List DimRdIn) :
    dimRdRamDone p n is = wrPortDone p (is.map (dimRdDxIn n)) := by
  unfold dimRdRamDone wrPortDone
  rw [List.countP_map]; rfl

theorem dimRdDone_eq (c : DimCfg) (n : Nat) (is : List DimRdIn) (s : DimRd) :
    dimRdDone c n s is = wrReported c.demux (s.dx n) (is.map (dimRdDxIn n)) := by
  induction is generalizing s with
  | nil => rfl
  | cons i is ih => simp only [dimRdDone, List.map_cons, wrReported, ih]; rfl

theorem dimWrGiven_eq {δ : Type} (c : DimCfg) (p : Nat) (is : List (DimWrIn δ)) (s : DimWr δ) :
    dimWrGiven c p s is = muxAccepted c.desc.mux p s.mux (is.map fun i => dimWrMuxIn i.toDimDescIn) := by
  induction is generalizing s with
  | nil => rfl
  | cons i is ih => simp only [dimWrGiven, List.map_cons, muxAccepted, ih]; rfl

theorem dimWrSent_eq {δ : Type} (c : DimCfg) (is : List (DimWrIn δ)) (s : DimWr δ) :
    dimWrSent c s is = muxEmitted c.desc.mux s.mux (is.map fun i => dimWrMuxIn i.toDimDescIn) := by
  induction is generalizing s with
  | nil => rfl
  | cons i is ih => simp only [dimWrSent, List.map_cons, muxEmitted, ih]; rfl

theorem dimWrCmds_eq {δ : Type} (c : DimCfg) (n : Nat) (is : List (DimWrIn δ)) (s : DimWr δ) :
    dimWrCmds c n s is = rdAccepted c.demux (s.dx n) (is.map (dimWrDxIn n)) := by
  induction is generalizing s with
  | nil => rfl
  | cons i is ih => simp only [dimWrCmds, List.map_cons, rdAccepted, ih]; rfl

theorem dimWrRam_eq {δ : Type} (c : DimCfg) (p n : Nat) (is : List (DimWrIn δ)) (s : DimWr δ) :
    dimWrRam c p n s is = rdForwarded c.demux p (s.dx n) (is.map (dimWrDxIn n)) := by
  induction is generalizing s with
  | nil => rfl
  | cons i is ih => simp only [dimWrRam, List.map_cons, rdForwarded, ih]; rfl

theorem dimWrTaken_eq {δ : Type} (c : DimCfg) (p n : Nat) (is : List (DimWrIn δ)) (s : DimWr δ) :
    dimWrTaken c p n s is = rdTaken c.demux p (s.dx n) (is.map (dimWrDxIn n)) := by
  induction is generalizing s with
  | nil => rfl
  | cons i is ih => simp only [dimWrTaken, List.map_cons, rdTaken, ih]; rfl

theorem dimWrResp_eq {δ : Type} (c : DimCfg) (n : Nat) (is : List (DimWrIn δ)) (s : DimWr δ) :
    dimWrResp c n s is = rdDelivered c.demux (s.dx n) (is.map (dimWrDxIn n)) := by
  induction is generalizing s with
  | nil => rfl
  | cons i is ih => simp only [dimWrResp, List.map_cons, rdDelivered, ih]; rfl

theorem dimRdRun_append (c : DimCfg) (a b : List DimRdIn) (s : DimRd) :
    dimRdRun c s (a ++ b) = dimRdRun c (dimRdRun c s a) b := by
  induction a generalizing s with
  | nil => rfl
  | cons i a ih => exact ih _

theorem dimWrRun_append {δ : Type} (c : DimCfg) (a b : List (DimWrIn δ)) (s : DimWr δ) :
    dimWrRun c s (a ++ b) = dimWrRun c (dimWrRun c s a) b := by
  induction a generalizing s with
  | nil => rfl
  | cons i a ih => exact ih _

/-! ### Descriptors accepted come from the inputs -/

theorem mux_accepted_mem {α β : Type} (c : MuxCfg α β) (p : Nat) (is : List (MuxIn α)) (s : Mux α β) (d : α)
    (h : d ∈ muxAccepted c p s is) : ∃ i ∈ is, i.word p = d := by
  induction is generalizing s with
  | nil => simp [muxAccepted] at h
  | cons i is ih =>
    rw [muxAccepted, List.mem_append] at h
    rcases h with h | h
    · refine ⟨i, List.mem_cons_self, ?_⟩
      split at h
      · rw [List.mem_singleton] at h; exact h.symm
      · simp at h
    · obtain ⟨j, hj, e⟩ := ih _ h
      exact ⟨j, List.mem_cons_of_mem _ hj, e⟩

theorem mem_ofPort {α : Type} (t : List (Nat × α)) (x : Nat × α) (h : x ∈ t) : x.2 ∈ ofPort x.1 t := by
  rw [ofPort, List.mem_map]
  exact ⟨x, List.mem_filter.mpr ⟨h, by simp⟩, rfl⟩

/-! ### Routing -/

theorem dim_route (c : DescMuxCfg) (hx : c.extendRamSel = true) (p : Nat) (d : DmaDesc) (hp : p < c.ports)
    (hw : c.sRamSelWidth + clog2 c.ports ≤ c.mRamSelWidth) (hs : d.ramSel < 2 ^ c.sRamSelWidth) :
    selPort ⟨c.ports, c.sRamSelWidth, c.mRamSelWidth⟩ (descConv c p d).ramSel = p ∧
    (descConv c p d).ramSel % 2 ^ c.sRamSelWidth = d.ramSel := by
  have hle := le_two_pow_clog2 c.ports
  have hpow : 2 ^ c.sRamSelWidth ≤ 2 ^ (c.mRamSelWidth - clog2 c.ports) :=
    Nat.pow_le_pow_right (by omega) (by omega)
  by_cases hn : 1 < c.ports
  · have hB : (2 : Nat) ^ c.mRamSelWidth = 2 ^ (c.mRamSelWidth - clog2 c.ports) * 2 ^ clog2 c.ports := by
      rw [← Nat.pow_add]; congr 1; omega
    have hS : 2 ^ (c.mRamSelWidth - clog2 c.ports) =
        2 ^ c.sRamSelWidth * 2 ^ (c.mRamSelWidth - clog2 c.ports - c.sRamSelWidth) := by
      rw [← Nat.pow_add]; congr 1; omega
    have e : (descConv c p d).ramSel = d.ramSel + p * 2 ^ (c.mRamSelWidth - clog2 c.ports) := by
      simp [descConv, hx, hn, Nat.mod_eq_of_lt (Nat.lt_of_lt_of_le hs hpow)]
    have hlt : d.ramSel + p * 2 ^ (c.mRamSelWidth - clog2 c.ports) < 2 ^ c.mRamSelWidth := by
      rw [hB]
      have h1 : (p + 1) * 2 ^ (c.mRamSelWidth - clog2 c.ports) ≤
          2 ^ clog2 c.ports * 2 ^ (c.mRamSelWidth - clog2 c.ports) := Nat.mul_le_mul_right _ (by omega)
      rw [Nat.add_mul, Nat.one_mul] at h1
      rw [Nat.mul_comm (2 ^ (c.mRamSelWidth - clog2 c.ports))]
      omega
    have hdiv : (d.ramSel + p * 2 ^ (c.mRamSelWidth - clog2 c.ports)) /
        2 ^ (c.mRamSelWidth - clog2 c.ports) = p := by
      rw [Nat.add_mul_div_right _ _ (Nat.two_pow_pos _), Nat.div_eq_of_lt (by omega)]; simp
    constructor
    · unfold selPort
      rw [e]
      dsimp only
      rw [if_neg (by omega), Nat.mod_eq_of_lt hlt, hdiv]
    · rw [e, hS, Nat.mul_comm (2 ^ c.sRamSelWidth), ← Nat.mul_assoc, Nat.add_mul_mod_self_right,
        Nat.mod_eq_of_lt hs]
  · have hp1 : c.ports = 1 := by omega
    have hp0 : p = 0 := by omega
    subst hp0
    have e : (descConv c 0 d).ramSel = d.ramSel := by
      simp only [descConv, hn, decide_false, Bool.and_false, Bool.false_eq_true, if_false]
      apply Nat.mod_eq_of_lt
      exact Nat.lt_of_lt_of_le hs (Nat.pow_le_pow_right (by omega) (by omega))
    exact ⟨by simp [selPort, hp1], by rw [e, Nat.mod_eq_of_lt hs]⟩

/-- Commands paired with descriptors the DMA interface was given are paired with the clients'
descriptors. -/
theorem dim_pairs {κ : Type} (f : Nat → DmaDesc → DmaDesc) (t : List (Nat × DmaDesc)) (L : List (DmaDesc × κ))
    (h : ∀ x ∈ L, x.1 ∈ t.map fun y => f y.1 y.2) :
    ∃ M : List ((Nat × DmaDesc) × κ), L = M.map (fun x => (f x.1.1 x.1.2, x.2)) ∧ ∀ x ∈ M, x.1 ∈ t := by
  induction L with
  | nil => exact ⟨[], rfl, by simp⟩
  | cons x L ih =>
    obtain ⟨M, e, hm⟩ := ih fun y hy => h y (List.mem_cons_of_mem _ hy)
    obtain ⟨y, hy, ey⟩ := List.mem_map.mp (h x List.mem_cons_self)
    refine ⟨(y, x.2) :: M, by rw [e, List.map_cons, ey], fun z hz => ?_⟩
    rcases List.mem_cons.mp hz with rfl | hz
    · exact hy
    · exact hm z hz

/-- What the demultiplexer sends to port `p` of commands issued for descriptors is what belongs to
client `p`. -/
theorem wrFor_own (c : DescMuxCfg) (hx : c.extendRamSel = true)
    (hw : c.sRamSelWidth + clog2 c.ports ≤ c.mRamSelWidth) (p : Nat) (M : List ((Nat × DmaDesc) × WrCmd))
    (hm : ∀ x ∈ M, x.1.1 < c.ports ∧ x.1.2.ramSel < 2 ^ c.sRamSelWidth) :
    wrFor ⟨c.ports, c.sRamSelWidth, c.mRamSelWidth⟩ p
      (M.map fun x => { x.2 with sel := (descConv c x.1.1 x.1.2).ramSel }) = wrOwn p M := by
  induction M with
  | nil => rfl
  | cons x M ih =>
    have ih := ih fun y hy => hm y (List.mem_cons_of_mem _ hy)
    obtain ⟨h1, h2⟩ := hm x List.mem_cons_self
    obtain ⟨r1, r2⟩ := dim_route c hx x.1.1 x.1.2 h1 hw h2
    unfold wrFor wrOwn at ih ⊢
    rw [List.map_cons, List.filter_cons, List.filter_cons]
    simp only [r1]
    by_cases hpx : x.1.1 = p
    · simp only [hpx, beq_self_eq_true, if_true, List.map_cons, ih]
      rw [hpx] at r2
      rw [r2]
    · have hb : (x.1.1 == p) = false := by simpa using hpx
      simp only [hb, Bool.false_eq_true, if_false, ih]

theorem rdFor_own (c : DescMuxCfg) (hx : c.extendRamSel = true)
    (hw : c.sRamSelWidth + clog2 c.ports ≤ c.mRamSelWidth) (p : Nat) (M : List ((Nat × DmaDesc) × RdCmd))
    (hm : ∀ x ∈ M, x.1.1 < c.ports ∧ x.1.2.ramSel < 2 ^ c.sRamSelWidth) :
    rdFor ⟨c.ports, c.sRamSelWidth, c.mRamSelWidth⟩ p
      (M.map fun x => { x.2 with sel := (descConv c x.1.1 x.1.2).ramSel }) = rdOwn p M := by
  induction M with
  | nil => rfl
  | cons x M ih =>
    have ih := ih fun y hy => hm y (List.mem_cons_of_mem _ hy)
    obtain ⟨h1, h2⟩ := hm x List.mem_cons_self
    obtain ⟨r1, r2⟩ := dim_route c hx x.1.1 x.1.2 h1 hw h2
    unfold rdFor rdOwn at ih ⊢
    rw [List.map_cons, List.filter_cons, List.filter_cons]
    simp only [r1]
    by_cases hpx : x.1.1 = p
    · simp only [hpx, beq_self_eq_true, if_true, List.map_cons, ih]
      rw [hpx] at r2
      rw [r2]
    · have hb : (x.1.1 == p) = false := by simpa using hpx
      simp only [hb, Bool.false_eq_true, if_false, ih]

end Verif.Proofs
