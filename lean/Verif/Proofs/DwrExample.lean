import Verif.Spec.DmaIfPcieWr
/-! Checkable histories of the DMA write interface, for examples. -/
namespace Verif.Proofs
open Verif Verif.Model Verif.Spec

/-- A state before reset. -/
def dwrState0 : Dwr where
  req := { start := false, addr := 0, sel := 0, ram := 0, imm := fun _ => 0, immEn := false, count := 0, tlpCount := 0,
           tag := 0, zero := false, ready := false }
  cmd := { addr := 0, sel := 0, ram := 0, immEn := false, len := 0, cyc := 0, lastC := false }
  cmdV := false
  rd := { read := false, sel := 0, ram := 0, immEn := false, len := 0, mask := fun _ => false, mask1 := fun _ => false,
          cyc := 0, lastC := false, bytes := 0 }
  cmdSel := fun _ => 0
  cmdAddr := fun _ => 0
  cmdValid := fun _ => false
  fifo := { wr := 0, rd := 0, mem := fun _ _ => false }
  ramMask := fun _ => false
  ramMaskV := false
  tbl := { start := 0, txStart := 0, txFinish := 0, finish := 0, active := fun _ => false,
           mem := fun _ => { addr := 0, imm := fun _ => 0, immEn := false, len := 0, zero := false, dw := 0, cyc := 0,
                             offset := 0, tag := 0, last := false } }
  txDone := fun _ => false
  tx := { transfer := false, addr := 0, imm := fun _ => 0, immEn := false, len := 0, zero := false, dw := 0, offset := 0,
          cyc := 0, lastC := false, frame := false }
  out := { data := fun _ => 0, strb := 0, hdr := { dw0 := 0, dw1 := 0, dw2 := 0, dw3 := 0 }, seq := 0, sop := false,
           eop := false }
  outV := false
  txCount := 0
  txAv := true
  mpsDw := 0
  stTag := 0
  stV := false

/-- An input with the responses of a RAM that answers each command as soon as it can. -/
def ramInput (c : DwrCfg) (mem : Nat → Nat → UInt8) (pend : Nat → List (Nat × Nat)) (i : DwrIn) : DwrIn :=
  { i with
    respValid := fun k => !(pend k).isEmpty
    respData := fun l =>
      match pend (l / c.segBytes) with
      | [] => 0
      | q :: _ => mem q.1 (q.2 * c.rowBytes + l) }

/-- A history with such a RAM. -/
def ramHistory (c : DwrCfg) (mem : Nat → Nat → UInt8) : (Nat → List (Nat × Nat)) → Dwr → List DwrIn → List DwrIn
  | _, _, [] => []
  | pend, s, i :: is =>
    let i' := ramInput c mem pend i
    i' :: ramHistory c mem (pendNext c s i' pend) (dwrStep c s i') is

theorem ramHistory_ok (c : DwrCfg) (mem : Nat → Nat → UInt8) (is : List DwrIn) (pend : Nat → List (Nat × Nat)) (s : Dwr) :
    RamOk c mem pend s (ramHistory c mem pend s is) := by
  induction is generalizing pend s with
  | nil => trivial
  | cons i is ih =>
    refine ⟨?_, ih _ _⟩
    intro k hk hv
    cases hp : pend k with
    | nil => simp [ramInput, hp] at hv
    | cons q qs =>
      refine ⟨q, by simp, fun b hb => ?_⟩
      have : (k * c.segBytes + b) / c.segBytes = k := by
        rw [Nat.mul_comm, Nat.mul_add_div (by unfold DwrCfg.segBytes; exact Nat.two_pow_pos _), Nat.div_eq_of_lt hb, Nat.add_zero]
      simp only [ramInput, this, hp]

/-- A history with such a RAM in which the first waiting sequence number comes back in the cycles marked `true`. -/
def seqHistory (c : DwrCfg) (mem : Nat → Nat → UInt8) :
    (Nat → List (Nat × Nat)) → SeqState → Dwr → List (DwrIn × Bool) → List DwrIn
  | _, _, _, [] => []
  | pend, q, s, i :: is =>
    let i' := { ramInput c mem pend i.1 with seqs := if i.2 then (q.out.map (· % 2 ^ c.opW)).take 1 else [] }
    i' :: seqHistory c mem (pendNext c s i' pend) (seqNext c s i' q) (dwrStep c s i') is

theorem seqHistory_ok (c : DwrCfg) (mem : Nat → Nat → UInt8) (is : List (DwrIn × Bool)) (pend : Nat → List (Nat × Nat))
    (q : SeqState) (s : Dwr) : RamOk c mem pend s (seqHistory c mem pend q s is) ∧ SeqOk c q s (seqHistory c mem pend q s is) := by
  induction is generalizing pend q s with
  | nil => exact ⟨trivial, trivial⟩
  | cons i is ih =>
    obtain ⟨h1, h2⟩ := ih (pendNext c s { ramInput c mem pend i.1 with seqs := if i.2 then (q.out.map (· % 2 ^ c.opW)).take 1 else [] } pend)
      (seqNext c s { ramInput c mem pend i.1 with seqs := if i.2 then (q.out.map (· % 2 ^ c.opW)).take 1 else [] } q)
      (dwrStep c s { ramInput c mem pend i.1 with seqs := if i.2 then (q.out.map (· % 2 ^ c.opW)).take 1 else [] })
    refine ⟨⟨?_, h1⟩, ⟨?_, ?_⟩, h2⟩
    · have := (ramHistory_ok c mem [i.1] pend s).1
      exact this
    · show (if i.2 then (q.out.map (· % 2 ^ c.opW)).take 1 else []).Nodup
      split
      · cases q.out <;> simp
      · simp
    · intro x hx
      replace hx : x ∈ (if i.2 then (q.out.map (· % 2 ^ c.opW)).take 1 else []) := hx
      split at hx
      · have := List.mem_of_mem_take hx
        simpa using this
      · simp at hx

theorem seqHistory_inputs {c : DwrCfg} {mem : Nat → Nat → UInt8} {P : DwrIn → Prop} (is : List (DwrIn × Bool))
    (pend : Nat → List (Nat × Nat)) (q : SeqState) (s : Dwr)
    (hP : ∀ i p l, P i → P { ramInput c mem p i with seqs := l }) (h : ∀ i ∈ is, P i.1) :
    ∀ i ∈ seqHistory c mem pend q s is, P i := by
  induction is generalizing pend q s with
  | nil => simp [seqHistory]
  | cons i is ih =>
    intro j hj
    simp only [seqHistory, List.mem_cons] at hj
    rcases hj with rfl | hj
    · exact hP _ _ _ (h i List.mem_cons_self)
    · exact ih _ _ _ (fun x hx => h x (List.mem_cons_of_mem _ hx)) j hj

theorem ramHistory_inputs {c : DwrCfg} {mem : Nat → Nat → UInt8} {P : DwrIn → Prop} (is : List DwrIn)
    (pend : Nat → List (Nat × Nat)) (s : Dwr) (hP : ∀ i p, P i → P (ramInput c mem p i)) (h : ∀ i ∈ is, P i) :
    ∀ i ∈ ramHistory c mem pend s is, P i := by
  induction is generalizing pend s with
  | nil => simp [ramHistory]
  | cons i is ih =>
    intro j hj
    simp only [ramHistory, List.mem_cons] at hj
    rcases hj with rfl | hj
    · exact hP _ _ (h i List.mem_cons_self)
    · exact ih _ _ (fun x hx => h x (List.mem_cons_of_mem _ hx)) j hj

end Verif.Proofs
