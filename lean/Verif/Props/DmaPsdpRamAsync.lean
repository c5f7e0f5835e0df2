import Verif.Proofs.DmaPsdpRamAsync
import Verif.Props.DmaPsdpRam
/-! C115: the dual-port segmented RAM with two clocks. -/
namespace Verif.Props
open Verif Verif.Model Verif.Spec Verif.Proofs

/-- **C115.** After a reset of the read side, for every interleaving of the edges of both clocks, every
history and back-pressure, and resets of the write side at any time: the responses handed over are the
answers to the accepted read commands, in order, each once, except for at most `PIPELINE` that are still
inside. A command accepted in instant `k` is answered with the word whose byte in lane `l` is that of the
latest write to this byte at the edges of the write clock before instant `k`. -/
theorem C115_reads (c : PsRamCfg) (hP : 0 < c.pipeline) (s : PsRam) (r : PsaIn) (hr : r.rdEdge = true ∧ r.rstRd = true)
    (is : List PsaIn) (hi : ∀ i ∈ is, i.rstRd = false) :
    ∃ inside, inside.length ≤ c.pipeline ∧
      psaResponses c (psaStep c s r) is ++ inside =
        (psaAccepted c 0 (psaStep c s r) is).map fun x => fun l =>
          ramByte c ((psaStep c s r).mem (x.2 % 2 ^ c.addrWidth) l) (x.2 % 2 ^ c.addrWidth) l
            (psaWrites (is.take x.1)) := by
  have h := psa_run c hP is (psaStep c s r) hi
  rw [pipeQ_empty c.pipeline (psaStep c s r).valid _ (by intro j _; simp [psaStep, psRamStep, hr.1, hr.2])] at h
  rw [List.nil_append] at h
  exact ⟨_, pipeQ_length _ _ _, h⟩

/-- **C115.** After `PIPELINE` edges of the read clock at which the responses are taken and no command is
given, whatever happens on the write side, every accepted command has been answered. -/
theorem C115_drain (c : PsRamCfg) (hP : 0 < c.pipeline) (s : PsRam) (r : PsaIn) (hr : r.rdEdge = true ∧ r.rstRd = true)
    (is quiet : List PsaIn) (hi : ∀ i ∈ is, i.rstRd = false)
    (hq : ∀ i ∈ quiet, i.rstRd = false ∧ (i.rdEdge = true → i.sig.rdValid = false ∧ i.sig.respReady = true))
    (hl : c.pipeline ≤ (quiet.filter (·.rdEdge)).length) :
    psaResponses c (psaStep c s r) (is ++ quiet) =
      (psaAccepted c 0 (psaStep c s r) (is ++ quiet)).map fun x => fun l =>
        ramByte c ((psaStep c s r).mem (x.2 % 2 ^ c.addrWidth) l) (x.2 % 2 ^ c.addrWidth) l
          (psaWrites ((is ++ quiet).take x.1)) := by
  have h := psa_run c hP (is ++ quiet) (psaStep c s r) (by
    intro i hm
    rcases List.mem_append.mp hm with hm | hm
    · exact hi i hm
    · exact (hq i hm).1)
  have e : ∀ (l : List PsaIn) (s : PsRam), psaRun c s (l ++ quiet) = psaRun c (psaRun c s l) quiet := by
    intro l
    induction l with
    | nil => intro s; rfl
    | cons i l ih => intro s; rw [List.cons_append, psaRun, psaRun, ih]
  have hd := psa_drain c quiet (psaRun c (psaStep c s r) is) hq 0 (fun j _ h => absurd h (by omega))
  rw [pipeQ_empty c.pipeline (psaStep c s r).valid _ (by intro j _; simp [psaStep, psRamStep, hr.1, hr.2]),
    pipeQ_empty c.pipeline (psaRun c (psaStep c s r) (is ++ quiet)).valid _ (by
      intro j hj; rw [e]; exact hd j hj (by omega))] at h
  rw [List.nil_append, List.append_nil] at h
  exact h

/-- **C115.** In every state: a response that is shown stays, with the same data, until it is taken at an
edge of the read clock. -/
theorem C115_stable (c : PsRamCfg) (hP : 0 < c.pipeline) (s : PsRam) (i : PsaIn) (hr : i.rstRd = false)
    (h : i.rdEdge = false ∨ i.sig.respReady = false) (hv : s.valid (c.pipeline - 1) = true) :
    (psaStep c s i).valid (c.pipeline - 1) = true ∧
      (psaStep c s i).data (c.pipeline - 1) = s.data (c.pipeline - 1) := by
  cases he : i.rdEdge with
  | false => simp [psaStep, he, hv]
  | true =>
    have hready : i.sig.respReady = false := by simpa [he] using h
    have := C39_stable c hP s { i.sig with rst := i.rstRd } hr hready hv
    simpa only [psaStep, he, if_true] using this

/-- **C115.** At an edge of the write clock a write changes exactly the enabled bytes of the addressed word,
to the given data, even during a reset; without a write and without an edge of the write clock nothing
changes. -/
theorem C115_write (c : PsRamCfg) (s : PsRam) (i : PsaIn) (a l : Nat) :
    (psaStep c s i).mem a l =
      if i.wrEdge = true ∧ i.sig.wrValid = true ∧ i.sig.wrBe l = true ∧ l < c.beWidth ∧
        a = i.sig.wrAddr % 2 ^ c.addrWidth then i.sig.wrData l else s.mem a l := by
  cases he : i.wrEdge with
  | false => simp [psaStep, he]
  | true =>
    simp only [psaStep, he, if_true, psRamStep, psRamWrite, Bool.and_eq_true, decide_eq_true_eq, beq_iff_eq, true_and,
      and_assoc]

/-- **C115.** Every write is reported done exactly once, at the next edge of the write clock, whatever
happens on the read side. -/
theorem C115_done (c : PsRamCfg) (s : PsRam) (is : List PsaIn) (hi : ∀ i ∈ is, i.rstWr = false) :
    psaDone c s is + (psaRun c s is).wrDone.toNat = s.wrDone.toNat + ((psaWrites is).filter (·.wrValid)).length := by
  induction is generalizing s with
  | nil => simp [psaDone, psaRun, psaWrites]
  | cons i is ih =>
    have h := ih (psaStep c s i) fun j hj => hi j (List.mem_cons_of_mem _ hj)
    rw [psaDone, psaRun, psaWrites_cons, List.filter_append, List.length_append]
    cases he : i.wrEdge with
    | false =>
      have hw : (psaStep c s i).wrDone = s.wrDone := by simp [psaStep, he]
      rw [hw] at h
      simp [psaWrites, he] at h ⊢
      omega
    | true =>
      have hw : (psaStep c s i).wrDone = i.sig.wrValid := by simp [psaStep, psRamStep, he, hi i List.mem_cons_self]
      rw [hw] at h
      cases hv : i.sig.wrValid <;> rw [hv] at h <;> simp [psaWrites, he, hv] at h ⊢ <;> omega

/-- Three instants of the write clock in each six, two of the read clock: the word is read before, between and
after two writes. -/
def psaEx (n : Nat) : PsaIn :=
  { wrEdge := n % 2 == 0, rdEdge := n % 3 == 0 || n == 100, rstRd := n == 100
    sig :=
      { wrValid := n == 2 || n == 6, wrBe := fun l => if n == 2 then true else l == 1, wrAddr := 5
        wrData := fun l => UInt8.ofNat (16 * n + l), rdValid := decide (n < 15), rdAddr := 13, respReady := n != 6 } }
def psaEx0 : PsRam := psaStep ⟨4, 3, 2⟩ { mem := fun _ _ => 0, valid := fun _ => true, data := fun _ _ => 9 } (psaEx 100)

/-- The hypotheses are met: instants 16 to 24 are quiet, with three edges of the read clock. -/
example : (psaEx 100).rdEdge = true ∧ (psaEx 100).rstRd = true ∧ (∀ k < 25, (psaEx k).rstRd = false) ∧
    (∀ k < 25, 15 < k → (psaEx k).sig.rdValid = false ∧ (psaEx k).sig.respReady = true) := by decide
example : (psaResponses ⟨4, 3, 2⟩ psaEx0 ((List.range 25).map psaEx)).map (fun w => (List.range 4).map w) =
    [[0, 0, 0, 0], [32, 33, 34, 35], [32, 97, 34, 35], [32, 97, 34, 35]] := by decide +kernel
example : psaAccepted ⟨4, 3, 2⟩ 0 psaEx0 ((List.range 25).map psaEx) = [(0, 13), (3, 13), (9, 13), (12, 13)] := by
  decide +kernel
example : psaDone ⟨4, 3, 2⟩ psaEx0 ((List.range 25).map psaEx) = 2 := by decide +kernel
/-- The hypotheses of `C115_stable` are met in instant 6. -/
example : (psaRun ⟨4, 3, 2⟩ psaEx0 ((List.range 6).map psaEx)).valid 1 = true ∧ (psaEx 6).sig.respReady = false := by
  decide +kernel

end Verif.Props
