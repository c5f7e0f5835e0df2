import Verif.Proofs.DmaPsdpRam
/-! C39: the dual-port segmented RAM. -/
namespace Verif.Props
open Verif Verif.Model Verif.Spec Verif.Proofs

/-- **C39.** After a reset, for every history and back-pressure: the responses handed over are the answers
to the accepted read commands, in order, each once, except for at most `PIPELINE` that are still inside. A
command accepted in cycle `k` is answered with the word whose byte in lane `l` is that of the latest write
to this byte in the cycles before `k`. -/
theorem C39_reads (c : PsRamCfg) (hP : 0 < c.pipeline) (s : PsRam) (r : PsRamIn) (hr : r.rst = true)
    (is : List PsRamIn) (hi : ∀ i ∈ is, i.rst = false) :
    ∃ inside, inside.length ≤ c.pipeline ∧
      psRamResponses c (psRamStep c s r) is ++ inside =
        (psRamAccepted c 0 (psRamStep c s r) is).map fun x => fun l =>
          ramByte c ((psRamStep c s r).mem (x.2 % 2 ^ c.addrWidth) l) (x.2 % 2 ^ c.addrWidth) l (is.take x.1) := by
  have h := ram_run c hP is (psRamStep c s r) hi
  rw [pipeQ_empty c.pipeline (psRamStep c s r).valid _ (by intro j _; simp [psRamStep, hr])] at h
  rw [List.nil_append] at h
  exact ⟨_, pipeQ_length _ _ _, h⟩

/-- **C39.** After `PIPELINE` cycles in which the responses are taken and no command is given, every
accepted command has been answered. -/
theorem C39_drain (c : PsRamCfg) (hP : 0 < c.pipeline) (s : PsRam) (r : PsRamIn) (hr : r.rst = true)
    (is quiet : List PsRamIn) (hi : ∀ i ∈ is, i.rst = false)
    (hq : ∀ i ∈ quiet, i.rst = false ∧ i.rdValid = false ∧ i.respReady = true)
    (hl : c.pipeline ≤ quiet.length) :
    psRamResponses c (psRamStep c s r) (is ++ quiet) =
      (psRamAccepted c 0 (psRamStep c s r) (is ++ quiet)).map fun x => fun l =>
        ramByte c ((psRamStep c s r).mem (x.2 % 2 ^ c.addrWidth) l) (x.2 % 2 ^ c.addrWidth) l
          ((is ++ quiet).take x.1) := by
  have h := ram_run c hP (is ++ quiet) (psRamStep c s r) (by
    intro i hm
    rcases List.mem_append.mp hm with hm | hm
    · exact hi i hm
    · exact (hq i hm).1)
  have e : ∀ (l : List PsRamIn) (s : PsRam), psRamRun c s (l ++ quiet) = psRamRun c (psRamRun c s l) quiet := by
    intro l
    induction l with
    | nil => intro s; rfl
    | cons i l ih => intro s; rw [List.cons_append, psRamRun, psRamRun, ih]
  have hd := (ram_drain c quiet (psRamRun c (psRamStep c s r) is) hq 0 (fun j _ h => absurd h (by omega))).1
  rw [pipeQ_empty c.pipeline (psRamStep c s r).valid _ (by intro j _; simp [psRamStep, hr]),
    pipeQ_empty c.pipeline (psRamRun c (psRamStep c s r) (is ++ quiet)).valid _ (by
      intro j hj; rw [e]; exact hd j hj (by omega))] at h
  rw [List.nil_append, List.append_nil] at h
  exact h

/-- **C39.** Whenever the response output is ready, a read command is accepted; with no back-pressure the
RAM therefore takes one command per cycle. -/
theorem C39_accept (c : PsRamCfg) (s : PsRam) (i : PsRamIn) (h : i.respReady = true) :
    psRamCmdReady c s i = true := by simp [psRamCmdReady, h]

/-- **C39.** In every state: a response that is shown and not taken stays, with the same data. -/
theorem C39_stable (c : PsRamCfg) (hP : 0 < c.pipeline) (s : PsRam) (i : PsRamIn) (hr : i.rst = false)
    (h : i.respReady = false) (hv : s.valid (c.pipeline - 1) = true) :
    (psRamStep c s i).valid (c.pipeline - 1) = true ∧
      (psRamStep c s i).data (c.pipeline - 1) = s.data (c.pipeline - 1) := by
  have := pipe_hold c.pipeline hP s.valid s.data (i.rdValid && psRamCmdReady c s i)
    (s.mem (i.rdAddr % 2 ^ c.addrWidth)) (by
      intro ha
      simp only [Bool.and_eq_true, psRamCmdReady, h, Bool.false_or] at ha
      exact ha.2) hv
  simpa only [psRamStep, hr, h, Bool.false_eq_true, if_false] using this

/-- **C39.** A write changes exactly the enabled bytes of the addressed word, to the given data; a
cycle without a write changes nothing. -/
theorem C39_write (c : PsRamCfg) (s : PsRam) (i : PsRamIn) (a l : Nat) :
    (psRamStep c s i).mem a l =
      if i.wrValid = true ∧ i.wrBe l = true ∧ l < c.beWidth ∧ a = i.wrAddr % 2 ^ c.addrWidth then i.wrData l
      else s.mem a l := by
  simp only [psRamStep, psRamWrite, Bool.and_eq_true, decide_eq_true_eq, beq_iff_eq]
  by_cases h : i.wrValid = true ∧ i.wrBe l = true ∧ l < c.beWidth ∧ a = i.wrAddr % 2 ^ c.addrWidth
  · rw [if_pos h, if_pos ⟨⟨⟨h.1, h.2.1⟩, h.2.2.1⟩, h.2.2.2⟩]
  · rw [if_neg h, if_neg (fun hh => h ⟨hh.1.1.1, hh.1.1.2, hh.1.2, hh.2⟩)]

/-- **C39.** Every write is reported done exactly once, one cycle later. -/
theorem C39_done (c : PsRamCfg) (s : PsRam) (is : List PsRamIn) (hi : ∀ i ∈ is, i.rst = false) :
    psRamDone c s is + (psRamRun c s is).wrDone.toNat = s.wrDone.toNat + (is.filter (·.wrValid)).length := by
  induction is generalizing s with
  | nil => simp [psRamDone, psRamRun]
  | cons i is ih =>
    have h := ih (psRamStep c s i) fun j hj => hi j (List.mem_cons_of_mem _ hj)
    have hw : (psRamStep c s i).wrDone = i.wrValid := by simp [psRamStep, hi i List.mem_cons_self]
    rw [psRamDone, psRamRun, List.filter_cons]
    rw [hw] at h
    cases hv : i.wrValid with
    | false => rw [hv] at h; simp at h ⊢; omega
    | true => rw [hv] at h; simp at h ⊢; omega

/-- Two stages, back-pressure in cycles 2 and 3: the word is read before, between and after two writes. -/
def psEx (n : Nat) : PsRamIn :=
  { rst := n == 100
    wrValid := n == 1 || n == 2
    wrBe := fun l => if n == 1 then true else l == 1
    wrAddr := 5
    wrData := fun l => UInt8.ofNat (16 * n + l)
    rdValid := true
    rdAddr := 13
    respReady := !(n == 2 || n == 3) }
def psEx0 : PsRam := psRamStep ⟨4, 3, 2⟩ { mem := fun _ _ => 0, valid := fun _ => true, data := fun _ _ => 9 } (psEx 100)
def psExWord (w : RamWord) : List UInt8 := (List.range 4).map w
example : (psRamResponses ⟨4, 3, 2⟩ psEx0 ((List.range 8).map psEx)).map psExWord =
    [[0, 0, 0, 0], [0, 0, 0, 0], [16, 33, 18, 19], [16, 33, 18, 19]] := by decide +kernel
example : psRamAccepted ⟨4, 3, 2⟩ 0 psEx0 ((List.range 8).map psEx) =
    [(0, 13), (1, 13), (4, 13), (5, 13), (6, 13), (7, 13)] := by decide +kernel
/-- The hypotheses of `C39_stable` are met in cycle 2. -/
example : (psRamRun ⟨4, 3, 2⟩ psEx0 ((List.range 2).map psEx)).valid 1 = true ∧ (psEx 2).respReady = false := by decide +kernel

end Verif.Props
