import Verif.Proofs.DmaPsdpRam
import Verif.Spec.DmaPsdpRamAsync
/-! Helper lemmas for the segmented RAM with two clocks. -/
namespace Verif.Proofs
open Verif Verif.Model Verif.Spec

theorem psa_mem (c : PsRamCfg) (i : PsaIn) (s : PsRam) (a l : Nat) :
    (psaStep c s i).mem a l = ramByte c (s.mem a l) a l (psaWrites [i]) := by
  have h := ram_mem c [{ i.sig with rst := i.rstWr }] s a l
  cases hw : i.wrEdge with
  | false => simp [psaStep, psaWrites, hw, ramByte]
  | true =>
    simp only [psRamRun] at h
    simp only [psaStep, psaWrites, hw, if_true, List.filter_cons, List.filter_nil, List.map_cons, List.map_nil]
    exact h

/-- The word a command accepted in instant `k` of a history is to get. -/
def psaWordAt (c : PsRamCfg) (s : PsRam) (is : List PsaIn) (x : Nat × Nat) : RamWord :=
  fun l => ramByte c (s.mem (x.2 % 2 ^ c.addrWidth) l) (x.2 % 2 ^ c.addrWidth) l (psaWrites (is.take x.1))

theorem psa_accepted_shift (c : PsRamCfg) (is : List PsaIn) (s : PsRam) (k n : Nat) :
    psaAccepted c (k + n) s is = (psaAccepted c n s is).map fun x => (x.1 + k, x.2) := by
  induction is generalizing s n with
  | nil => rfl
  | cons i is ih =>
    rw [psaAccepted, psaAccepted, List.map_append, show k + n + 1 = k + (n + 1) by omega, ih]
    congr 1
    split
    · simp [Nat.add_comm]
    · rfl

theorem psa_step (c : PsRamCfg) (hP : 0 < c.pipeline) (s : PsRam) (i : PsaIn) (hr : i.rstRd = false) :
    (if i.rdEdge && (s.valid (c.pipeline - 1) && i.sig.respReady) then [s.data (c.pipeline - 1)] else []) ++
        pipeQ c.pipeline (psaStep c s i).valid (psaStep c s i).data =
      pipeQ c.pipeline s.valid s.data ++
        (if i.rdEdge && (i.sig.rdValid && psRamCmdReady c s i.sig) then [s.mem (i.sig.rdAddr % 2 ^ c.addrWidth)] else []) := by
  cases he : i.rdEdge with
  | false => simp [psaStep, he]
  | true =>
    have hp := pipe_step c.pipeline hP s.valid s.data i.sig.respReady (i.sig.rdValid && psRamCmdReady c s i.sig)
      (s.mem (i.sig.rdAddr % 2 ^ c.addrWidth)) (by
        intro h
        simp only [Bool.and_eq_true] at h
        exact h.2)
    have e1 : (psaStep c s i).valid =
        pipeValid c.pipeline s.valid i.sig.respReady (i.sig.rdValid && psRamCmdReady c s i.sig) := by
      funext j; simp [psaStep, psRamStep, he, hr, psRamCmdReady]
    have e2 : (psaStep c s i).data = pipeData c.pipeline s.valid s.data i.sig.respReady
        (i.sig.rdValid && psRamCmdReady c s i.sig) (s.mem (i.sig.rdAddr % 2 ^ c.addrWidth)) := by
      funext j; simp [psaStep, psRamStep, he, psRamCmdReady]
    rw [← e1, ← e2] at hp
    simpa only [Bool.true_and] using hp

theorem psaWrites_cons (i : PsaIn) (is : List PsaIn) : psaWrites (i :: is) = psaWrites [i] ++ psaWrites is := by
  unfold psaWrites
  rw [← List.map_append, ← List.filter_append]; rfl

theorem ramByte_append (c : PsRamCfg) (m : UInt8) (a l : Nat) (x y : List PsRamIn) :
    ramByte c m a l (x ++ y) = ramByte c (ramByte c m a l x) a l y := by
  induction x generalizing m with
  | nil => rfl
  | cons i x ih => rw [List.cons_append, ramByte, ih, ramByte]

theorem psa_run (c : PsRamCfg) (hP : 0 < c.pipeline) (is : List PsaIn) (s : PsRam) (hr : ∀ i ∈ is, i.rstRd = false) :
    psaResponses c s is ++ pipeQ c.pipeline (psaRun c s is).valid (psaRun c s is).data =
      pipeQ c.pipeline s.valid s.data ++ (psaAccepted c 0 s is).map (psaWordAt c s is) := by
  induction is generalizing s with
  | nil => simp [psaResponses, psaRun, psaAccepted]
  | cons i is ih =>
    have h1 := ih (psaStep c s i) fun j hj => hr j (List.mem_cons_of_mem _ hj)
    have hp := psa_step c hP s i (hr i List.mem_cons_self)
    rw [psaResponses, psaRun, psaAccepted, List.append_assoc, h1, ← List.append_assoc, hp, List.append_assoc,
      List.map_append]
    congr 2
    · split
      · rfl
      · rfl
    · have := psa_accepted_shift c is (psaStep c s i) 1 0
      rw [Nat.zero_add, show (1 : Nat) = 1 + 0 from rfl, this, List.map_map]
      apply List.map_congr_left
      intro x _
      funext l
      simp only [Function.comp, psaWordAt, List.take_succ_cons]
      rw [psaWrites_cons, ramByte_append, psa_mem]

/-- With the output ready and no commands, stage `j` is empty after more than `j` edges of the read clock. -/
theorem psa_drain (c : PsRamCfg) (is : List PsaIn) (s : PsRam)
    (hq : ∀ i ∈ is, i.rstRd = false ∧ (i.rdEdge = true → i.sig.rdValid = false ∧ i.sig.respReady = true)) (n : Nat)
    (h : ∀ j < c.pipeline, j < n → s.valid j = false) :
    ∀ j < c.pipeline, j < n + (is.filter (·.rdEdge)).length → (psaRun c s is).valid j = false := by
  induction is generalizing s n with
  | nil => simpa [psaRun] using h
  | cons i is ih =>
    obtain ⟨q1, q2⟩ := hq i List.mem_cons_self
    have hq' := fun j hj => hq j (List.mem_cons_of_mem i hj)
    rw [psaRun, List.filter_cons]
    cases he : i.rdEdge with
    | false =>
      rw [if_neg (by simp)]
      refine ih _ hq' n fun j hj hn => ?_
      have e : (psaStep c s i).valid = s.valid := by simp [psaStep, he]
      rw [e]; exact h j hj hn
    | true =>
      have hd := ram_drain c [{ i.sig with rst := i.rstRd }] s (by
        intro x hx
        rw [List.mem_singleton.mp hx]
        exact ⟨q1, (q2 he).1, (q2 he).2⟩) n h
      have e : (psaStep c s i).valid = (psRamStep c s { i.sig with rst := i.rstRd }).valid := by simp [psaStep, he]
      have := ih (psaStep c s i) hq' (n + 1) (by
        intro j hj hn
        rw [e]
        exact hd.1 j hj hn)
      rw [if_pos rfl, List.length_cons]
      intro j hj hn
      exact this j hj (by omega)

end Verif.Proofs
