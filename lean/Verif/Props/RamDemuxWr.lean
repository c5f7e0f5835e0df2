import Verif.Proofs.RamDemuxWr
/-! C38: the RAM write demultiplexer reports completion once per command, in order. -/
namespace Verif.Props
open Verif Verif.Model Verif.Spec Verif.Proofs

theorem wrFor_eq (c : DemuxCfg) (p : Nat) (l : List WrCmd) : wrFor c p l = ofPort p (l.map (wrTag c)) := by
  induction l with
  | nil => rfl
  | cons x l ih =>
    unfold wrFor ofPort at ih ⊢
    by_cases hp : selPort c x.sel = p
    · simp [wrTag, demuxSelect_eq, demuxSel, hp] at ih ⊢; exact ih
    · simp [wrTag, demuxSelect_eq, hp] at ih ⊢; exact ih

/-- Ports are honest, stated for a history after a reset. -/
theorem wrHonest_of {c : DemuxCfg} {s : WrDemux} {is : List WrDemuxIn}
    (hd : ∀ k, ∀ p < c.ports, wrPortDone p (is.take k) ≤ (wrForwarded c p s (is.take k)).length) :
    WrHonest c [] (fun _ => 0) s is := by
  intro k p hp
  simpa [ofPort_nil] using hd k p hp

/-- **C38.** After a reset, for every history in which no port reports more completions than it has
taken commands: the commands a port has taken are the accepted commands that select it, in order, each
once, except for at most two that are still inside. -/
theorem C38_forwarded (c : DemuxCfg) (s : WrDemux) (r : WrDemuxIn) (hr : r.rst = true)
    (is : List WrDemuxIn) (hi : ∀ i ∈ is, i.rst = false) (hs : WrSelOk c is)
    (hd : ∀ k, ∀ p < c.ports, wrPortDone p (is.take k) ≤ (wrForwarded c p (wrDemuxStep c s r) (is.take k)).length)
    (p : Nat) :
    ∃ inside, inside.length ≤ 2 ∧
      wrFor c p (wrAccepted c (wrDemuxStep c s r) is) = wrForwarded c p (wrDemuxStep c s r) is ++ inside := by
  have h := wr_run c is _ _ _ _ _ hi hs (wr_reset c s r hr) (wrHonest_of hd)
  simp only [List.nil_append] at h
  refine ⟨ofPort p (skidQ (wrDemuxRun c (wrDemuxStep c s r) is).skid), ?_, ?_⟩
  · have h1 := skidQ_length (wrDemuxRun c (wrDemuxStep c s r) is).skid
    have h2 : (ofPort p (skidQ (wrDemuxRun c (wrDemuxStep c s r) is).skid)).length ≤
        (skidQ (wrDemuxRun c (wrDemuxStep c s r) is).skid).length := by
      rw [ofPort, List.length_map]; exact List.length_filter_le ..
    omega
  · rw [wrFor_eq, ← h.fwd, ofPort_append, wrForwarded_eq]

/-- **C38.** Completions are reported in command order and only when they have happened: if `n`
completions have been reported, there are at least `n` accepted commands, and each port has completed at
least as many commands as it has among the first `n`. -/
theorem C38_order (c : DemuxCfg) (s : WrDemux) (r : WrDemuxIn) (hr : r.rst = true)
    (is : List WrDemuxIn) (hi : ∀ i ∈ is, i.rst = false) (hs : WrSelOk c is)
    (hd : ∀ k, ∀ p < c.ports, wrPortDone p (is.take k) ≤ (wrForwarded c p (wrDemuxStep c s r) (is.take k)).length) :
    wrReported c (wrDemuxStep c s r) is ≤ (wrAccepted c (wrDemuxStep c s r) is).length ∧
    ∀ p < c.ports,
      (wrFor c p ((wrAccepted c (wrDemuxStep c s r) is).take (wrReported c (wrDemuxStep c s r) is))).length ≤
        wrPortDone p is := by
  have h := wr_run c is _ _ _ _ _ hi hs (wr_reset c s r hr) (wrHonest_of hd)
  simp only [List.nil_append] at h
  have hord := h.order
  constructor
  · have := congrArg List.length hord
    simp only [List.length_append, List.length_map, wrRepT_length] at this
    omega
  · intro p hp
    have e : ((wrAccepted c (wrDemuxStep c s r) is).take (wrReported c (wrDemuxStep c s r) is)).map
        (fun x => (wrTag c x).1) = wrRepT c (wrDemuxStep c s r) is := by
      have h2 : (wrAccepted c (wrDemuxStep c s r) is).map (fun x => (wrTag c x).1) =
          ((wrAccepted c (wrDemuxStep c s r) is).map (wrTag c)).map (·.1) := by rw [List.map_map]; rfl
      rw [List.map_take, h2, ← hord, List.append_assoc, List.take_left' (wrRepT_length c is _)]
    rw [wrFor_eq, ofPort_length, List.map_map]
    have e' := h.cnt p hp
    have : ((fun x => x.1) ∘ wrTag c) = fun x => (wrTag c x).1 := rfl
    rw [this, e]
    omega

/-- **C38.** No completion is lost: when no further commands come in, the ports are ready, and each port
reports a completion whenever it has taken more commands than it has completed, then after 103 cycles
every accepted command has been taken by its port, and exactly one completion has been reported for each
accepted command. -/
theorem C38_drain (c : DemuxCfg) (s : WrDemux) (r : WrDemuxIn) (hr : r.rst = true)
    (is quiet : List WrDemuxIn) (hi : ∀ i ∈ is, i.rst = false) (hs : WrSelOk c is)
    (hq : ∀ i ∈ quiet, i.rst = false ∧ i.cmdValid = false ∧ (∀ p < c.ports, i.ramReady p = true))
    (hd : ∀ k, ∀ p < c.ports, wrPortDone p ((is ++ quiet).take k) ≤
      (wrForwarded c p (wrDemuxStep c s r) ((is ++ quiet).take k)).length)
    (ha : ∀ k i, quiet[k]? = some i → ∀ p < c.ports,
      wrPortDone p (is ++ quiet.take k) < (wrForwarded c p (wrDemuxStep c s r) (is ++ quiet.take k)).length →
        i.ramDone p = true)
    (hl : 103 ≤ quiet.length) :
    (∀ p, wrForwarded c p (wrDemuxStep c s r) (is ++ quiet) = wrFor c p (wrAccepted c (wrDemuxStep c s r) is)) ∧
    wrReported c (wrDemuxStep c s r) (is ++ quiet) = (wrAccepted c (wrDemuxStep c s r) is).length := by
  have hd1 : ∀ k, ∀ p < c.ports, wrPortDone p (is.take k) ≤
      (wrForwarded c p (wrDemuxStep c s r) (is.take k)).length := by
    intro k p hp
    have := hd (min k is.length) p hp
    rwa [List.take_append_of_le_length (by omega), ← List.take_eq_take_min] at this
  have h := wr_run c is _ _ _ _ _ hi hs (wr_reset c s r hr) (wrHonest_of hd1)
  simp only [List.nil_append, Nat.zero_add] at h
  have hdr := wr_drain c quiet _ _ _ _ _ hq h (by
    intro k p hp
    have := hd (is.length + k) p hp
    rw [List.take_length_add_append, wrPortDone_append, wrForwarded_append, wrForwarded_eq c p is] at this
    exact this) (by
    intro k i hk p hp hlt
    apply ha k i hk p hp
    rw [wrPortDone_append, wrForwarded_append, wrForwarded_eq c p is]
    exact hlt) (Or.inr (by have := wrWork_le c _ _ _ _ _ h; omega))
  have h2 := wr_run c (is ++ quiet) _ _ _ _ _
    (fun i hm => by
      rw [List.mem_append] at hm
      rcases hm with hm | hm
      · exact hi i hm
      · exact (hq i hm).1)
    (fun i hm hv => by
      rw [List.mem_append] at hm
      rcases hm with hm | hm
      · exact hs i hm hv
      · rw [(hq i hm).2.1] at hv; simp at hv) (wr_reset c s r hr) (wrHonest_of hd)
  simp only [List.nil_append] at h2
  have hacc : wrAccepted c (wrDemuxStep c s r) (is ++ quiet) = wrAccepted c (wrDemuxStep c s r) is := by
    rw [wrAccepted_append, hdr.2, List.append_nil]
  have hrun : wrIdle (wrDemuxRun c (wrDemuxStep c s r) (is ++ quiet)) := by
    rw [wrDemuxRun_append]; exact hdr.1
  obtain ⟨z1, z2, z3⟩ := hrun
  rw [hacc] at h2
  constructor
  · intro p
    rw [wrFor_eq, ← h2.fwd, z1, List.append_nil, wrForwarded_eq]
  · have l1 := congrArg List.length h2.order
    simp only [List.length_append, List.length_map, ringList_length, wrRepT_length, z2, z3] at l1
    simpa using l1

/-- Two ports; port 0 completes its command before port 1, whose command is the older one: nothing is
reported until port 1 has completed. -/
def wrExCfg : DemuxCfg := ⟨2, 1, 2⟩
def wrExIn (n : Nat) : WrDemuxIn :=
  { cmdValid := n == 1 || n == 2
    cmd := if n == 1 then ⟨3, 15, 7, 1⟩ else ⟨0, 15, 5, 2⟩
    ramReady := fun _ => true
    ramDone := fun p => if p == 1 then n == 10 else n == 4 }
def wrEx0 : WrDemux := wrDemuxStep wrExCfg
  { skid := { out := (0, ⟨0, 0, 0, 0⟩), temp := (0, ⟨0, 0, 0, 0⟩) }, fifo := { mem := fun _ => 0 },
    count := fun _ => 3, done := fun _ => true }
  { wrExIn 0 with rst := true }
example : wrReported wrExCfg wrEx0 ((List.range 11).map wrExIn) = 0 ∧
    wrReported wrExCfg wrEx0 ((List.range 20).map wrExIn) = 2 ∧
    wrForwarded wrExCfg 1 wrEx0 ((List.range 20).map wrExIn) = [⟨1, 15, 7, 1⟩] ∧
    wrForwarded wrExCfg 0 wrEx0 ((List.range 20).map wrExIn) = [⟨0, 15, 5, 2⟩] := by decide +kernel
example : ∀ k < 21, ∀ p < 2, wrPortDone p (((List.range 20).map wrExIn).take k) ≤
    (wrForwarded wrExCfg p wrEx0 (((List.range 20).map wrExIn).take k)).length := by decide +kernel

end Verif.Props
