import Verif.Proofs.RamDemuxRd
/-! C37: the RAM read demultiplexer returns responses in command order. -/
namespace Verif.Props
open Verif Verif.Model Verif.Spec Verif.Proofs

theorem rdFor_eq (c : DemuxCfg) (p : Nat) (l : List RdCmd) : rdFor c p l = ofPort p (l.map (rdTag c)) := by
  induction l with
  | nil => rfl
  | cons x l ih =>
    unfold rdFor ofPort at ih ⊢
    by_cases hp : selPort c x.sel = p
    · simp [rdTag, demuxSelect_eq, demuxSel, hp] at ih ⊢; exact ih
    · simp [rdTag, demuxSelect_eq, hp] at ih ⊢; exact ih

/-- **C37.** After a reset, for every history: the commands a port has taken are the accepted commands
that select it, in order, each once, except for at most two that are still inside. -/
theorem C37_forwarded {δ : Type} (c : DemuxCfg) (s : RdDemux δ) (r : RdDemuxIn δ) (hr : r.rst = true)
    (is : List (RdDemuxIn δ)) (hi : ∀ i ∈ is, i.rst = false) (hs : RdSelOk c is) (p : Nat) :
    ∃ inside, inside.length ≤ 2 ∧
      rdFor c p (rdAccepted c (rdDemuxStep c s r) is) = rdForwarded c p (rdDemuxStep c s r) is ++ inside := by
  have h := rd_run c is _ _ _ _ _ hi hs (rd_reset c s r hr)
  simp only [List.nil_append] at h
  refine ⟨ofPort p (skidQ (rdDemuxRun c (rdDemuxStep c s r) is).skid), ?_, ?_⟩
  · have h1 := skidQ_length (rdDemuxRun c (rdDemuxStep c s r) is).skid
    have h2 : (ofPort p (skidQ (rdDemuxRun c (rdDemuxStep c s r) is).skid)).length ≤
        (skidQ (rdDemuxRun c (rdDemuxStep c s r) is).skid).length := by
      rw [ofPort, List.length_map]; exact List.length_filter_le ..
    omega
  · rw [rdFor_eq, ← h.fwd, ofPort_append, rdForwarded_eq]

/-- **C37.** After a reset, for every history and whatever the ports do, there is a list `t` of (port,
response) pairs, the responses in the order in which they are taken from the ports, such that the `k`-th
of them comes from the port of the `k`-th accepted command; they are delivered in this order, each once,
except for at most 18 that are still inside; and at most 32 commands are without a response. -/
theorem C37_order {δ : Type} (c : DemuxCfg) (s : RdDemux δ) (r : RdDemuxIn δ) (hr : r.rst = true)
    (is : List (RdDemuxIn δ)) (hi : ∀ i ∈ is, i.rst = false) (hs : RdSelOk c is) :
    ∃ (t : List (Nat × δ)) (inside : List δ),
      (∀ p, ofPort p t = rdTaken c p (rdDemuxStep c s r) is) ∧
      t.map (·.1) =
        ((rdAccepted c (rdDemuxStep c s r) is).map fun x => selPort c x.sel).take t.length ∧
      (rdAccepted c (rdDemuxStep c s r) is).length ≤ t.length + 32 ∧
      t.map (·.2) = rdDelivered c (rdDemuxStep c s r) is ++ inside ∧ inside.length ≤ 18 := by
  have h := rd_run c is _ _ _ _ _ hi hs (rd_reset c s r hr)
  simp only [List.nil_append] at h
  refine ⟨rdTakenT c (rdDemuxStep c s r) is, outQ 5 (rdDemuxRun c (rdDemuxStep c s r) is).out,
    fun p => (rdTaken_eq c p is _).symm, ?_, ?_, h.dlv.symm, outQ_length 5 _ h.out⟩
  · have e : ((rdAccepted c (rdDemuxStep c s r) is).map fun x => selPort c x.sel) =
        ((rdAccepted c (rdDemuxStep c s r) is).map (rdTag c)).map (·.1) := by
      rw [List.map_map]; exact List.map_congr_left fun x _ => (demuxSelect_eq c x.sel).symm
    rw [e, ← h.order, List.take_left' (by simp)]
  · have := congrArg List.length h.order
    simp only [List.length_append, List.length_map, ringList_length] at this
    have hc := h.ring.count
    omega

/-- Pairs of a port and an answer, in the port order of the commands, where every port answers in its
own order, are the answers to the commands. -/
theorem rd_answers_aux {δ : Type} (g : Nat → RdCmd → δ) (t : List (Nat × δ)) (a : List (Nat × RdCmd))
    (h1 : t.map (·.1) <+: a.map (·.1)) (h2 : ∀ p, ofPort p t <+: (ofPort p a).map (g p)) :
    t.map (·.2) <+: a.map fun x => g x.1 x.2 := by
  induction t generalizing a with
  | nil => exact List.nil_prefix
  | cons x t ih =>
    cases a with
    | nil => simp at h1
    | cons y a =>
      simp only [List.map_cons, List.cons_prefix_cons] at h1 ⊢
      have hx := h2 x.1
      have e1 : ofPort x.1 (x :: t) = x.2 :: ofPort x.1 t := by simp [ofPort]
      have e2 : ofPort x.1 (y :: a) = y.2 :: ofPort x.1 a := by simp [ofPort, h1.1]
      rw [e1, e2, List.map_cons, List.cons_prefix_cons] at hx
      refine ⟨by rw [← h1.1]; exact hx.1, ih a h1.2 fun p => ?_⟩
      have hp := h2 p
      by_cases hpe : p = x.1
      · subst hpe; exact hx.2
      · have n1 : ofPort p (x :: t) = ofPort p t := by
          have : (x.1 == p) = false := by simpa using fun e => hpe e.symm
          simp [ofPort, this]
        have n2 : ofPort p (y :: a) = ofPort p a := by
          have : (y.1 == p) = false := by rw [← h1.1]; simpa using fun e => hpe e.symm
          simp [ofPort, this]
        rw [n1, n2] at hp; exact hp

/-- **C37.** If every port answers its commands in order, command `x` with `g p x`, the controller gets
the answers to its commands in the order of the commands, whatever the latencies of the ports. -/
theorem C37_answers {δ : Type} (c : DemuxCfg) (s : RdDemux δ) (r : RdDemuxIn δ) (hr : r.rst = true)
    (is : List (RdDemuxIn δ)) (hi : ∀ i ∈ is, i.rst = false) (hs : RdSelOk c is) (g : Nat → RdCmd → δ)
    (hg : ∀ p, rdTaken c p (rdDemuxStep c s r) is <+: (rdForwarded c p (rdDemuxStep c s r) is).map (g p)) :
    rdDelivered c (rdDemuxStep c s r) is <+:
      (rdAccepted c (rdDemuxStep c s r) is).map fun x => g (selPort c x.sel) ⟨x.sel % 2 ^ c.sSel, x.addr⟩ := by
  have h := rd_run c is _ _ _ _ _ hi hs (rd_reset c s r hr)
  simp only [List.nil_append] at h
  have h1 := rd_answers_aux g (rdTakenT c (rdDemuxStep c s r) is)
    ((rdAccepted c (rdDemuxStep c s r) is).map (rdTag c)) ⟨_, h.order⟩ (fun p => by
      have := hg p
      rw [rdTaken_eq, rdForwarded_eq] at this
      refine this.trans ?_
      rw [← h.fwd, ofPort_append, List.map_append]
      exact List.prefix_append ..)
  rw [List.map_map] at h1
  simp only [← demuxSelect_eq]
  exact List.IsPrefix.trans ⟨_, h.dlv⟩ h1

/-- **C37.** No command is kept back and no response is lost: when no further commands come in, the
ports and the controller are ready, and each port offers a response whenever it has taken more commands
than it has answered, then after 183 cycles every accepted command has been taken by its port and has
its response delivered. -/
theorem C37_drain {δ : Type} (c : DemuxCfg) (s : RdDemux δ) (r : RdDemuxIn δ) (hr : r.rst = true)
    (is quiet : List (RdDemuxIn δ)) (hi : ∀ i ∈ is, i.rst = false) (hs : RdSelOk c is)
    (hq : ∀ i ∈ quiet, i.rst = false ∧ i.cmdValid = false ∧ (∀ p < c.ports, i.ramReady p = true) ∧
      i.respReady = true)
    (ha : ∀ k i, quiet[k]? = some i → ∀ p < c.ports,
      (rdTaken c p (rdDemuxStep c s r) (is ++ quiet.take k)).length <
        (rdForwarded c p (rdDemuxStep c s r) (is ++ quiet.take k)).length → i.respValid p = true)
    (hl : 183 ≤ quiet.length) :
    (∀ p, rdForwarded c p (rdDemuxStep c s r) (is ++ quiet) = rdFor c p (rdAccepted c (rdDemuxStep c s r) is)) ∧
    (rdDelivered c (rdDemuxStep c s r) (is ++ quiet)).length = (rdAccepted c (rdDemuxStep c s r) is).length := by
  have h := rd_run c is _ _ _ _ _ hi hs (rd_reset c s r hr)
  simp only [List.nil_append] at h
  have hd := rd_drain c quiet _ _ _ _ _ hq h (by
    intro k i hk p hp hlt
    apply ha k i hk p hp
    rw [rdTaken_append, rdForwarded_append, rdTaken_eq c p is, rdForwarded_eq c p is]
    exact hlt) (Nat.le_trans (rdWork_le c _ _ _ _ _ h) hl)
  have h2 := rd_run c (is ++ quiet) _ _ _ _ _
    (fun i hm => by
      rw [List.mem_append] at hm
      rcases hm with hm | hm
      · exact hi i hm
      · exact (hq i hm).1)
    (fun i hm hv => by
      rw [List.mem_append] at hm
      rcases hm with hm | hm
      · exact hs i hm hv
      · rw [(hq i hm).2.1] at hv; simp at hv) (rd_reset c s r hr)
  simp only [List.nil_append] at h2
  have hacc : rdAccepted c (rdDemuxStep c s r) (is ++ quiet) = rdAccepted c (rdDemuxStep c s r) is := by
    rw [rdAccepted_append, hd.2, List.append_nil]
  have hrun : rdWork (rdDemuxRun c (rdDemuxStep c s r) (is ++ quiet)) = 0 := by
    rw [rdDemuxRun_append]; exact hd.1
  unfold rdWork at hrun
  have z1 : skidQ (rdDemuxRun c (rdDemuxStep c s r) (is ++ quiet)).skid = [] :=
    List.length_eq_zero_iff.mp (by omega)
  rw [hacc] at h2
  constructor
  · intro p
    rw [rdFor_eq, ← h2.fwd, z1, List.append_nil, rdForwarded_eq]
  · have l1 := congrArg List.length h2.order
    have l2 := congrArg List.length h2.dlv
    simp only [List.length_append, List.length_map, ringList_length, outQ] at l1 l2
    have z4 : (rdDemuxRun c (rdDemuxStep c s r) (is ++ quiet)).out.valid = false := by
      cases hv : (rdDemuxRun c (rdDemuxStep c s r) (is ++ quiet)).out.valid with
      | false => rfl
      | true => rw [hv] at hrun; simp at hrun
    rw [z4] at l2
    simp at l2
    omega

/-- **C37.** When the number of ports is a power of two, every select value names a port. -/
theorem C37_select (c : DemuxCfg) (k : Nat) (hk : c.ports = 2 ^ k) (sel : Nat) : selPort c sel < c.ports := by
  rw [← demuxSelect_eq]
  unfold demuxSelect
  split
  · rw [hk, clog2_pow]; exact Nat.mod_lt _ (Nat.two_pow_pos _)
  · rw [hk]; exact Nat.two_pow_pos _

/-- Two ports; the port of the first command answers later than that of the second: the first command
is still answered first. -/
def rdExCfg : DemuxCfg := ⟨2, 1, 2⟩
def rdExIn (n : Nat) : RdDemuxIn Nat :=
  { cmdValid := n == 1 || n == 2
    cmd := if n == 1 then ⟨3, 7⟩ else ⟨0, 5⟩
    ramReady := fun _ => true
    respValid := fun p => if p == 1 then n == 10 else n == 4 || n == 5 || n == 6 || n == 7 || n == 8 || n == 9 || n == 10 || n == 11
    respData := fun p => 100 * p
    respReady := true }
def rdEx0 : RdDemux Nat := rdDemuxStep rdExCfg
  { skid := { out := (0, ⟨0, 0⟩), temp := (0, ⟨0, 0⟩) }, fifo := { mem := fun _ => 0 },
    out := { ring := { mem := fun _ => 0 }, out := 0 } }
  { rdExIn 0 with rst := true }
example : rdDelivered rdExCfg rdEx0 ((List.range 20).map rdExIn) = [100, 0] := by decide +kernel
example : rdForwarded rdExCfg 1 rdEx0 ((List.range 20).map rdExIn) = [⟨1, 7⟩] := by decide +kernel
example : RdSelOk rdExCfg ((List.range 20).map rdExIn) := fun i _ _ => C37_select rdExCfg 1 rfl _

end Verif.Props
