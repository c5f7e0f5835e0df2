import Verif.Proofs.Routing
/-! Properties of bridge routing. -/
namespace Verif.Props
open Verif Verif.Model Verif.Spec Verif.Proofs

/-- C23, TLPs arriving from upstream: every TLP of a known kind is kept by the bridge if addressed
to it, else forwarded downstream (configuration requests for the secondary bus as type 0) iff its
target lies behind the bridge, else not forwarded at all. Missing from C23: the unsupported
request completion in the last case, which the code does not send (`C23_unsupported_fails`). -/
theorem C23_upstream_partial (b : Bridge) (bars : List BarDesc) (hb : BarsAre b.fn bars) (t : Tlp)
    (hc : t.check = true) (hk : kind t ≠ .other) (ha : Decodable bars t.address) :
    (forBridge b bars t → b.upstreamRecv t = some .handle) ∧
    (¬ forBridge b bars t → behindBridge b t → b.upstreamRecv t = some (.down (onSecondary b t) false)) ∧
    (¬ forBridge b bars t → ¬ behindBridge b t → b.upstreamRecv t = some .drop) := by
  obtain ⟨r, hr1, hr2⟩ := hitsBar_spec b.fn bars hb t.address true ha
  obtain ⟨q, hq1, hq2⟩ := hitsBar_spec b.fn bars hb t.address false ha
  have hsec : kind t ≠ .cfg1 → onSecondary b t = t := by
    intro h; unfold onSecondary; rw [if_neg (fun h' => h h'.1)]
  unfold Bridge.upstreamRecv forBridge behindBridge
  simp only [isCfg0_eq, isCfg1_eq, isCpl_eq, isMsgId_eq, isIo_eq, isMem_eq, isMsgToRc_eq, isMsgBcast_eq,
    isMsgLocal_eq, isMsgGather_eq, hr1, hq1, hc, busBehind_iff, ioBehind_iff, memBehind_iff]
  cases hkk : kind t
  all_goals simp only [hkk, ne_eq, not_true_eq_false, reduceCtorEq, not_false_eq_true, forall_const] at hk hsec
  case mem => rw [hsec, ← hq2]; simp; cases q <;> simp <;> omega
  case io => rw [hsec, ← hr2]; simp; cases r <;> simp <;> omega
  case cfg1 => simp [toType0_eq b t hkk]
  case cpl => rw [hsec]; simp; cases b.root <;> simp <;> grind
  case msgId => rw [hsec]; simp; cases b.root <;> simp <;> grind
  all_goals simp [hsec]

/-- A bridge on bus 1 with buses 2..5, memory window 0x90000000..0x901fffff and no BARs. -/
def exampleBridge : Bridge :=
  { id := ⟨1, 0, 0⟩, pri_bus_num := 1, sec_bus_num := 2, sub_bus_num := 5,
    mem_base := 0x90000000, mem_limit := 0x901fffff, io_base := 0x1000, io_limit := 0xfff,
    prefetchable_mem_base := 0x100000, prefetchable_mem_limit := 0xfffff }

/-- A 64-byte memory read request of function 0:0.0. -/
def exampleRead (addr : Nat) : Tlp := { fmt := 0, type := 0, length := 16, address := addr, first_be := 0xf, last_be := 0xf }

theorem exampleBridgeBars : BarsAre exampleBridge.fn [.unused, .unused] :=
  ⟨fun d hd => by simp at hd; subst hd; trivial, rfl, rfl⟩

example : exampleBridge.upstreamRecv (exampleRead 0x90000040) = some (.down (exampleRead 0x90000040) false) :=
  (C23_upstream_partial exampleBridge _ exampleBridgeBars _ (by decide +kernel) (by decide)
    ⟨by decide, .inl (by decide)⟩).2.1 (by simp [forBridge, exampleRead, kind, claimedBy, BarDesc.window])
    (by simp [behindBridge, exampleRead, kind, exampleBridge])

/-- C23: a read request that is for neither the bridge nor anything behind it is dropped without an
unsupported-request completion (line 2677 is `pass`), so the requester waits forever. -/
theorem C23_unsupported_fails : ∃ (b : Bridge) (bars : List BarDesc) (t : Tlp),
    BarsAre b.fn bars ∧ t.check = true ∧ nonPosted t ∧ ¬ forBridge b bars t ∧ ¬ behindBridge b t ∧
      b.upstreamRecv t = some .drop := by
  refine ⟨exampleBridge, _, exampleRead 0x1000, exampleBridgeBars, by decide +kernel, ?_, ?_, ?_, by decide +kernel⟩
  · simp [nonPosted, exampleRead, kind]
  · simp [forBridge, exampleRead, kind, claimedBy, BarDesc.window]
  · simp [behindBridge, exampleRead, kind, exampleBridge]

/-- The TLP is routed by ID to device 0 of the root's primary bus, i.e. to the root complex. -/
def toRootComplex (b : Bridge) (t : Tlp) : Prop :=
  b.root = true ∧
    ((kind t = .cpl ∧ t.requester_id.bus = b.pri_bus_num ∧ t.requester_id.device = 0) ∨
     (kind t = .msgId ∧ t.dest_id.bus = b.pri_bus_num ∧ t.dest_id.device = 0))

/-- C23, TLPs arriving from downstream (or sent by the bridge itself): address and ID routed TLPs
and messages to the root complex are kept by the bridge if addressed to it, turned around iff the
target lies behind the bridge (and is not the root complex itself), else sent upstream.
Configuration requests, broadcast and local messages never go upstream. -/
theorem C23_downstream (b : Bridge) (bars : List BarDesc) (hb : BarsAre b.fn bars) (t : Tlp)
    (hc : t.check = true) (ha : Decodable bars t.address) :
    (kind t ∈ [Kind.mem, .io, .cpl, .msgId, .msgToRc] →
      (forBridge b bars t → b.downstreamRecv t = some .handle) ∧
      (¬ forBridge b bars t → behindBridge b t → ¬ toRootComplex b t →
        b.downstreamRecv t = some (.down t true)) ∧
      (¬ forBridge b bars t → (¬ behindBridge b t ∨ toRootComplex b t) → b.downstreamRecv t = some .up)) ∧
    (kind t ∈ [Kind.cfg0, .cfg1, .msgBcast, .msgLocal] → b.downstreamRecv t = some .drop) := by
  obtain ⟨r, hr1, hr2⟩ := hitsBar_spec b.fn bars hb t.address true ha
  obtain ⟨q, hq1, hq2⟩ := hitsBar_spec b.fn bars hb t.address false ha
  unfold Bridge.downstreamRecv forBridge behindBridge toRootComplex
  simp only [isCfg0_eq, isCfg1_eq, isCpl_eq, isMsgId_eq, isIo_eq, isMem_eq, isMsgToRc_eq, isMsgBcast_eq,
    isMsgLocal_eq, isMsgGather_eq, hr1, hq1, hc, busBehind_iff, ioBehind_iff, memBehind_iff]
  cases hkk : kind t
  case mem => rw [← hq2]; simp; cases q <;> simp <;> omega
  case io => rw [← hr2]; simp; cases r <;> simp <;> omega
  case cpl => simp; cases b.root <;> simp <;> grind
  case msgId => simp; cases b.root <;> simp <;> grind
  all_goals simp

example : exampleBridge.downstreamRecv (exampleRead 0x1000) = some .up :=
  ((C23_downstream exampleBridge _ exampleBridgeBars _ (by decide +kernel) ⟨by decide, .inl (by decide)⟩).1
    (by simp [exampleRead, kind])).2.2 (by simp [forBridge, exampleRead, kind, claimedBy, BarDesc.window])
    (.inl (by simp [behindBridge, exampleRead, kind, exampleBridge]))

/-- C23, inside a switch: a port takes a request or completion exactly if it is for the port itself
or for something behind it; a type 0 configuration request is matched by device and function
number. Missing: ID routed messages (`C23_message_fails`). -/
theorem C23_switch_port_partial (b : Bridge) (bars : List BarDesc) (hb : BarsAre b.fn bars) (t : Tlp)
    (ha : Decodable bars t.address) (hroot : b.root = false) :
    (kind t = .cfg0 → (b.claims t = some true ↔
      t.dest_id.device = b.id.device ∧ t.dest_id.function = b.id.function)) ∧
    (kind t ∈ [Kind.mem, .io, .cfg1, .cpl] →
      (b.claims t = some true ↔ forBridge b bars t ∨ behindBridge b t)) ∧
    (kind t ≠ .other → b.claims t ≠ none) := by
  obtain ⟨r, hr1, hr2⟩ := hitsBar_spec b.fn bars hb t.address true ha
  obtain ⟨q, hq1, hq2⟩ := hitsBar_spec b.fn bars hb t.address false ha
  unfold Bridge.claims forBridge behindBridge
  simp only [isCfg0_eq, isCfg1_eq, isCpl_eq, isMsgId_eq, isIo_eq, isMem_eq, isMsgToRc_eq, isMsgBcast_eq,
    isMsgLocal_eq, isMsgGather_eq, hr1, hq1, hroot, ← hr2, ← hq2]
  cases hkk : kind t
  all_goals simp [busBehind_iff, ioBehind_iff, memBehind_iff]

example : exampleBridge.claims (exampleRead 0x90000040) = some true :=
  ((C23_switch_port_partial exampleBridge _ exampleBridgeBars _ ⟨by decide, .inl (by decide)⟩ rfl).2.1
    (by simp [exampleRead, kind])).2 (.inr (by simp [behindBridge, exampleRead, kind, exampleBridge]))

/-- C23: a switch compares the *requester* of an ID routed message with the bus range of its ports
(line 2826), so a message for a bus behind a port is not forwarded to it. -/
theorem C23_message_fails : ∃ (b : Bridge) (bars : List BarDesc) (t : Tlp),
    BarsAre b.fn bars ∧ t.check = true ∧ kind t = .msgId ∧ behindBridge b t ∧ b.claims t = some false := by
  refine ⟨exampleBridge, _, { fmt := 1, type := 0x12, dest_id := ⟨3, 0, 0⟩ }, exampleBridgeBars, by decide +kernel,
    by decide, ?_, by decide +kernel⟩
  simp [behindBridge, kind, exampleBridge]

end Verif.Props
