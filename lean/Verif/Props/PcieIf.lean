import Verif.Proofs.PcieIfProgress
/-!
C27: framing on the segmented PCIe interface is lossless.

`ifRun g sp {} es` runs any history of `send` calls, coroutine steps of the source and clock edges
with any pauses on either side, from the idle state; `sp` says whether the sink has `strb`. It is
`none` iff an assertion fails or an index is out of range.
-/
namespace Verif.Props
open Verif Verif.Model Verif.Spec Verif.Proofs

/-- C27: no assertion fails, and at any time what the sink has received is a prefix of what was sent:
same frames, same order, every field but `tlp_abort` intact. -/
theorem C27_lossless (g : IfGeo) (sp : Bool) (hS : 0 < g.segCount) (hL : 0 < g.lanes)
    (es : List IfEvent) (hs : ∀ f ∈ sent es, Sendable g f) :
    ∃ s, ifRun g sp {} es = some s ∧ s.received <+: (sent es).map delivered := by
  obtain ⟨s, h1, h2⟩ := ifInv_run g sp hS hL es [] {} (ifInv_init g sp) hs
  refine ⟨s, h1, ?_⟩
  obtain ⟨r, out, -, -, h3⟩ := h2.flow
  rw [List.nil_append] at h3
  rw [← h3, List.append_assoc, List.append_assoc]
  exact List.prefix_append _ _

/-- C27: once the source and the bus are idle, everything sent has been received. -/
theorem C27_complete (g : IfGeo) (sp : Bool) (hS : 0 < g.segCount) (hL : 0 < g.lanes)
    (es : List IfEvent) (hs : ∀ f ∈ sent es, Sendable g f) (s : IfSys) (hr : ifRun g sp {} es = some s)
    (hi : IfIdle s) : s.received = (sent es).map delivered := by
  obtain ⟨s', h1, h2⟩ := ifInv_run g sp hS hL es [] {} (ifInv_init g sp) hs
  rw [hr, Option.some.injEq] at h1
  subst h1
  simpa using ifInv_idle g sp _ s h2 hi

/-- C27: whatever happened before, once both sides stop pausing everything sent is received. -/
theorem C27_progress (g : IfGeo) (sp : Bool) (hS : 0 < g.segCount) (hL : 0 < g.lanes)
    (es : List IfEvent) (hs : ∀ f ∈ sent es, Sendable g f) :
    ∃ n, ∀ m, n ≤ m → ∃ s, ifRun g sp {} (es ++ .edge false true :: ifRounds m) = some s ∧
      IfIdle s ∧ s.received = (sent es).map delivered := by
  obtain ⟨s, h1, h2⟩ := ifInv_run g sp hS hL es [] {} (ifInv_init g sp) hs
  rw [List.nil_append] at h2
  obtain ⟨n, hn⟩ := progress g sp hS hL _ s h2
  refine ⟨n, fun m hm => ?_⟩
  obtain ⟨s', a, b, c⟩ := hn m hm
  refine ⟨s', ?_, b, c⟩
  rw [ifRun_append, h1]
  exact a

/-- A three DWORD memory write, then a memory read, then a one DWORD completion with data. -/
def exampleFrames : List TxFrame :=
  [{ hdr := 0x40000003 <<< 96 + 0x12345678, data := [1, 2, 3], parity := [1, 1, 0], bar_id := 2,
     func_num := 1, vf_num := some 7, seq := 5 },
   { hdr := 0x00000001 <<< 96 + 0xdeadbeef, tlp_prfx := 9, seq := 6 },
   { hdr := 0x4a000001 <<< 96 + 0xcafe, data := [0xffffffff], parity := [15], error := 3 }]

theorem exampleFrames_sendable : ∀ f ∈ exampleFrames, Sendable ⟨2, 2, 6⟩ f := by
  intro f hf
  simp only [exampleFrames, List.mem_cons, List.not_mem_nil, or_false] at hf
  rcases hf with rfl | rfl | rfl <;>
    exact ⟨by decide, by decide, by decide, by decide, by decide, by decide, by simp, by decide,
      by decide, by decide, by decide, by decide, by decide⟩

/-- A history that meets the hypotheses: pauses on both sides, a frame sent while another is on its
way, and the whole received at the end. -/
def exampleIf : List IfEvent :=
  (exampleFrames.take 2).map .send ++ [.build, .load, .edge true false, .edge false false, .build,
    .edge false true, .load] ++ (exampleFrames.drop 2).map .send ++ [.edge true true] ++ ifRounds 3 ++
    [.edge true false, .edge true true] ++ ifRounds 3

example : sent exampleIf = exampleFrames := rfl

example : (ifRun ⟨2, 2, 6⟩ true {} exampleIf).map (fun s => (s.received == exampleFrames, s.bus.valid)) =
    some (true, 0) := by decide +kernel

/-- C27, the exception: an abort flag set by the sender is never seen by the receiver. -/
theorem C27_abort_fails : ∃ f : TxFrame, ∃ s, Sendable ⟨1, 4, 6⟩ f ∧
    ifRun ⟨1, 4, 6⟩ true {} (.send f :: .edge false true :: ifRounds 3) = some s ∧
    IfIdle s ∧ s.received.map TxFrame.tlp_abort ≠ [f.tlp_abort] := by
  refine ⟨{ hdr := 0x40000001 <<< 96, data := [1], parity := [0], tlp_abort := 1 },
    { rx := {}, received := [{ hdr := 0x40000001 <<< 96, data := [1], parity := [0] }], ready := true,
      bus := { data := 1, strb := 1, sop := 1, eop := 1, valid := 0, hdr := 0x40000001 <<< 96 } },
    ⟨by decide, by decide, by decide, by decide, by decide, by decide, by simp, by decide,
      by decide, by decide, by decide, by decide, by decide⟩, ?_, ?_, by decide⟩
  · rfl
  · exact ⟨rfl, rfl, rfl, rfl, rfl⟩

/-- The payload must have the length that the header announces: else the sink's assertion fails. -/
example : ifRun ⟨1, 4, 6⟩ true {} (.send { hdr := 0x40000002 <<< 96, data := [1], parity := [0] } ::
    .edge false true :: ifRounds 3) = none := by rfl

end Verif.Props
