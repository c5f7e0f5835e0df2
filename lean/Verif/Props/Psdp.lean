import Verif.Proofs.PsdpRead
/-!
C28: the segmented (parallel simple dual port) RAM bus behaves as a flat memory.

`wrRun g aw s es` and `rdRun g aw mem s es` run any history of submitted commands, clock edges with
any pauses on either side, and response-collection steps. They are `none` iff a `write` or `read`
call raises.
-/
namespace Verif.Props
open Verif Verif.Model Verif.Spec Verif.Proofs

/-- Two segments of four bytes, three address bits each: 64 bytes. -/
def exampleGeo : SegGeo := ⟨2, 4, 3⟩

theorem addressWidth_pow2 (g : SegGeo) (b : Nat) (h : g.segBytes * g.segCount = 2 ^ b) :
    2 ^ g.addressWidth = 2 ^ g.segAddrW * g.byteLanes := by
  unfold SegGeo.addressWidth SegGeo.byteLanes
  rw [h, Nat.pow_add]
  congr 2
  unfold bitLength
  split
  · cases b with
    | zero => rfl
    | succ b => have := Nat.two_pow_pos b; rw [Nat.pow_succ] at *; omega
  · rename_i h0
    cases b with
    | zero => simp at h0
    | succ b =>
      have h1 : Nat.log2 (2 ^ (b + 1) - 1) < b + 1 := (Nat.log2_lt h0).mpr (by have := Nat.two_pow_pos (b+1); omega)
      have h2 : b ≤ Nat.log2 (2 ^ (b + 1) - 1) := (Nat.le_log2 h0).mpr (by
        have := Nat.two_pow_pos b; rw [Nat.pow_succ]; omega)
      omega

/-- C28, calls: a history runs unless some write is out of the address range. -/
theorem C28_write_accepts (g : SegGeo) (hW : 0 < g.segBytes) (m0 : Mem) (es : List WrEvent) :
    (wrRun g g.addressWidth { mem := m0 } es).isSome ↔
      ∀ c ∈ submitted es, c.1 < 2 ^ g.addressWidth ∧ c.1 + c.2.length ≤ 2 ^ g.addressWidth :=
  wrRun_some g _ hW es _

/-- C28, writes: after any history, every byte of the RAM is what a flat memory holds after some
prefix of the submitted writes that includes all the completed ones.
Partial: the total number of byte lanes must be a power of two, see `C28_geometry_fails`. -/
theorem C28_write_partial (g : SegGeo) (b : Nat) (hg : g.segBytes * g.segCount = 2 ^ b) (m0 : Mem)
    (es : List WrEvent) (s : WrSys) (hs : wrRun g g.addressWidth { mem := m0 } es = some s) (x : Nat) :
    ∃ n, s.completed ≤ n ∧ n ≤ (submitted es).length ∧ s.mem x = flat m0 ((submitted es).take n) x := by
  have hp := Nat.two_pow_pos b
  have hW : 0 < g.segBytes := Nat.pos_of_ne_zero (fun h => by rw [h, Nat.zero_mul] at hg; omega)
  have hS : 0 < g.segCount := Nat.pos_of_ne_zero (fun h => by rw [h, Nat.mul_zero] at hg; omega)
  have hr := (wrRun_some g g.addressWidth hW es { mem := m0 }).mp (by rw [hs]; rfl)
  obtain ⟨D, P, k, E, e, hi⟩ := wrInv_run g m0 _ hS hW es [] [] 0 _ _ s (wrInv_init g m0)
    (fun c hc => by unfold InRam; rw [← addressWidth_pow2 g b hg]; exact (hr c hc).2) hs
  obtain ⟨n, h1, h2, h3⟩ := wrInv_value g m0 D P k E s hS hW hi x
  rw [e] at h2 h3
  exact ⟨n, h1, by simpa using h2, by rw [h3, flat, foldl_store]; rfl⟩

/-- C28, writes: when all writes have completed, the RAM is the flat memory after all of them. -/
theorem C28_write_all_partial (g : SegGeo) (b : Nat) (hg : g.segBytes * g.segCount = 2 ^ b) (m0 : Mem)
    (es : List WrEvent) (s : WrSys) (hs : wrRun g g.addressWidth { mem := m0 } es = some s)
    (hc : s.completed = (submitted es).length) : s.mem = flat m0 (submitted es) := by
  funext x
  obtain ⟨n, h1, h2, h3⟩ := C28_write_partial g b hg m0 es s hs x
  rw [h3, List.take_of_length_le (by omega)]

/-- C28, writes: no more writes complete than were submitted. -/
theorem C28_write_completed_partial (g : SegGeo) (b : Nat) (hg : g.segBytes * g.segCount = 2 ^ b)
    (m0 : Mem) (es : List WrEvent) (s : WrSys)
    (hs : wrRun g g.addressWidth { mem := m0 } es = some s) : s.completed ≤ (submitted es).length := by
  obtain ⟨n, h1, h2, -⟩ := C28_write_partial g b hg m0 es s hs 0
  omega

/-- C28, writes: no history gets stuck; some clock edges without pauses followed by some
response-collection steps complete every write. -/
theorem C28_write_progress_partial (g : SegGeo) (b : Nat) (hg : g.segBytes * g.segCount = 2 ^ b)
    (m0 : Mem) (es : List WrEvent) (s : WrSys)
    (hs : wrRun g g.addressWidth { mem := m0 } es = some s) :
    ∃ n k s', wrRun g g.addressWidth s
      (List.replicate n (.edge false false) ++ List.replicate k .resp) = some s' ∧
      s'.completed = (submitted es).length := by
  have hp := Nat.two_pow_pos b
  have hW : 0 < g.segBytes := Nat.pos_of_ne_zero (fun h => by rw [h, Nat.zero_mul] at hg; omega)
  have hS : 0 < g.segCount := Nat.pos_of_ne_zero (fun h => by rw [h, Nat.mul_zero] at hg; omega)
  have hr := (wrRun_some g g.addressWidth hW es { mem := m0 }).mp (by rw [hs]; rfl)
  obtain ⟨D, P, k, E, e, hi⟩ := wrInv_run g m0 _ hS hW es [] [] 0 _ _ s (wrInv_init g m0)
    (fun c hc => by unfold InRam; rw [← addressWidth_pow2 g b hg]; exact (hr c hc).2) hs
  obtain ⟨n, M, s', h1, h2⟩ := wrDrain g m0 g.addressWidth hS hW D P k E s hi
  exact ⟨n, M, s', h1, by rw [h2, e]; rfl⟩

/-- A history with an overlapping pair of unaligned writes, with pauses, that completes. -/
def exampleWrites : List WrEvent :=
  [.submit 3 [1, 2, 3, 4, 5, 6, 7], .edge true false, .edge false true, .submit 8 [9, 10],
   .edge false false, .edge false false, .resp, .edge true false, .edge false false, .edge false false,
   .edge false false, .edge false false, .resp, .resp, .resp, .resp, .resp, .resp, .resp]

example : exampleGeo.segBytes * exampleGeo.segCount = 2 ^ 3 ∧ exampleGeo.addressWidth = 6 := by decide
example : (wrRun exampleGeo exampleGeo.addressWidth { mem := fun _ => 0 } exampleWrites).map
    (fun s => (s.completed, (List.range 12).map s.mem)) =
    some (2, [0, 0, 0, 1, 2, 3, 4, 5, 9, 10, 0, 0]) := by decide +kernel
/-- In the middle of the history the bytes come from different prefixes. -/
example : (wrRun exampleGeo exampleGeo.addressWidth { mem := fun _ => 0 } (exampleWrites.take 6)).map
    (fun s => (s.completed, (List.range 12).map s.mem)) =
    some (0, [0, 0, 0, 1, 2, 3, 4, 5, 0, 0, 0, 0]) := by decide +kernel

/-- C28, geometry: with three byte lanes a write that passes the range check is performed at another
address, since the address width is rounded up. -/
theorem C28_geometry_fails : ∃ (g : SegGeo) (es : List WrEvent) (s : WrSys),
    0 < g.segBytes ∧ 0 < g.segCount ∧ wrRun g g.addressWidth { mem := fun _ => 0 } es = some s ∧
    s.completed = (submitted es).length ∧ s.mem 0 ≠ flat (fun _ => 0) (submitted es) 0 := by
  refine ⟨⟨3, 1, 1⟩, [.submit 6 [0xaa], .edge false false, .edge false false, .edge false false,
    .resp, .resp], _, by decide, by decide, rfl, by decide +kernel, by decide +kernel⟩

/-- C28, reads: after any history the finished reads are, in order, the flat contents of the
requested ranges.
Partial: the total number of byte lanes must be a power of two. -/
theorem C28_read_partial (g : SegGeo) (b : Nat) (hg : g.segBytes * g.segCount = 2 ^ b) (mem : Mem)
    (es : List RdEvent) (s : RdSys) (hs : rdRun g g.addressWidth mem {} es = some s) :
    ∃ n, n ≤ (rdSubmitted es).length ∧
      s.finished = ((rdSubmitted es).take n).map fun c => load mem c.1 c.2 := by
  have hp := Nat.two_pow_pos b
  have hW : 0 < g.segBytes := Nat.pos_of_ne_zero (fun h => by rw [h, Nat.zero_mul] at hg; omega)
  have hS : 0 < g.segCount := Nat.pos_of_ne_zero (fun h => by rw [h, Nat.mul_zero] at hg; omega)
  have hr := (rdRun_some g g.addressWidth mem es {}).mp (by rw [hs]; rfl)
  obtain ⟨D, P, k, e, hi⟩ := rdInv_run g mem _ hS hW es [] [] 0 _ s (rdInv_init g mem)
    (fun c hc => by unfold InRamRd; rw [← addressWidth_pow2 g b hg]; exact (hr c hc).2) hs
  simp only [List.append_nil, List.nil_append] at e
  refine ⟨D.length, by rw [← e]; simp, ?_⟩
  rw [hi.fin, ← e, List.take_left]

/-- C28, calls: a history of reads runs unless some read is out of the address range. -/
theorem C28_read_accepts (g : SegGeo) (mem : Mem) (es : List RdEvent) :
    (rdRun g g.addressWidth mem {} es).isSome ↔
      ∀ c ∈ rdSubmitted es, c.1 < 2 ^ g.addressWidth ∧ c.1 + c.2 ≤ 2 ^ g.addressWidth :=
  rdRun_some g _ mem es _

/-- C28, reads: no history gets stuck; some clock edges without pauses followed by some
response-collection steps finish every read. -/
theorem C28_read_progress_partial (g : SegGeo) (b : Nat) (hg : g.segBytes * g.segCount = 2 ^ b)
    (mem : Mem) (es : List RdEvent) (s : RdSys) (hs : rdRun g g.addressWidth mem {} es = some s) :
    ∃ n k s', rdRun g g.addressWidth mem s
      (List.replicate n (.edge false false) ++ List.replicate k .resp) = some s' ∧
      s'.finished = (rdSubmitted es).map fun c => load mem c.1 c.2 := by
  have hp := Nat.two_pow_pos b
  have hW : 0 < g.segBytes := Nat.pos_of_ne_zero (fun h => by rw [h, Nat.zero_mul] at hg; omega)
  have hS : 0 < g.segCount := Nat.pos_of_ne_zero (fun h => by rw [h, Nat.mul_zero] at hg; omega)
  have hr := (rdRun_some g g.addressWidth mem es {}).mp (by rw [hs]; rfl)
  obtain ⟨D, P, k, e, hi⟩ := rdInv_run g mem _ hS hW es [] [] 0 _ s (rdInv_init g mem)
    (fun c hc => by unfold InRamRd; rw [← addressWidth_pow2 g b hg]; exact (hr c hc).2) hs
  obtain ⟨n, M, s', h1, h2⟩ := rdDrain g mem g.addressWidth hS hW D P k s hi
  exact ⟨n, M, s', h1, by rw [h2, e]; rfl⟩

/-- C28, together: once all writes have completed, every finished read returns the bytes of the flat
memory that the writes describe. -/
theorem C28_write_then_read_partial (g : SegGeo) (b : Nat) (hg : g.segBytes * g.segCount = 2 ^ b)
    (m0 : Mem) (ws : List WrEvent) (w : WrSys) (hw : wrRun g g.addressWidth { mem := m0 } ws = some w)
    (hc : w.completed = (submitted ws).length) (rs : List RdEvent) (r : RdSys)
    (hr : rdRun g g.addressWidth w.mem {} rs = some r) :
    ∃ n, n ≤ (rdSubmitted rs).length ∧
      r.finished = ((rdSubmitted rs).take n).map fun c => load (flat m0 (submitted ws)) c.1 c.2 := by
  rw [← C28_write_all_partial g b hg m0 ws w hw hc]
  exact C28_read_partial g b hg w.mem rs r hr

/-- Two overlapping reads with pauses on both sides. -/
def exampleReads : List RdEvent :=
  [.submit 3 7, .edge false false, .edge false false, .submit 5 2, .edge true false, .resp,
   .edge false true, .edge false false, .edge false false, .edge false false, .edge false false,
   .edge false false, .edge false false, .edge false false, .edge false false,
   .resp, .resp, .resp, .resp, .resp, .resp, .resp, .resp]

example : (rdRun exampleGeo exampleGeo.addressWidth (fun a => UInt8.ofNat (100 + a)) {} exampleReads).map
    (fun s => s.finished) =
    some [[103, 104, 105, 106, 107, 108, 109], [105, 106]] := by decide +kernel

end Verif.Props
