import Verif.Proofs.MsixAxil
/-! C49: the MSI-X table behaves as a memory on its AXI lite interface. -/
namespace Verif.Props
open Verif Verif.Model Verif.Spec Verif.Proofs

theorem axil_start (c : MsixCfg) (s : Msix) (r : MsixIn) (hr : r.rst = true) :
    AxilInv c (msixStep c s r) { mem := tblFlat (msixStep c s r).axil.tbl } ∧
    (msixStep c s r).axil.wready = false ∧ (msixStep c s r).axil.arready = false := by
  have h1 : (msixStep c s r).axil.wready = false := by simp [msixStep, msixAxilStep, hr]
  have h2 : (msixStep c s r).axil.arready = false := by simp [msixStep, msixAxilStep, hr]
  have h3 : (msixStep c s r).axil.bvalid = false := by simp [msixStep, msixAxilStep, hr]
  have h4 : (msixStep c s r).axil.rvalid = false := by simp [msixStep, msixAxilStep, hr]
  have h5 : (msixStep c s r).axil.tblValid = false := by simp [msixStep, msixAxilStep, hr]
  have h6 : (msixStep c s r).axil.pbaValid = false := by simp [msixStep, msixAxilStep, hr]
  refine ⟨⟨by simp [h5], by simp [h2], by simp [h1], by simp [h1, h3], fun _ => rfl, fun _ => ?_, List.prefix_rfl⟩,
    h1, h2⟩
  simp [axilQueue, h4, h5, h6]

theorem axil_all (c : MsixCfg) (hk : c.strbLog ≤ 3) (hw : 1 ≤ c.addrW) (s : Msix) (r : MsixIn) (hr : r.rst = true)
    (is : List MsixIn) (hi : ∀ i ∈ is, i.rst = false) (hh : AxilHeld c (msixStep c s r) is) :
    AxilInv c (msixRun c (msixStep c s r) is)
      (axilLog c (msixStep c s r) { mem := tblFlat (msixStep c s r).axil.tbl } is) := by
  obtain ⟨h1, h2, h3⟩ := axil_start c s r hr
  exact axil_run c hk hw is _ _ hi hh h1 fun i _ => ⟨by simp [h2], by simp [h3]⟩

/-- C49: the answers given to reads are, in order, the answers the accepted reads should get: the bytes of the
table as the writes accepted before have left it, or of the pending bit array. -/
theorem C49_reads (c : MsixCfg) (hk : c.strbLog ≤ 3) (hw : 1 ≤ c.addrW) (s : Msix) (r : MsixIn) (hr : r.rst = true)
    (is : List MsixIn) (hi : ∀ i ∈ is, i.rst = false) (hh : AxilHeld c (msixStep c s r) is) :
    (axilLog c (msixStep c s r) { mem := tblFlat (msixStep c s r).axil.tbl } is).returned <+:
      (axilLog c (msixStep c s r) { mem := tblFlat (msixStep c s r).axil.tbl } is).expected :=
  (axil_all c hk hw s r hr is hi hh).pre

/-- C49: when no write is being acknowledged, the table is what the accepted writes have made it, and each of them
has got one response, but perhaps the last, whose response is being given. -/
theorem C49_writes (c : MsixCfg) (hk : c.strbLog ≤ 3) (hw : 1 ≤ c.addrW) (s : Msix) (r : MsixIn) (hr : r.rst = true)
    (is : List MsixIn) (hi : ∀ i ∈ is, i.rst = false) (hh : AxilHeld c (msixStep c s r) is)
    (hd : (msixRun c (msixStep c s r) is).axil.wready = false) :
    let L := axilLog c (msixStep c s r) { mem := tblFlat (msixStep c s r).axil.tbl } is
    tblFlat (msixRun c (msixStep c s r) is).axil.tbl = L.mem ∧
    L.resps + (if (msixRun c (msixStep c s r) is).axil.bvalid then 1 else 0) = L.writes := by
  have h := axil_all c hk hw s r hr is hi hh
  refine ⟨h.idleW hd, ?_⟩
  have := h.resp
  rw [hd] at this
  cases hb : (msixRun c (msixStep c s r) is).axil.bvalid <;> rw [hb] at this <;> simpa using this

theorem msixRun_concat (c : MsixCfg) (s : Msix) (is : List MsixIn) (i : MsixIn) :
    msixRun c s (is ++ [i]) = msixStep c (msixRun c s is) i := by
  induction is generalizing s with
  | nil => rfl
  | cons j is ih => exact ih _

/-- C49: no answer stays in the module: when the master makes no read request and takes answers, all reads are
answered after three cycles. -/
theorem C49_drain (c : MsixCfg) (hk : c.strbLog ≤ 3) (hw : 1 ≤ c.addrW) (s : Msix) (r : MsixIn) (hr : r.rst = true)
    (is : List MsixIn) (i j k : MsixIn) (hi : ∀ m ∈ is ++ [i, j, k], m.rst = false)
    (hh : AxilHeld c (msixStep c s r) (is ++ [i, j, k]))
    (hj : j.arvalid = false) (hq : k.arvalid = false) (qi : i.rready = true) (qj : j.rready = true)
    (qk : k.rready = true) (ha : i.arvalid = false) :
    (axilLog c (msixStep c s r) { mem := tblFlat (msixStep c s r).axil.tbl } (is ++ [i, j, k])).returned =
      (axilLog c (msixStep c s r) { mem := tblFlat (msixStep c s r).axil.tbl } (is ++ [i, j, k])).expected := by
  have h := axil_all c hk hw s r hr _ hi hh
  have e : msixRun c (msixStep c s r) (is ++ [i, j, k]) =
      msixStep c (msixStep c (msixStep c (msixRun c (msixStep c s r) is) i) j) k := by
    rw [show is ++ [i, j, k] = ((is ++ [i]) ++ [j]) ++ [k] by simp, msixRun_concat, msixRun_concat, msixRun_concat]
  have hri : i.rst = false := hi i (by simp)
  have hrj : j.rst = false := hi j (by simp)
  have hrk : k.rst = false := hi k (by simp)
  have h2 : (msixRun c (msixStep c s r) (is ++ [i, j, k])).axil.arready = false := by
    rw [e]; simp [msixStep, msixAxilStep, msixDoRead, msixReadEligible, hq, hrk]
  have h3 := h.idleR h2
  rw [← h3]
  have h4 : axilQueue c (msixRun c (msixStep c s r) (is ++ [i, j, k])).axil = [] := by
    rw [e]
    generalize msixRun c (msixStep c s r) is = m
    simp only [axilQueue, msixStep, msixAxilStep, msixDoRead, msixReadEligible, msixRMove, hrk, hrj, hri, hj, hq, ha, qi,
      qj, qk]
    cases m.axil.tblValid <;> cases m.axil.pbaValid <;> simp
  rw [h4]; simp

/-- A write is accepted in one of the cycles. -/
def axilWriteTaken (c : MsixCfg) : Msix → List MsixIn → Bool
  | _, [] => false
  | s, i :: is => (i.awvalid && i.wvalid && s.axil.wready) || axilWriteTaken c (msixStep c s i) is

/-- A read is accepted in one of the cycles. -/
def axilReadTaken (c : MsixCfg) : Msix → List MsixIn → Bool
  | _, [] => false
  | s, i :: is => (i.arvalid && s.axil.arready) || axilReadTaken c (msixStep c s i) is

/-- C49: reads do not starve writes: a write that is held is accepted within three cycles in which responses are
taken, whatever the reads do. -/
theorem C49_write_progress (c : MsixCfg) (s : Msix) (i j k : MsixIn)
    (h : ∀ x ∈ [i, j, k], x.rst = false ∧ x.awvalid = true ∧ x.wvalid = true ∧ x.bready = true) :
    axilWriteTaken c s [i, j, k] = true := by
  obtain ⟨a1, a2, a3, a4⟩ := h i (by simp)
  obtain ⟨b1, b2, b3, b4⟩ := h j (by simp)
  obtain ⟨c1, c2, c3, c4⟩ := h k (by simp)
  simp only [axilWriteTaken, a2, a3, b2, b3, c2, c3, Bool.true_and, Bool.or_false]
  simp only [msixStep, msixAxilStep, msixDoWrite, msixWriteEligible, a1, a2, a3, a4, b1, b2, b3, b4, Bool.not_false,
    Bool.true_and, Bool.or_true]
  cases s.axil.wready
  · simp only [Bool.not_false, Bool.true_and, Bool.false_or]
    cases hq : msixReadEligible s.axil i
    · simp
    · cases hl : s.axil.lastRead
      · simp [msixDoRead, msixDoWrite, hq, hl]
      · simp
  · simp

/-- C49: and writes do not starve reads. -/
theorem C49_read_progress (c : MsixCfg) (s : Msix) (i j k : MsixIn)
    (h : ∀ x ∈ [i, j, k], x.rst = false ∧ x.arvalid = true ∧ x.rready = true) :
    axilReadTaken c s [i, j, k] = true := by
  obtain ⟨a1, a2, a3⟩ := h i (by simp)
  obtain ⟨b1, b2, b3⟩ := h j (by simp)
  obtain ⟨c1, c2, c3⟩ := h k (by simp)
  have hE : ∀ (m : MsixAxil) (x : MsixIn), x.arvalid = true → x.rready = true → m.arready = false →
      msixReadEligible m x = true := by
    intro m x h1 h2 h3; simp [msixReadEligible, h1, h2, h3]
  have hA : ∀ (m : Msix) (x : MsixIn), x.rst = false → (msixStep c m x).axil.arready = msixDoRead m.axil x := by
    intro m x h; simp [msixStep, msixAxilStep, h]
  simp only [axilReadTaken, a2, b2, c2, Bool.true_and, Bool.or_false]
  rw [hA _ j b1, hA _ i a1]
  cases h0 : s.axil.arready
  · cases h1 : msixDoWrite s.axil i
    · simp [msixDoRead, h1, hE _ _ a2 a3 h0]
    · have e1 : msixDoRead s.axil i = false := by simp [msixDoRead, h1]
      have e2 := hE (msixStep c s i).axil j b2 b3 (by rw [hA _ i a1, e1])
      have e3 : (msixStep c s i).axil.lastRead = false := by simp [msixStep, msixAxilStep, h1]
      have e4 : (msixStep c s i).axil.wready = true := by simp [msixStep, msixAxilStep, h1, a1]
      simp [e1, msixDoRead, e2, msixDoWrite, msixWriteEligible, e4]
  · simp

/-- A write of DWORD 3 of vector 3, and a read of it. -/
def axilExW : MsixIn :=
  { awvalid := true, wvalid := true, awaddr := 60, wdata := fun l => UInt8.ofNat (l + 1), wstrb := fun l => l < 3 }

def axilExR : MsixIn := { arvalid := true, araddr := 60 }

/-- The hypotheses are met by a write followed by a read, which returns what was written. -/
example :
    let c : MsixCfg := { idxW := 3, addrW := 16, strbLog := 2, force64 := false }
    let s : Msix :=
      { irq := { state := .idle, irqIndex := 0, vecAddr := 0, vecData := 0, irqReady := false,
                 tlp := ⟨0, 0, 0, 0, 0⟩, tlpValid := false, enable := false, mask := false, pba := fun _ => 0,
                 tblRd := fun _ => 0, pbaRd := 0 }
        axil := { tbl := fun _ _ => 0, lastRead := false, wready := false, bvalid := false, arready := false,
                  rdata := fun _ => 0, rvalid := false, tblValid := false, pbaValid := false, shift := 0,
                  tblRd := fun _ => 0, pbaRd := fun _ => 0 } }
    AxilHeld c (msixStep c s { rst := true }) [axilExW, axilExW, axilExR, axilExR, { rst := false }, { rst := false }] ∧
    (axilLog c (msixStep c s { rst := true }) { mem := fun _ => 0 }
      [axilExW, axilExW, axilExR, axilExR, { rst := false }, { rst := false }]).returned = [[1, 2, 3, 0]] := by
  refine ⟨⟨?_, ?_, ?_, ?_, ?_, ?_, ?_, ?_, ?_, ?_, ?_, ?_, ?_, ?_, ?_, trivial⟩, ?_⟩ <;> first | decide +kernel | skip
  · intro _ _; exact ⟨rfl, rfl, rfl⟩
  · intro _ h; exact absurd h (by decide +kernel)
  · intro h; exact absurd h (by decide)
  · intro h; exact absurd h (by decide)
  · intro h; exact absurd h (by decide)

end Verif.Props
