import Verif.Proofs.AxiMasterWrLive
/-!
C70-C73: the AXI master for writes. The histories start with a reset in any state. The TLPs at the input must be well-formed:
`AxwInOk`. The theorems with the suffix `_partial` are for TLPs that need one burst only, `AxwFits`; for longer ones the
properties do not hold.
-/
namespace Verif.Props
open Verif Verif.Model Verif.Spec Verif.Proofs

/-! ### C70: bytes written -/

/-- **C70** (partial: TLPs that need one burst). At any time the bytes written by the AXI transfers done are the first of the bytes
that the memory writes received ask for, in order: nothing else is written, and no byte is skipped. -/
theorem C70_memory_partial (c : AxwCfg) (hc : AxwCfgOk c) (s : Axw) (r : AxwIn) (hr : r.rst = true) (is : List AxwIn)
    (hn : ∀ i ∈ is, i.rst = false) (hok : AxwInOk c (axwTaken c (axwStep c s r) is)) (hfit : AxwFits c (axwTaken c (axwStep c s r) is)) :
    axiWrites (2 ^ c.tb) (axwAws c (axwStep c s r) is) (axwWs c (axwStep c s r) is) <+:
      (axwAll (axwTaken c (axwStep c s r) is)).flatMap (tlpWrites c) := by
  have h := axw_run_inv c hc s r hr is hn hok hfit
  refine axi_writes_prefix c hc _ _ _ ?_ ?_
  · rw [← h.bursts]; exact List.prefix_append _ _
  · exact (List.prefix_append _ _).trans (axw_body_prefix c _ _ _ h.body)

/-! ### C71: the AXI channels -/

/-- **C71** (partial: TLPs that need one burst). The bursts are those of the memory writes, one for each and in order, as soon as the
first word of a write is taken; the last one may wait to be accepted. -/
theorem C71_bursts_partial (c : AxwCfg) (hc : AxwCfgOk c) (s : Axw) (r : AxwIn) (hr : r.rst = true) (is : List AxwIn)
    (hn : ∀ i ∈ is, i.rst = false) (hok : AxwInOk c (axwTaken c (axwStep c s r) is)) (hfit : AxwFits c (axwTaken c (axwStep c s r) is)) :
    axwAws c (axwStep c s r) is ++
        (if (axwRun c (axwStep c s r) is).awV then [((axwRun c (axwStep c s r) is).awaddr, (axwRun c (axwStep c s r) is).awlen)] else []) =
      (axwAll (axwTaken c (axwStep c s r) is)).filterMap (tlpBurst c) :=
  (axw_run_inv c hc s r hr is hn hok hfit).bursts

/-- **C71** (partial: TLPs that need one burst). The data transfers are those of the memory writes, in order: each byte on its lane,
strobes for the enabled bytes only, and `last` with the last data transfer of a burst only. -/
theorem C71_data_partial (c : AxwCfg) (hc : AxwCfgOk c) (s : Axw) (r : AxwIn) (hr : r.rst = true) (is : List AxwIn)
    (hn : ∀ i ∈ is, i.rst = false) (hok : AxwInOk c (axwTaken c (axwStep c s r) is)) (hfit : AxwFits c (axwTaken c (axwStep c s r) is)) :
    (axwWs c (axwStep c s r) is).map (axwView (2 ^ c.tb)) <+: (axwAll (axwTaken c (axwStep c s r) is)).flatMap (tlpBeats c) :=
  (List.prefix_append _ _).trans (axw_body_prefix c _ _ _ (axw_run_inv c hc s r hr is hn hok hfit).body)

/-- **C71** (partial: TLPs that need one burst). No burst is longer than the maximum. If the TLPs do not cross 4 KB boundaries, the
bursts do not. -/
theorem C71_legal_partial (c : AxwCfg) (hc : AxwCfgOk c) (s : Axw) (r : AxwIn) (hr : r.rst = true) (is : List AxwIn)
    (hn : ∀ i ∈ is, i.rst = false) (hok : AxwInOk c (axwTaken c (axwStep c s r) is)) (hfit : AxwFits c (axwTaken c (axwStep c s r) is)) :
    ∀ b ∈ axwAws c (axwStep c s r) is, b.2 + 1 ≤ c.burst ∧
      (c.tb ≤ 12 → (∀ g ∈ axwAll (axwTaken c (axwStep c s r) is), ∀ w, g.head? = some w → tlpDoWrite w.hdr = true →
        axwTlpAddr c w.hdr % 4096 + 4 * hdrLen w.hdr ≤ 4096) → (b.1 / 2 ^ c.tb * 2 ^ c.tb) % 4096 + (b.2 + 1) * 2 ^ c.tb ≤ 4096) := by
  intro b hb
  have h := (axw_run_inv c hc s r hr is hn hok hfit).bursts
  have hb : b ∈ (axwAll (axwTaken c (axwStep c s r) is)).filterMap (tlpBurst c) := by rw [← h]; exact List.mem_append_left _ hb
  obtain ⟨g, hg, hgb⟩ := List.mem_filterMap.1 hb
  obtain ⟨w, hw, hd, rfl⟩ := tlpBurst_some c g b hgb
  have hf : TlpFits c w.hdr := by
    have := hfit g hg
    cases g with
    | nil => cases hw
    | cons y ys => cases hw; exact this hd
  obtain ⟨w1, w2, w3, w4⟩ := axw_words_beats c hc w.hdr
  obtain ⟨hbb, hdw⟩ := axw_bytes c hc
  have hne : tlpBeatCount c w.hdr - 1 + 1 = tlpBeatCount c w.hdr := by omega
  obtain ⟨m1, m2⟩ := axw_fits c hc w.hdr hf
  refine ⟨?_, fun htb hx => ?_⟩
  · show tlpBeatCount c w.hdr - 1 + 1 ≤ c.burst
    have := axw_beatCount c hc w.hdr c.burst
    omega
  · show (axwTlpAddr c w.hdr / 2 ^ c.tb * 2 ^ c.tb) % 4096 + (tlpBeatCount c w.hdr - 1 + 1) * 2 ^ c.tb ≤ 4096
    rw [hne]
    have hx := hx g hg w hw hd
    obtain ⟨k, hk⟩ : 2 ^ c.tb ∣ 4096 := by
      rw [show 4096 = 2 ^ 12 by rfl]; exact Nat.pow_dvd_pow 2 htb
    have hn1 := axw_beatCount c hc w.hdr (tlpBeatCount c w.hdr - 1)
    have hoff := (axwOff_eq c hc w.hdr).1
    have hL := hdrLen_pos w.hdr
    have ha4 : axwTlpAddr c w.hdr % 4096 = axwTlpAddr c w.hdr % 2 ^ c.tb + 2 ^ c.tb * (axwTlpAddr c w.hdr / 2 ^ c.tb % k) := by
      rw [hk, Nat.mod_mul]
    have hal : axwTlpAddr c w.hdr / 2 ^ c.tb * 2 ^ c.tb % 4096 = 2 ^ c.tb * (axwTlpAddr c w.hdr / 2 ^ c.tb % k) := by
      rw [hk, Nat.mul_comm, Nat.mul_mod_mul_left]
    rw [hal]
    generalize axwTlpAddr c w.hdr / 2 ^ c.tb % k = j at *
    have h1 := hn1.1 (by omega)
    obtain ⟨n, hnn⟩ : ∃ n, tlpBeatCount c w.hdr = n + 1 := ⟨tlpBeatCount c w.hdr - 1, by omega⟩
    rw [hnn] at h1 ⊢
    simp only [Nat.add_sub_cancel] at h1
    -- 4096 is a multiple of the width, and the last data transfer starts before the end
    have h2 : n * 2 ^ c.tb < axwTlpAddr c w.hdr % 2 ^ c.tb + 4 * hdrLen w.hdr := by
      rw [hoff, show n * 2 ^ c.tb = 4 * (n * c.dws) by rw [hbb, Nat.mul_left_comm]]
      unfold axwO at h1
      omega
    have h3 : 2 ^ c.tb * (j + n) < 2 ^ c.tb * k := by
      rw [← hk, Nat.mul_add, Nat.mul_comm _ n]; omega
    have h4 : j + n + 1 ≤ k := Nat.lt_of_mul_lt_mul_left h3
    rw [hk, Nat.mul_comm (n + 1), ← Nat.mul_add]
    exact Nat.mul_le_mul_left _ (by omega)

/-- **C71** (partial: TLPs that need one burst). What is presented on the address and data channels does not change until it is
accepted. -/
theorem C71_stable_partial (c : AxwCfg) (hc : AxwCfgOk c) (s : Axw) (r : AxwIn) (hr : r.rst = true) (is : List AxwIn) (i : AxwIn)
    (hn : ∀ j ∈ is ++ [i], j.rst = false) (hok : AxwInOk c (axwTaken c (axwStep c s r) is)) (hfit : AxwFits c (axwTaken c (axwStep c s r) is)) :
    let p := axwRun c (axwStep c s r) is
    let q := axwRun c (axwStep c s r) (is ++ [i])
    (p.awV = true → i.awReady = false → q.awV = true ∧ q.awaddr = p.awaddr ∧ q.awlen = p.awlen) ∧
    (p.out.valid = true → i.wReady = false → q.out.valid = true ∧ q.out.out = p.out.out) := by
  intro p q
  have h := axw_run_inv c hc s r hr is (fun j hj => hn j (by simp [hj])) hok hfit
  have hri := hn i (by simp)
  have hq : q = axwStep c p i := axwRun_append c is [i] _
  rw [hq]
  have hm := axw_no_more c p i _ _ _ h
  constructor
  · intro hv ha
    have hh : axwHead p i = false := by
      cases hh : axwHead p i with
      | false => rfl
      | true =>
        unfold axwHead at hh
        simp only [Bool.and_eq_true, beq_iff_eq] at hh
        have := h.idleAw hh.1.1.1 hh.1.1.2
        rw [hv] at this; cases this
    rw [axwStep_norst c p i hri]
    refine ⟨?_, ?_, ?_⟩
    · show ((axwHead p i && axwGood i.hdr) || axwMore p i || (p.awV && !i.awReady)) = true
      rw [hv, ha]; simp
    · show (if axwHead p i then _ else if axwMore p i then _ else p.awaddr) = p.awaddr
      rw [hh, hm]; rfl
    · show (if axwHead p i then _ else if axwMore p i then _ else p.awlen) = p.awlen
      rw [hh, hm]; rfl
  · intro hv ha
    have e : (axwStep c p i).out = outFifoStep 5 false p.out (axwGo p i) (axwBeat c p i) i.wReady := by
      rw [axwStep_norst c p i hri]; rfl
    rw [e, ha]
    unfold outFifoStep
    simp [hv]

/-! ### C72: errors -/

/-- **C72** (partial: TLPs that need one burst). The error output is active in exactly those cycles that follow the first word of a TLP
that is no memory write or that is poisoned. -/
theorem C72_errors_partial (c : AxwCfg) (hc : AxwCfgOk c) (s : Axw) (r : AxwIn) (hr : r.rst = true) (is : List AxwIn) (i : AxwIn)
    (hn : ∀ j ∈ is ++ [i], j.rst = false) (hok : AxwInOk c (axwTaken c (axwStep c s r) (is ++ [i])))
    (hfit : AxwFits c (axwTaken c (axwStep c s r) (is ++ [i]))) :
    (axwRun c (axwStep c s r) []).err = false ∧
    (axwRun c (axwStep c s r) (is ++ [i])).err = ((axwRun c (axwStep c s r) is).ready && i.valid &&
      decide ((axwSplit (axwTaken c (axwStep c s r) is)).2 = []) && !tlpDoWrite i.hdr) := by
  have ht : axwTaken c (axwStep c s r) (is ++ [i]) = axwTaken c (axwStep c s r) is ++ axwTakeNow (axwRun c (axwStep c s r) is) i := by
    rw [axwTaken_append, axwTaken_cons]
    simp [axwTaken, axwTrace]
  rw [ht] at hok hfit
  have h := axw_run_inv c hc s r hr is (fun j hj => hn j (by simp [hj])) (axwInOk_prefix c _ _ hok) (axwFits_prefix c _ _ hfit)
  refine ⟨by show (axwStep c s r).err = false; unfold axwStep; rw [hr]; rfl, ?_⟩
  rw [axwRun_append]
  exact axw_err c _ i _ _ _ (hn i (by simp)) h hok

/-! ### C73: progress -/

/-- **C73** (partial: TLPs that need one burst). If the AXI interface is ready, all bytes of the TLPs received completely are written
within 47 cycles, whatever is received then. -/
theorem C73_done_partial (c : AxwCfg) (hc : AxwCfgOk c) (s : Axw) (r : AxwIn) (hr : r.rst = true) (is js : List AxwIn)
    (hn : ∀ i ∈ is, i.rst = false) (hj : ∀ i ∈ js, i.rst = false ∧ i.wReady = true ∧ i.awReady = true) (hl : 47 ≤ js.length)
    (hok : AxwInOk c (axwTaken c (axwStep c s r) (is ++ js))) (hfit : AxwFits c (axwTaken c (axwStep c s r) (is ++ js))) :
    (axwSplit (axwTaken c (axwStep c s r) is)).1.flatMap (tlpWrites c) <+:
      axiWrites (2 ^ c.tb) (axwAws c (axwStep c s r) (is ++ js)) (axwWs c (axwStep c s r) (is ++ js)) := by
  have hfull := axw_run_inv c hc s r hr (is ++ js) (by
    intro i hi; rcases List.mem_append.1 hi with hi | hi
    · exact hn i hi
    · exact (hj i hi).1) hok hfit
  have hok' := hok; have hfit' := hfit
  rw [axwTaken_append] at hok' hfit'
  have hok1 := axwInOk_prefix c _ _ hok'
  have h := axw_run_inv c hc s r hr is hn hok1 (axwFits_prefix c _ _ hfit')
  -- the TLPs received before are the first of all TLPs
  have hsub : (axwSplit (axwTaken c (axwStep c s r) is)).1 <+: axwAll (axwTaken c (axwStep c s r) (is ++ js)) := by
    rw [axwTaken_append]
    exact axwSplit_prefix _ _
  refine axi_writes_all c hc _ _ _ ?_ ?_
  · -- the bursts
    rw [axwAws_append]
    cases js with
    | nil => simp at hl
    | cons j js =>
      obtain ⟨-, -, ha⟩ := hj j (by simp)
      have e : axwAwNow (axwRun c (axwStep c s r) is) j = axwPend (axwRun c (axwStep c s r) is) := by
        unfold axwAwNow axwPend; rw [ha, Bool.and_true]
      rw [axwAws_cons, e, ← List.append_assoc, h.bursts]
      have : (axwSplit (axwTaken c (axwStep c s r) is)).1 <+: axwAll (axwTaken c (axwStep c s r) is) := List.prefix_append _ _
      exact (this.filterMap _).trans (List.prefix_append _ _)
  · -- the data transfers
    have hlag := axw_lag c hc _ _ _ hok1 h.body
    have hd := axw_done_gen c hc ((axwSplit (axwTaken c (axwStep c s r) is)).1.flatMap (tlpBeats c)).length js (axwRun c (axwStep c s r) is)
      (axwTaken c (axwStep c s r) is) _ _ (fun i hi => ⟨(hj i hi).1, (hj i hi).2.1⟩) h hok' hfit' (Nat.le_refl _) (by
        rw [List.length_map]
        have h1 := hlag.1
        rw [List.length_append, List.length_map] at h1
        have h2 := hlag.2
        have h3 : (axwQ c (axwRun c (axwStep c s r) is)).length ≤ 20 := by
          unfold axwQ outQ
          rw [List.length_map, List.length_append, ringList_length]
          have := h.cnt
          split <;> simp <;> omega
        unfold axwDist
        split <;> omega)
    rw [List.length_map] at hd
    have hp := (List.prefix_append _ _).trans (axw_body_prefix c _ _ _ hfull.body)
    refine List.prefix_of_prefix_length_le (flatMap_prefix (tlpBeats c) hsub) hp ?_
    rw [List.length_map, axwWs_append, List.length_append]
    exact hd

/-- **C73** (partial: TLPs that need one burst). If the AXI interface is ready, the module gets ready for input within 48 cycles. -/
theorem C73_ready_partial (c : AxwCfg) (hc : AxwCfgOk c) (s : Axw) (r : AxwIn) (hr : r.rst = true) (is js : List AxwIn)
    (hn : ∀ i ∈ is, i.rst = false) (hj : ∀ i ∈ js, i.rst = false ∧ i.wReady = true ∧ i.awReady = true) (hl : 48 ≤ js.length)
    (hok : AxwInOk c (axwTaken c (axwStep c s r) is)) (hfit : AxwFits c (axwTaken c (axwStep c s r) is)) :
    ∃ n, n ≤ js.length ∧ (axwRun c (axwStep c s r) (is ++ js.take n)).ready = true := by
  have h := axw_run_inv c hc s r hr is hn hok hfit
  obtain ⟨n, h1, h2⟩ := axw_ready_gen c hc js (axwRun c (axwStep c s r) is) _ _ _ hj h hok hfit (by
    have h1 := axw_due_le c hc _ _ _ hok h.body
    have h2 := h.cnt
    have h3 := Bool.toNat_le (axwRun c (axwStep c s r) is).out.half
    omega)
  exact ⟨n, h1, by rw [axwRun_append]; exact h2⟩

/-! ### Concrete cases -/

/-- A word at the input. -/
def axwEx (h : TlpHdr) (b : UInt8) (valid sop eop aw w : Bool) : AxwIn :=
  { data := fun k => b + UInt8.ofNat k, hdr := h, valid := valid, sop := sop, eop := eop, awReady := aw, wReady := w }

/-- A reset. -/
def axwExRst : AxwIn := { axwEx ⟨0, 0, 0, 0⟩ 0 true true true true true with rst := true }

/-- A state in the middle of a transfer. -/
def axwExState : Axw :=
  { st := .transfer, addr := 3, op := 5, tr := 1, inC := 3, outC := 1, inA := true, first := true, last := true, fbe := 1, lbe := 1, off := 1,
    lco := 1, ready := true, awaddr := 3, awlen := 3, awV := true, save := fun _ => 1, err := true,
    out := { ring := { mem := fun _ => ⟨fun _ => 0, fun _ => false, false⟩ }, half := true, valid := true,
             out := ⟨fun _ => 0, fun _ => false, false⟩ } }

/-- A write of 3 DWORDs to 0x104 with byte enables 1110 and 0011. -/
def axwExW : TlpHdr := ⟨0x40000003, 0x3e, 0x104, 0⟩

/-- A read. -/
def axwExR : TlpHdr := ⟨0x00000001, 0x0f, 0x200, 0⟩

def axwExC : AxwCfg := { tb := 3, addrW := 32, burst := 8, force64 := false }

/-- A write, a read and the start of another write. -/
def axwExIs : List AxwIn :=
  [axwEx axwExW 0x10 true true false false true, axwEx axwExW 0x10 true true false false true, axwEx axwExW 0x20 false false true true false,
   axwEx axwExW 0x20 true false true true true, axwEx axwExR 0x30 false true true true true, axwEx axwExR 0x30 true true true true true,
   axwEx axwExW 0x40 false true false true true, axwEx axwExW 0x40 true true false true true, axwEx axwExW 0x40 false true false true true,
   axwEx axwExW 0x40 false true false false false]

theorem axwExC_ok : AxwCfgOk axwExC := ⟨by decide, by decide, by decide⟩

instance (c : AxwCfg) (b : Bool) (g : List AxwIn) : Decidable (AxwTlpOk c b g) := by
  unfold AxwTlpOk; cases g <;> infer_instance

instance (c : AxwCfg) (g : List AxwIn) : Decidable (AxwTlpFits c g) := by
  unfold AxwTlpFits; cases g <;> infer_instance

instance (c : AxwCfg) (ws : List AxwIn) : Decidable (AxwInOk c ws) := inferInstanceAs (Decidable (_ ∧ _))

instance (c : AxwCfg) (ws : List AxwIn) : Decidable (AxwFits c ws) := inferInstanceAs (Decidable (∀ _ ∈ _, _))

/-- The hypotheses of the theorems hold, and bytes are written: those of the first write, with its byte enables. -/
example : axwExRst.rst = true ∧ (∀ i ∈ axwExIs, i.rst = false) ∧ AxwInOk axwExC (axwTaken axwExC (axwStep axwExC axwExState axwExRst) axwExIs) ∧
    AxwFits axwExC (axwTaken axwExC (axwStep axwExC axwExState axwExRst) axwExIs) := by decide +kernel

/-- The two words of the first write have been taken, and its enabled bytes are written. -/
example : (axwAll (axwTaken axwExC (axwStep axwExC axwExState axwExRst) axwExIs)).map (·.length) = [2, 1, 1] ∧
    axiWrites 8 (axwAws axwExC (axwStep axwExC axwExState axwExRst) axwExIs) (axwWs axwExC (axwStep axwExC axwExState axwExRst) axwExIs) =
      [(0x105, 0x11), (0x106, 0x12), (0x107, 0x13), (0x108, 0x14), (0x109, 0x15), (0x10a, 0x16), (0x10b, 0x17), (0x10c, 0x20), (0x10d, 0x21)] := by
  decide +kernel

/-- The error output is active for the read, and only then. -/
example : (axwTrace axwExC (axwStep axwExC axwExState axwExRst) axwExIs).map (·.1.err) =
    [false, false, false, false, false, false, true, false, false, false] := by decide +kernel

/-- The hypotheses of the theorems about progress, with 48 more cycles. -/
example : (∀ i ∈ List.replicate 48 (axwEx axwExW 0x40 false true false true true), i.rst = false ∧ i.wReady = true ∧ i.awReady = true) ∧
    AxwInOk axwExC (axwTaken axwExC (axwStep axwExC axwExState axwExRst) (axwExIs ++ List.replicate 48 (axwEx axwExW 0x40 false true false true true))) ∧
    AxwFits axwExC (axwTaken axwExC (axwStep axwExC axwExState axwExRst) (axwExIs ++ List.replicate 48 (axwEx axwExW 0x40 false true false true true))) := by
  decide +kernel

/-! ### TLPs that need more than one burst -/

/-- A 64-bit bus and bursts of one transfer. -/
def axwExC1 : AxwCfg := { tb := 3, addrW := 32, burst := 1, force64 := false }

/-- A write of 4 DWORDs to 0x100. -/
def axwExW4 : TlpHdr := ⟨0x40000004, 0xff, 0x100, 0⟩

/-- A write of 4 DWORDs, with pauses before the second word. -/
def axwExSplit (aw : Bool) : List AxwIn :=
  [axwEx axwExW4 0x10 true true false aw true, axwEx axwExW4 0x10 true true false aw true, axwEx axwExW4 0xe0 false false false aw true,
   axwEx axwExW4 0xe0 false false false aw true, axwEx axwExW4 0x20 true false true aw true, axwEx axwExW4 0x20 false false true aw true,
   axwEx axwExW4 0x20 false false false aw true, axwEx axwExW4 0x20 false false false aw true]

/-- **C70** fails: with a TLP for two bursts, the data of the second burst is taken from the input when no word is valid there. -/
theorem C70_split_fails : ¬ ∀ (c : AxwCfg) (s : Axw) (r : AxwIn) (is : List AxwIn), AxwCfgOk c → r.rst = true → (∀ i ∈ is, i.rst = false) →
    AxwInOk c (axwTaken c (axwStep c s r) is) →
    axiWrites (2 ^ c.tb) (axwAws c (axwStep c s r) is) (axwWs c (axwStep c s r) is) <+:
      (axwAll (axwTaken c (axwStep c s r) is)).flatMap (tlpWrites c) := by
  intro h
  exact absurd (h axwExC1 axwExState axwExRst (axwExSplit true) ⟨by decide, by decide, by decide⟩ rfl (by decide +kernel) (by decide +kernel))
    (by decide +kernel)

/-- **C71** fails: the address of the second burst replaces that of the first one, which has not been accepted. -/
theorem C71_overwritten_fails : ¬ ∀ (c : AxwCfg) (s : Axw) (r : AxwIn) (is : List AxwIn) (i : AxwIn), AxwCfgOk c → r.rst = true →
    (∀ j ∈ is ++ [i], j.rst = false) → AxwInOk c (axwTaken c (axwStep c s r) (is ++ [i])) →
    (axwRun c (axwStep c s r) is).awV = true → i.awReady = false →
    (axwRun c (axwStep c s r) (is ++ [i])).awaddr = (axwRun c (axwStep c s r) is).awaddr := by
  intro h
  exact absurd (h axwExC1 axwExState axwExRst ((axwExSplit false).take 2) (axwEx axwExW4 0xe0 false false false false true)
    ⟨by decide, by decide, by decide⟩ rfl (by decide +kernel) (by decide +kernel) (by decide +kernel) rfl) (by decide +kernel)

/-- A 64-bit bus and bursts of two transfers. -/
def axwExC2 : AxwCfg := { tb := 3, addrW := 32, burst := 2, force64 := false }

/-- A write of 4 DWORDs to 0x104. -/
def axwExW5 : TlpHdr := ⟨0x40000004, 0xff, 0x104, 0⟩

/-- **C71** fails: a TLP with the size of the longest burst and an address that is not aligned is done with one burst that is too
long. -/
theorem C71_length_fails : ¬ ∀ (c : AxwCfg) (s : Axw) (r : AxwIn) (is : List AxwIn), AxwCfgOk c → r.rst = true → (∀ i ∈ is, i.rst = false) →
    AxwInOk c (axwTaken c (axwStep c s r) is) → ∀ b ∈ axwAws c (axwStep c s r) is, b.2 + 1 ≤ c.burst := by
  intro h
  exact absurd (h axwExC2 axwExState axwExRst [axwEx axwExW5 0x10 true true false true true, axwEx axwExW5 0x10 true true false true true,
    axwEx axwExW5 0x10 false true false true true] ⟨by decide, by decide, by decide⟩ rfl (by decide +kernel) (by decide +kernel)) (by decide +kernel)

/-- A 64-bit bus and the default burst length. -/
def axwExC256 : AxwCfg := { tb := 3, addrW := 32, burst := 256, force64 := false }

/-- A write of 512 DWORDs to 0x104. -/
def axwExW512 : TlpHdr := ⟨0x40000200, 0xff, 0x104, 0⟩

/-- The first word of the write, and pauses. -/
def axwExWrap : List AxwIn :=
  [axwEx axwExW512 0x10 true true false true true, axwEx axwExW512 0x10 true true false true true] ++
    List.replicate 5 (axwEx axwExW512 0 false false false true true)

/-- **C73** fails: with the default burst length of 256 on a 64-bit bus, a write of 512 DWORDs to an address that is not aligned gets
a burst with one data transfer, whose length has wrapped. Nothing is written: the data transfer has no strobe, and after the first of
the 256 words of the TLP the module is idle. -/
theorem C73_wrap_fails :
    AxwCfgOk axwExC256 ∧ AxwInOk axwExC256 (axwTaken axwExC256 (axwStep axwExC256 axwExState axwExRst) axwExWrap) ∧
    (axwTaken axwExC256 (axwStep axwExC256 axwExState axwExRst) axwExWrap).map (·.hdr.dw0) = [0x40000200] ∧
    axwAws axwExC256 (axwStep axwExC256 axwExState axwExRst) axwExWrap = [(0x104, 0)] ∧
    axiWrites 8 (axwAws axwExC256 (axwStep axwExC256 axwExState axwExRst) axwExWrap)
      (axwWs axwExC256 (axwStep axwExC256 axwExState axwExRst) axwExWrap) = [] ∧
    (axwWs axwExC256 (axwStep axwExC256 axwExState axwExRst) axwExWrap).length = 1 ∧
    (axwRun axwExC256 (axwStep axwExC256 axwExState axwExRst) axwExWrap).st = .idle :=
  ⟨⟨by decide, by decide, by decide⟩, by decide +kernel, by decide +kernel, by decide +kernel, by decide +kernel, by decide +kernel, by decide +kernel⟩

end Verif.Props
