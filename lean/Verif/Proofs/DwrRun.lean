import Verif.Proofs.DwrFrame
/-! Histories of the DMA write interface. -/
namespace Verif.Proofs
open Verif Verif.Model Verif.Spec

/-- The ghost state after reset. -/
def dwrGhost0 (s : Dwr) : DwrGhost :=
  { D := [], A := [], B := none, C := [], U := [], cmdSeg := s.req, pend := fun _ => [], acc := [], outs := [],
    P := [], sts := [] }

/-- The register value for a maximum payload size. -/
def mpsDw (mps : Nat) : Nat := 32 * 2 ^ (if mps > 5 then 5 else mps)

theorem mpsDw_bounds (mps : Nat) : 1 ≤ mpsDw mps ∧ mpsDw mps ≤ 1024 := by
  unfold mpsDw
  have h : (if mps > 5 then 5 else mps) ≤ 5 := by split <;> omega
  generalize (if mps > 5 then 5 else mps) = k at *
  have h1 := Nat.two_pow_pos k
  have h2 := Nat.pow_le_pow_right (n := 2) (by omega) h
  omega

theorem dwrInv_reset (c : DwrCfg) (mem : Nat → Nat → UInt8) (rid : Nat) (s : Dwr) (r : DwrIn) (hr : r.rst = true) :
    DwrInv c mem (mpsDw r.mps) rid (dwrGhost0 s) (dwrStep c s r) := by
  have e : dwrStep c s r =
    { dwrNext c s r with
      req := { (dwrNext c s r).req with start := false, ready := false }
      rd := { (dwrNext c s r).rd with read := false }
      tx := { (dwrNext c s r).tx with transfer := false }
      cmdV := false
      ramMaskV := false
      outV := false
      stV := false
      cmdValid := fun _ => false
      txCount := 0
      txAv := true
      fifo := ringReset (dwrNext c s r).fifo
      tbl := { (dwrNext c s r).tbl with start := 0, txStart := 0, txFinish := 0, finish := 0, active := fun _ => false } } := by
    simp [dwrStep, hr]
  rw [e]
  have hring := ring_reset (c.opW + 1) (dwrNext c s r).fifo
  exact {
    tbl := tblOk_reset c.opW _
    tx0 := fun _ => rfl
    tx1 := by intro r n h; simp [dwrGhost0] at h
    cmd := by simp
    rdL := by simp
    reads := by simp [dwrGhost0, readRem, bReads]
    ring := hring.1
    fifo := by simp [dwrGhost0, hring.2.1]
    pend := by simp [dwrGhost0]
    req := by simp
    segs := by simp [dwrGhost0, bSeg]
    mps := rfl
    outs := by simp [dwrGhost0]
    beats := by simp [dwrGhost0, bBeats]
    ok := by simp [dwrGhost0]
    st := by simp [dwrGhost0, lastTags] }

theorem dwrInv_run {c : DwrCfg} {mem : Nat → Nat → UInt8} {mps rid : Nat} (is : List DwrIn) (g : DwrGhost) (s : Dwr)
    (h : DwrInv c mem (mpsDw mps) rid g s) (hram : RamOk c mem g.pend s is)
    (his : ∀ i ∈ is, i.rst = false ∧ i.requesterId = rid ∧ i.mps = mps) :
    ∃ g', DwrInv c mem (mpsDw mps) rid g' (dwrRun c s is) ∧ g'.acc = g.acc ++ dwrAccepted c s is ∧
      g'.outs = g.outs ++ dwrSent c s is ∧ g'.sts = g.sts ++ dwrStatus c s is := by
  induction is generalizing g s with
  | nil => exact ⟨g, h, by simp [dwrAccepted, dwrTrace], by simp [dwrSent, dwrTrace], by simp [dwrStatus, dwrTrace]⟩
  | cons i is ih =>
    obtain ⟨hb1, hb2⟩ := mpsDw_bounds mps
    obtain ⟨i1, i2, i3⟩ := his i List.mem_cons_self
    have hs := h.step hb1 hb2 i1 hram.1 i2 (by rw [i3]; rfl)
    obtain ⟨g', h1, h2, h3, h4⟩ := ih (dwrGhost c g s i) (dwrStep c s i) hs hram.2
      (fun j hj => his j (List.mem_cons_of_mem _ hj))
    refine ⟨g', h1, ?_, ?_, ?_⟩
    · rw [h2]
      simp only [dwrGhost, dwrAccepted, dwrTrace, List.filterMap_cons]
      split <;> simp
    · rw [h3]
      simp only [dwrGhost, dwrSent, dwrTrace, List.filterMap_cons]
      split <;> simp
    · rw [h4]
      simp only [dwrGhost, dwrStatus, dwrTrace, List.filterMap_cons]
      split <;> simp

/-! ### Descriptors -/

/-- A descriptor as it comes from the inputs. -/
structure DescOk (c : DwrCfg) (d : WrDesc) : Prop where
  addr : d.addr < 2 ^ 64
  ram : d.ram < 2 ^ c.ramW
  imm : d.immEn = true → c.immEn = true

theorem descOf_ok (c : DwrCfg) (i : DwrIn) : DescOk c (descOf c i) := by
  refine ⟨Nat.mod_lt _ (Nat.two_pow_pos _), Nat.mod_lt _ (Nat.two_pow_pos _), ?_⟩
  simp only [descOf, Bool.and_eq_true]
  exact fun h => h.1

theorem accepted_ok (c : DwrCfg) (s : Dwr) (is : List DwrIn) : ∀ d ∈ dwrAccepted c s is, DescOk c d := by
  intro d hd
  simp only [dwrAccepted, List.mem_filterMap] at hd
  obtain ⟨x, _, hx⟩ := hd
  split at hx
  · simp only [Option.some.injEq] at hx; subst hx; exact descOf_ok c x.2
  · simp at hx

/-- What the request state machine keeps. -/
structure ReqWf (c : DwrCfg) (m : Nat) (r : DwrReq) : Prop extends ReqOk m r where
  addr : r.addr < 2 ^ 64
  ram : r.ram < 2 ^ c.ramW
  imm : r.immEn = true → c.immEn = true
  zero : r.zero = true → r.count = 1

theorem reqOf_wf {c : DwrCfg} {m : Nat} {d : WrDesc} (hd : DescOk c d) : ReqWf c m (reqOf m d) := by
  refine ⟨⟨rfl, rfl, ?_⟩, hd.addr, ?_, hd.imm, ?_⟩
  · show 1 ≤ if d.len = 0 then 1 else d.len
    split <;> omega
  · show (if d.immEn then 0 else d.ram) < _
    split
    · exact Nat.two_pow_pos _
    · exact hd.ram
  · intro hz
    have hz : d.len = 0 := by simpa [reqOf] using hz
    simp [reqOf, hz]

theorem ReqWf.seg {c : DwrCfg} {m : Nat} (h0 : 1 ≤ m) (h1 : m ≤ 1024) {r : DwrReq} (h : ReqWf c m r) : SegOk c m r := by
  have hs := tlpSize_facts (a := r.addr) h0 h1 h.pos
  rw [← h.size] at hs
  refine ⟨hs.1, hs.2.1, hs.2.2.1, hs.2.2.2, h.addr, h.ram, h.imm, ?_⟩
  intro hz
  have := h.zero hz
  omega

theorem ReqWf.next {c : DwrCfg} {m : Nat} (h0 : 1 ≤ m) (h1 : m ≤ 1024) {r : DwrReq} (h : ReqWf c m r)
    (hne : r.count ≠ r.tlpCount) : ReqWf c m (reqNext c m r) := by
  have hs := tlpSize_facts (a := r.addr) h0 h1 h.pos
  rw [← h.size] at hs
  refine ⟨⟨h.ready, rfl, by show 1 ≤ r.count - r.tlpCount; omega⟩, Nat.mod_lt _ (Nat.two_pow_pos _),
    Nat.mod_lt _ (Nat.two_pow_pos _), h.imm, ?_⟩
  intro hz
  have := h.zero hz
  omega

/-- The TLPs from a request: they are well formed, write the remaining bytes, and just one is the last. -/
theorem reqSegs_facts {c : DwrCfg} {mem : Nat → Nat → UInt8} {m : Nat} (hc : DwrCfgOk c) (h0 : 1 ≤ m) (h1 : m ≤ 1024)
    (n : Nat) (r : DwrReq) (h : ReqWf c m r) (hn : r.count ≤ n) :
    (∀ q ∈ reqSegs c m n r, SegOk c m q ∧ q.zero = r.zero) ∧
    (r.zero = false → ((reqSegs c m n r).map (segWrites c mem)).flatten =
      (List.range r.count).map fun p => ((r.addr + p) % 2 ^ 64, segSrc c mem r p)) ∧
    (∃ front last, reqSegs c m n r = front ++ [last] ∧ (∀ q ∈ front, q.count ≠ q.tlpCount) ∧ last.count = last.tlpCount ∧
      last.tag = r.tag) ∧
    (r.zero = true → reqSegs c m n r = [r]) := by
  induction n generalizing r with
  | zero => have := h.pos; omega
  | succ n ih =>
    have hs := h.seg h0 h1
    have hle := hs.le
    have hpos := hs.pos
    have hpg := hs.page
    have had := hs.addr
    have hw : r.zero = false → segWrites c mem r =
        (List.range r.tlpCount).map fun p => ((r.addr + p) % 2 ^ 64, segSrc c mem r p) := by
      intro hz
      simp only [segWrites, hz, Bool.false_eq_true, if_false]
      apply List.map_congr_left
      intro p hp
      have := List.mem_range.mp hp
      rw [Nat.mod_eq_of_lt]
      simp only [Nat.reducePow] at had ⊢
      omega
    simp only [reqSegs]
    by_cases hl : r.count = r.tlpCount
    · rw [if_pos hl]
      refine ⟨?_, ?_, ⟨[], r, rfl, by simp, hl, rfl⟩, fun _ => rfl⟩
      · intro q hq; simp at hq; subst hq; exact ⟨hs, rfl⟩
      · intro hz
        simp only [List.map_cons, List.map_nil, List.flatten_cons, List.flatten_nil, List.append_nil]
        rw [hw hz, hl]
    · rw [if_neg hl]
      have hnext := h.next h0 h1 hl
      obtain ⟨i1, i2, ⟨front, last, i3, i4, i5, i6⟩, i7⟩ := ih (reqNext c m r) hnext
        (by show r.count - r.tlpCount ≤ n; omega)
      refine ⟨?_, ?_, ⟨r :: front, last, by rw [i3]; rfl, ?_, i5, i6⟩, ?_⟩
      · intro q hq
        rcases List.mem_cons.mp hq with rfl | hq
        · exact ⟨hs, rfl⟩
        · exact i1 q hq
      · intro hz
        have hz' : (reqNext c m r).zero = false := hz
        rw [List.map_cons, List.flatten_cons, i2 hz', hw hz]
        rw [show r.count = r.tlpCount + (r.count - r.tlpCount) by omega, List.range_add, List.map_append, List.map_map]
        congr 1
        apply List.map_congr_left
        intro p _
        simp only [Function.comp, Prod.mk.injEq]
        refine ⟨?_, ?_⟩
        · show ((r.addr + r.tlpCount) % 2 ^ 64 + p) % 2 ^ 64 = _
          rw [Nat.mod_add_mod, Nat.add_assoc]
        · have hdvd : c.rowBytes ∣ 2 ^ c.ramW := by unfold DwrCfg.rowBytes; exact Nat.pow_dvd_pow 2 hc.ram
          have e : ∀ M, M ∣ 2 ^ c.ramW → ((r.ram + r.tlpCount) % 2 ^ c.ramW + p) % M = (r.ram + (r.tlpCount + p)) % M := by
            intro M hM
            rw [Nat.add_mod, Nat.mod_mod_of_dvd _ hM, ← Nat.add_mod, Nat.add_assoc]
          unfold segSrc
          show (if r.immEn then r.imm (((r.ram + r.tlpCount) % 2 ^ c.ramW + p) % c.rowBytes) else
            mem r.sel (((r.ram + r.tlpCount) % 2 ^ c.ramW + p) % 2 ^ c.ramW)) = _
          rw [e _ hdvd, e _ (Nat.dvd_refl _)]
      · intro q hq
        rcases List.mem_cons.mp hq with rfl | hq
        · exact hl
        · exact i4 q hq
      · intro hz
        exact absurd (h.zero hz) (by omega)

theorem descSegs_split {c : DwrCfg} {mem : Nat → Nat → UInt8} {m : Nat} (hc : DwrCfgOk c) (h0 : 1 ≤ m) (h1 : m ≤ 1024)
    {d : WrDesc} (hd : DescOk c d) : SplitOf c mem d ((descSegs c m d).map (segWrites c mem)) := by
  obtain ⟨i1, i2, _, i4⟩ := reqSegs_facts (mem := mem) hc h0 h1 (reqOf m d).count (reqOf m d) (reqOf_wf hd) (Nat.le_refl _)
  by_cases hz : d.len = 0
  · have hzz : (reqOf m d).zero = true := by simp [reqOf, hz]
    have e : descSegs c m d = [reqOf m d] := i4 hzz
    refine ⟨?_, fun _ => ?_, fun h => absurd hz h⟩
    · rw [e]; simp [segWrites, hzz, descWrites, hz]
    · rw [e]; simp [segWrites, hzz]
  · have hzz : (reqOf m d).zero = false := by simp [reqOf, hz]
    refine ⟨?_, fun h => absurd h hz, ?_⟩
    · have := i2 hzz
      unfold descSegs
      rw [this]
      have hcnt : (reqOf m d).count = d.len := by simp [reqOf, hz]
      rw [hcnt]
      unfold descWrites
      apply List.map_congr_left
      intro p _
      simp only [Prod.mk.injEq]
      refine ⟨rfl, ?_⟩
      unfold segSrc reqOf
      simp only
      cases d.immEn <;> simp
    · intro _ hmem
      rw [List.mem_map] at hmem
      obtain ⟨q, hq, he⟩ := hmem
      obtain ⟨hs, hq0⟩ := i1 q hq
      have := hs.pos
      rw [hzz] at hq0
      simp [segWrites, hq0] at he
      omega

theorem descSegs_tags {c : DwrCfg} {m : Nat} (hc : DwrCfgOk c) (h0 : 1 ≤ m) (h1 : m ≤ 1024) {d : WrDesc} (hd : DescOk c d) :
    (∀ q ∈ descSegs c m d, SegOk c m q) ∧
    ∃ front last, descSegs c m d = front ++ [last] ∧ (∀ q ∈ front, q.count ≠ q.tlpCount) ∧ last.count = last.tlpCount ∧
      last.tag = d.tag := by
  obtain ⟨i1, _, i3, _⟩ := reqSegs_facts (mem := fun _ _ => 0) hc h0 h1 (reqOf m d).count (reqOf m d) (reqOf_wf hd) (Nat.le_refl _)
  exact ⟨fun q hq => (i1 q hq).1, i3⟩

/-- The finished TLPs contain those of whole descriptors, whose statuses have been given. -/
theorem tags_split {c : DwrCfg} {m : Nat} (hc : DwrCfgOk c) (h0 : 1 ≤ m) (h1 : m ≤ 1024) (acc : List WrDesc)
    (hacc : ∀ d ∈ acc, DescOk c d) (D rest : List DwrReq) (h : acc.flatMap (descSegs c m) = D ++ rest) :
    ∃ n, n ≤ acc.length ∧ lastTags D = (acc.take n).map (·.tag) ∧ (acc.take n).flatMap (descSegs c m) <+: D := by
  induction acc generalizing D with
  | nil =>
    simp at h
    exact ⟨0, by simp, by simp [h.1, lastTags], by simp⟩
  | cons d acc ih =>
    obtain ⟨_, front, last, e, hf, hl, ht⟩ := descSegs_tags hc h0 h1 (hacc d List.mem_cons_self)
    rw [List.flatMap_cons] at h
    rcases List.append_eq_append_iff.mp h with ⟨D', h2, h3⟩ | ⟨R', h2, h3⟩
    · -- all TLPs of the first descriptor have finished
      obtain ⟨n, n1, n2, n3⟩ := ih (fun x hx => hacc x (List.mem_cons_of_mem _ hx)) D' h3
      refine ⟨n + 1, by simp; omega, ?_, ?_⟩
      · rw [h2]
        unfold lastTags at n2 ⊢
        rw [List.filter_append, List.map_append, n2, List.take_succ_cons, List.map_cons, e]
        have : (front ++ [last]).filter (fun r => r.count == r.tlpCount) = [last] := by
          rw [List.filter_append]
          have h4 : front.filter (fun r => r.count == r.tlpCount) = [] := by
            rw [List.filter_eq_nil_iff]; intro q hq; simpa using hf q hq
          rw [h4]; simp [hl]
        rw [this]; simp [ht]
      · rw [h2, List.take_succ_cons, List.flatMap_cons]
        exact List.prefix_append_right_inj _ |>.mpr n3
    · cases hR : R' with
      | nil =>
        -- exactly the first descriptor
        rw [hR, List.append_nil] at h2
        refine ⟨1, by simp, ?_, ?_⟩
        · rw [← h2, e]
          unfold lastTags
          have : (front ++ [last]).filter (fun r => r.count == r.tlpCount) = [last] := by
            rw [List.filter_append]
            have h4 : front.filter (fun r => r.count == r.tlpCount) = [] := by
              rw [List.filter_eq_nil_iff]; intro q hq; simpa using hf q hq
            rw [h4]; simp [hl]
          rw [this]; simp [ht]
        · simp [h2]
      | cons q R'' =>
        -- the first descriptor is not finished
        refine ⟨0, by simp, ?_, by simp⟩
        have hsub : ∀ x ∈ D, x ∈ front := by
          intro x hx
          have h5 : front ++ [last] = D ++ R' := by rw [← e, h2]
          rcases List.append_eq_append_iff.mp h5 with ⟨X, x1, x2⟩ | ⟨X, x1, x2⟩
          · -- `D = front ++ X` and `[last] = X ++ R'`
            rw [hR] at x2
            cases X with
            | nil => rw [x1, List.append_nil] at hx; exact hx
            | cons y Y => simp at x2
          · rw [x1]; exact List.mem_append_left _ hx
        unfold lastTags
        have : D.filter (fun r => r.count == r.tlpCount) = [] := by
          rw [List.filter_eq_nil_iff]; intro x hx; simpa using hf x (hsub x hx)
        rw [this]; simp

/-! ### Framing -/

/-- Transfers `k`, `k+1`, ... of a TLP whose last transfer is `N`. -/
def FrameFrom (N : Nat) : Nat → List DwrBeat → Prop
  | _, [] => True
  | k, b :: bs => b.sop = (k == 0) ∧ b.eop = (k == N) ∧ k ≤ N ∧ FrameFrom N (k + 1) bs

theorem frames_full (N k : Nat) (l : List DwrBeat) (h : FrameFrom N k l) (hl : l.length + k = N + 1) (hk : k ≤ N)
    (cur rest : List DwrBeat) :
    framesAux cur (l ++ rest) = (cur ++ l) :: framesAux [] rest ∧ (Framed true rest → Framed (k == 0) (l ++ rest)) := by
  induction l generalizing k cur with
  | nil => simp at hl; omega
  | cons b bs ih =>
    obtain ⟨h1, h2, _, h3⟩ := h
    simp only [List.cons_append, framesAux, Framed]
    by_cases hN : k = N
    · have : bs = [] := List.length_eq_zero_iff.mp (by simp only [List.length_cons] at hl; omega)
      subst this
      rw [h2]
      simp only [hN, BEq.rfl, if_true, List.nil_append]
      exact ⟨trivial, fun hf => ⟨by rw [h1, hN], hf⟩⟩
    · obtain ⟨i1, i2⟩ := ih (k + 1) h3 (by simp at hl; omega) (by omega) (cur ++ [b])
      have : b.eop = false := by rw [h2]; simpa using hN
      rw [this]
      simp only [Bool.false_eq_true, if_false]
      rw [i1]
      refine ⟨by simp, fun hf => ⟨h1, ?_⟩⟩
      have := i2 hf
      simpa using this

theorem frames_part (N k : Nat) (l : List DwrBeat) (h : FrameFrom N k l) (hl : l.length + k ≤ N) (cur : List DwrBeat) :
    framesAux cur l = [] ∧ Framed (k == 0) l := by
  induction l generalizing k cur with
  | nil => exact ⟨rfl, trivial⟩
  | cons b bs ih =>
    obtain ⟨h1, h2, _, h3⟩ := h
    simp only [List.length_cons] at hl
    have : b.eop = false := by rw [h2]; simp; omega
    obtain ⟨i1, i2⟩ := ih (k + 1) h3 (by omega) (cur ++ [b])
    simp only [framesAux, Framed, this, Bool.false_eq_true, if_false]
    exact ⟨i1, h1, by simpa using i2⟩

theorem framesAux_prefix (cur l l' : List DwrBeat) : framesAux cur l <+: framesAux cur (l ++ l') := by
  induction l generalizing cur with
  | nil => simp [framesAux]
  | cons b bs ih =>
    simp only [List.cons_append, framesAux]
    split
    · exact List.cons_prefix_cons.mpr ⟨rfl, ih []⟩
    · exact ih _

theorem framed_prefix (f : Bool) (l l' : List DwrBeat) (h : Framed f (l ++ l')) : Framed f l := by
  induction l generalizing f with
  | nil => trivial
  | cons b bs ih => exact ⟨h.1, ih _ h.2⟩

section
variable {c : DwrCfg} {mem : Nat → Nat → UInt8} {m rid : Nat}

theorem frameFrom_of (r : DwrReq) (k : Nat) (P : List ((DwrReq × Nat) × DwrBeat)) (n : Nat)
    (hP : P.map (·.1) = (List.range n).map fun j => (r, k + j)) (hn : k + n ≤ segCyc c r + 1)
    (hok : ∀ p ∈ P, BeatOk c mem rid p.1.1 p.1.2 p.2) : FrameFrom (segCyc c r) k (P.map (·.2)) := by
  induction n generalizing k P with
  | zero => simp at hP; subst hP; trivial
  | succ n ih =>
    cases P with
    | nil => simp at hP
    | cons p P =>
      rw [List.range_succ_eq_map, List.map_cons, List.map_cons, List.map_map] at hP
      simp only [List.cons.injEq] at hP
      have hp := hok p List.mem_cons_self
      rw [hP.1] at hp
      refine ⟨hp.sop, hp.eop, by omega, ?_⟩
      refine ih (k + 1) P ?_ (by omega) (fun q hq => hok q (List.mem_cons_of_mem _ hq))
      rw [hP.2]
      apply List.map_congr_left
      intro j _
      simp only [Function.comp, Prod.mk.injEq, true_and]
      omega

theorem frames_all (hc : DwrCfgOk c) (hm : m ≤ 512) (hrid : rid < 2 ^ 16) (T : List DwrReq)
    (hT : ∀ r ∈ T, SegOk c m r) (B : Option (DwrReq × Nat)) (hB : ∀ r n, B = some (r, n) → n ≤ segCyc c r)
    (P : List ((DwrReq × Nat) × DwrBeat)) (hP : P.map (·.1) = T.flatMap (segBeats c) ++ bBeats B)
    (hok : ∀ p ∈ P, BeatOk c mem rid p.1.1 p.1.2 p.2) :
    (frames (P.map (·.2))).map (frameWrites c) = T.map (segWrites c mem) ∧
    (∀ f ∈ frames (P.map (·.2)), WriteTlpOk c rid (4 * m) f) ∧ Framed true (P.map (·.2)) := by
  induction T generalizing P with
  | nil =>
    simp only [List.flatMap_nil, List.nil_append] at hP
    cases hBv : B with
    | none =>
      rw [hBv] at hP
      simp [bBeats] at hP
      subst hP
      exact ⟨rfl, by simp [frames, framesAux], trivial⟩
    | some x =>
      obtain ⟨r, n⟩ := x
      have hn := hB r n hBv
      rw [hBv] at hP
      simp only [bBeats] at hP
      have hf := frameFrom_of (c := c) (mem := mem) (rid := rid) r 0 P n (by simpa using hP) (by omega) hok
      have hlen : P.length = n := by
        have := congrArg List.length hP; simpa using this
      obtain ⟨f1, f2⟩ := frames_part (segCyc c r) 0 _ hf (by simp [hlen]; exact hn) []
      unfold frames
      rw [f1]
      exact ⟨rfl, by simp, by simpa using f2⟩
  | cons r T ih =>
    rw [List.flatMap_cons, List.append_assoc] at hP
    obtain ⟨P1, P2, rfl, hP1, hP2⟩ := List.map_eq_append_iff.mp hP
    have hok1 : ∀ p ∈ P1, BeatOk c mem rid p.1.1 p.1.2 p.2 := fun p hp => hok p (List.mem_append_left _ hp)
    have hok2 : ∀ p ∈ P2, BeatOk c mem rid p.1.1 p.1.2 p.2 := fun p hp => hok p (List.mem_append_right _ hp)
    obtain ⟨j1, j2, j3⟩ := ih (fun q hq => hT q (List.mem_cons_of_mem _ hq)) P2 hP2 hok2
    have hr := hT r List.mem_cons_self
    have hlen : P1.length = segCyc c r + 1 := by
      have := congrArg List.length hP1; simpa [segBeats] using this
    have hf := frameFrom_of (c := c) (mem := mem) (rid := rid) r 0 P1 (segCyc c r + 1) (by simpa [segBeats] using hP1)
      (by omega) hok1
    obtain ⟨f1, f2⟩ := frames_full (segCyc c r) 0 _ hf (by simp [hlen]) (Nat.zero_le _) [] (P2.map (·.2))
    rw [List.map_append]
    unfold frames at j1 j2 ⊢
    rw [f1, List.nil_append]
    -- the transfers of this TLP as a function
    have hnth : ∀ n (hn : n < P1.length), BeatOk c mem rid r n (P1[n]).2 := by
      intro n hn
      have h1 := hok1 P1[n] (List.getElem_mem hn)
      have h2 : (P1[n]).1 = (r, n) := by
        have h3 : (P1.map (·.1))[n]? = some (r, n) := by
          rw [hP1, segBeats, List.getElem?_map, List.getElem?_range (by omega)]; rfl
        rw [List.getElem?_map, List.getElem?_eq_getElem hn] at h3
        simpa using h3
      rwa [h2] at h1
    have hb0 : 0 < P1.length := by omega
    have heq : P1.map (·.2) = (List.range (segCyc c r + 1)).map fun n => if hn : n < P1.length then (P1[n]).2 else (P1[0]).2 := by
      apply List.ext_getElem
      · simp [hlen]
      · intro n h1 h2
        simp only [List.getElem_map, List.getElem_range]
        rw [dif_pos (by simpa using h1)]
    obtain ⟨w1, w2⟩ := frame_ok (mem := mem) hc hm hr
      (fun n => if hn : n < P1.length then (P1[n]).2 else (P1[0]).2)
      (by
        intro n hn
        have : n < P1.length := by rw [hlen]; omega
        simp only [this, dif_pos]
        exact hnth n this) hrid
    rw [← heq] at w1 w2
    refine ⟨?_, ?_, ?_⟩
    · rw [List.map_cons, List.map_cons, w2, j1]
    · intro f hf'
      rcases List.mem_cons.mp hf' with rfl | hf'
      · exact w1
      · exact j2 f hf'
    · simpa using f2 j3

end

/-- The invariant after a history that starts with reset. -/
theorem dwr_history {c : DwrCfg} (mem : Nat → Nat → UInt8) {mps rid : Nat} (s : Dwr) (r : DwrIn) (is : List DwrIn)
    (hr : r.rst = true) (his : ∀ i ∈ is, i.rst = false) (hin : ∀ i ∈ r :: is, i.mps = mps ∧ i.requesterId = rid)
    (hram : RamOk c mem (fun _ => []) (dwrStep c s r) is) :
    ∃ g, DwrInv c mem (mpsDw mps) rid g (dwrRun c (dwrStep c s r) is) ∧ g.acc = dwrAccepted c (dwrStep c s r) is ∧
      g.outs = dwrSent c (dwrStep c s r) is ∧ g.sts = dwrStatus c (dwrStep c s r) is := by
  have h := dwrInv_reset c mem rid s r hr
  rw [(hin r List.mem_cons_self).1] at h
  obtain ⟨g, h1, h2, h3, h4⟩ := dwrInv_run is (dwrGhost0 s) _ h hram
    (fun i hi => ⟨his i hi, (hin i (List.mem_cons_of_mem _ hi)).2, (hin i (List.mem_cons_of_mem _ hi)).1⟩)
  exact ⟨g, h1, by simpa [dwrGhost0] using h2, by simpa [dwrGhost0] using h3, by simpa [dwrGhost0] using h4⟩

/-- Everything about the presented transfers and the statuses. -/
theorem dwr_main {c : DwrCfg} (hc : DwrCfgOk c) {mem : Nat → Nat → UInt8} {mps rid : Nat} (hm : mps ≤ 4)
    (hrid : rid < 2 ^ 16) (s : Dwr) (r : DwrIn) (is : List DwrIn)
    (hr : r.rst = true) (his : ∀ i ∈ is, i.rst = false) (hin : ∀ i ∈ r :: is, i.mps = mps ∧ i.requesterId = rid)
    (hram : RamOk c mem (fun _ => []) (dwrStep c s r) is) :
    Framed true (dwrPresented c (dwrStep c s r) is) ∧
    (∀ f ∈ frames (dwrPresented c (dwrStep c s r) is), WriteTlpOk c rid (128 * 2 ^ mps) f) ∧
    ∃ parts : WrDesc → List (List (Nat × UInt8)), ∃ n,
      (∀ d ∈ dwrAccepted c (dwrStep c s r) is, SplitOf c mem d (parts d)) ∧
      (frames (dwrPresented c (dwrStep c s r) is)).map (frameWrites c) <+: (dwrAccepted c (dwrStep c s r) is).flatMap parts ∧
      n ≤ (dwrAccepted c (dwrStep c s r) is).length ∧
      dwrStatusNow c (dwrStep c s r) is = ((dwrAccepted c (dwrStep c s r) is).take n).map (·.tag) ∧
      ((dwrAccepted c (dwrStep c s r) is).take n).flatMap parts <+:
        (frames (dwrPresented c (dwrStep c s r) is)).map (frameWrites c) := by
  obtain ⟨g, hI, ha, ho, hst⟩ := dwr_history mem s r is hr his hin hram
  obtain ⟨h0, h1⟩ := mpsDw_bounds mps
  have hm' : mpsDw mps ≤ 512 ∧ 4 * mpsDw mps = 128 * 2 ^ mps := by
    unfold mpsDw
    rw [if_neg (by omega)]
    have := Nat.pow_le_pow_right (n := 2) (by omega) hm
    omega
  have hok := accepted_ok c (dwrStep c s r) is
  rw [← ha] at hok
  have hseg := hI.segs
  have hSeg : ∀ q ∈ g.D ++ g.A, SegOk c (mpsDw mps) q := by
    intro q hq
    have : q ∈ g.acc.flatMap (descSegs c (mpsDw mps)) := by
      rw [← hseg]; simp only [List.append_assoc] at *; simp only [List.mem_append] at *; rcases hq with h | h <;> simp [h]
    rw [List.mem_flatMap] at this
    obtain ⟨d, hd, hq⟩ := this
    exact (descSegs_tags hc h0 h1 (hok d hd)).1 q hq
  have hpres : dwrPresented c (dwrStep c s r) is = g.P.map (·.2) := by
    unfold dwrPresented; rw [← ho]; exact hI.outs
  obtain ⟨f1, f2, f3⟩ := frames_all hc hm'.1 hrid (g.D ++ g.A) hSeg g.B (fun r n h => (hI.tx1 r n h).2) g.P hI.beats hI.ok
  obtain ⟨n, n1, n2, n3⟩ := tags_split hc h0 h1 g.acc hok g.D _ (by rw [← hseg]; simp only [List.append_assoc]; rfl)
  rw [hpres]
  refine ⟨f3, by rw [← hm'.2]; exact f2, fun d => (descSegs c (mpsDw mps) d).map (segWrites c mem), n, ?_, ?_, ?_, ?_, ?_⟩
  · rw [← ha]; exact fun d hd => descSegs_split hc h0 h1 (hok d hd)
  · rw [f1, ← ha, ← List.map_flatMap, ← hseg]
    simp only [List.map_append, List.append_assoc]
    exact List.prefix_append_right_inj _ |>.mpr (List.prefix_append _ _)
  · rw [← ha]; exact n1
  · rw [← ha, ← n2]
    unfold dwrStatusNow
    rw [← hst]; exact hI.st
  · rw [f1, ← ha, ← List.map_flatMap, List.map_append]
    obtain ⟨t, ht⟩ := n3
    exact ⟨t.map (segWrites c mem) ++ g.A.map (segWrites c mem), by rw [← ht, List.map_append, List.append_assoc]⟩

end Verif.Proofs
