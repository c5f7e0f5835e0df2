import Verif.Proofs.AxiMasterWr
/-! Invariant of the AXI master for writes. -/
namespace Verif.Proofs
open Verif Verif.Model Verif.Spec

theorem axwStep_norst (c : AxwCfg) (s : Axw) (i : AxwIn) (hr : i.rst = false) : axwStep c s i = axwNext c s i false := by
  unfold axwStep; rw [hr]; rfl

theorem tlpBeats_eq (c : AxwCfg) (g : List AxwIn) (w : AxwIn) (hw : g.head? = some w) (hd : tlpDoWrite w.hdr = true) :
    tlpBeats c g = (List.range (tlpBeatCount c w.hdr)).map (tlpBeatAt c w.hdr g) := by
  cases g with
  | nil => cases hw
  | cons x xs => cases hw; unfold tlpBeats; simp only [hd, if_true]; rfl

theorem tlpBeats_none (c : AxwCfg) (g : List AxwIn) (w : AxwIn) (hw : g.head? = some w) (hd : tlpDoWrite w.hdr = false) :
    tlpBeats c g = [] ∧ tlpBurst c g = none := by
  cases g with
  | nil => cases hw
  | cons x xs => cases hw; unfold tlpBeats tlpBurst; simp [hd]

theorem tlpBurst_eq (c : AxwCfg) (g : List AxwIn) (w : AxwIn) (hw : g.head? = some w) (hd : tlpDoWrite w.hdr = true) :
    tlpBurst c g = some (axwTlpAddr c w.hdr, tlpBeatCount c w.hdr - 1) := by
  cases g with
  | nil => cases hw
  | cons x xs => cases hw; unfold tlpBurst; simp [hd]

/-- A data transfer depends on the words up to it only. -/
theorem tlpBeatAt_append (c : AxwCfg) (h : TlpHdr) (g l : List AxwIn) (j : Nat) (hj : j < g.length) :
    tlpBeatAt c h (g ++ l) j = tlpBeatAt c h g j := by
  unfold tlpBeatAt
  refine Prod.ext ?_ rfl
  refine List.map_congr_left fun k hk => ?_
  have hk := List.mem_range.1 hk
  dsimp only
  have e : tlpByte (2 ^ c.tb) (g ++ l) (j * 2 ^ c.tb + k - axwTlpAddr c h % 2 ^ c.tb) =
      tlpByte (2 ^ c.tb) g (j * 2 ^ c.tb + k - axwTlpAddr c h % 2 ^ c.tb) := by
    unfold tlpByte
    rw [List.getElem?_append_left]
    refine Nat.lt_of_lt_of_le (Nat.div_lt_of_lt_mul (k := j + 1) ?_) (by omega)
    rw [Nat.mul_succ, Nat.mul_comm]
    omega
  rw [e]

theorem take_range_map {α : Type} (f : Nat → α) (n m : Nat) (h : n < m) :
    ((List.range m).map f).take (n + 1) = ((List.range m).map f).take n ++ [f n] := by
  rw [List.take_add_one]
  simp [h]

theorem axw_words_beats (c : AxwCfg) (hc : AxwCfgOk c) (h : TlpHdr) :
    1 ≤ tlpWords (2 ^ c.tb) h ∧ tlpWords (2 ^ c.tb) h ≤ tlpBeatCount c h ∧ tlpBeatCount c h ≤ tlpWords (2 ^ c.tb) h + 1 ∧
    tlpWords (2 ^ c.tb) h ≤ 1024 := by
  obtain ⟨hb, hd⟩ := axw_bytes c hc
  have hO : axwO c h < c.dws := (axwOff_eq c hc h).2
  have hL := hdrLen_pos h
  have hw := axw_words c hc h
  have hn := axw_beatCount c hc h
  refine ⟨?_, ?_, ?_, ?_⟩
  · have := (hw 0).2 (by omega); omega
  · have h1 := hn (tlpBeatCount c h)
    have h2 := hw (tlpBeatCount c h)
    omega
  · have h1 := hw (tlpWords (2 ^ c.tb) h)
    have h2 := hn (tlpWords (2 ^ c.tb) h + 1)
    rw [Nat.succ_mul] at h2
    omega
  · have h1 := hw 1024
    omega

/-- The data transfers generated so far are those of the TLPs taken. -/
inductive AxwBody (c : AxwCfg) (s : Axw) (ws : List AxwIn) (P : List (List (Option UInt8) × Bool)) : Prop
  | idle (st : s.st = .idle) (cur : (axwSplit ws).2 = []) (out : P = (axwAll ws).flatMap (tlpBeats c))
  | waitEnd (w : AxwIn) (st : s.st = .waitEnd) (cur : (axwSplit ws).2.head? = some w) (bad : tlpDoWrite w.hdr = false)
      (out : P = (axwAll ws).flatMap (tlpBeats c))
  | transfer (pre : List (List AxwIn)) (w : AxwIn) (g : List AxwIn) (n : Nat) (all : axwAll ws = pre ++ [g])
      (good : tlpDoWrite w.hdr = true) (x : AxwXfer c s w g n) (out : P = pre.flatMap (tlpBeats c) ++ (tlpBeats c g).take n)
      (cfst : s.first = true → ringCount 5 s.out.ring ≤ 17)
      (clst : s.first = false → s.inA = false → ringCount 5 s.out.ring ≤ 18)

/-- The invariant: `P` are the data transfers generated and `A` the bursts. -/
structure AxwInv (c : AxwCfg) (s : Axw) (ws : List AxwIn) (P : List (List (Option UInt8) × Bool)) (A : List (Nat × Nat)) : Prop where
  ring : RingOk 5 s.out.ring
  half : s.out.half = false → ringCount 5 s.out.ring ≤ 16
  cnt : ringCount 5 s.out.ring ≤ 19
  rdyCnt : s.ready = true → s.st ≠ .waitEnd → ringCount 5 s.out.ring ≤ 17
  idleAw : s.st = .idle → s.ready = true → s.awV = false
  bursts : A = (axwAll ws).filterMap (tlpBurst c)
  body : AxwBody c s ws P

/-- What a cycle adds to the words taken. -/
def axwTakeNow (s : Axw) (i : AxwIn) : List AxwIn := if s.ready && i.valid then [i] else []

/-- What a cycle adds to the data transfers generated. -/
def axwGenNow (c : AxwCfg) (s : Axw) (i : AxwIn) : List (List (Option UInt8) × Bool) :=
  if axwGo s i then [axwView (2 ^ c.tb) (axwBeat c s i)] else []

/-- What a cycle adds to the bursts. -/
def axwBurstNow (c : AxwCfg) (s : Axw) (i : AxwIn) : List (Nat × Nat) :=
  if axwHead s i && axwGood i.hdr || axwMore s i then [((axwStep c s i).awaddr, (axwStep c s i).awlen)] else []

/-- The output FIFO in one cycle. -/
theorem axw_ring (c : AxwCfg) (s : Axw) (i : AxwIn) (hr : i.rst = false) (hok : RingOk 5 s.out.ring) (hcnt : ringCount 5 s.out.ring ≤ 19) :
    RingOk 5 (axwStep c s i).out.ring ∧ ringCount 5 (axwStep c s i).out.ring ≤ ringCount 5 s.out.ring + (axwGo s i).toNat ∧
    ((axwStep c s i).out.half = false → ringCount 5 s.out.ring ≤ 15) := by
  rw [axwStep_norst c s i hr]
  obtain ⟨r, -, hr, hok', hcount, -⟩ := outFifo_ring_lt 5 s.out (axwGo s i) (axwBeat c s i) i.wReady hok (by omega)
  have e : (axwNext c s i false).out = outFifoStep 5 false s.out (axwGo s i) (axwBeat c s i) i.wReady := rfl
  rw [e, hr]
  refine ⟨hok', by omega, fun hh => ?_⟩
  have : (outFifoStep 5 false s.out (axwGo s i) (axwBeat c s i) i.wReady).half = decide (ringCount 5 s.out.ring ≥ 2 ^ (5 - 1)) := rfl
  rw [this] at hh
  simp at hh
  omega

theorem axwAll_idle (ws : List AxwIn) (h : (axwSplit ws).2 = []) : axwAll ws = (axwSplit ws).1 := by
  unfold axwAll; rw [if_pos h, List.append_nil]

theorem axwAll_cur (ws : List AxwIn) (h : (axwSplit ws).2 ≠ []) : axwAll ws = (axwSplit ws).1 ++ [(axwSplit ws).2] := by
  unfold axwAll; rw [if_neg h]

/-- A TLP that fits needs no second burst. -/
theorem axw_fits (c : AxwCfg) (hc : AxwCfgOk c) (h : TlpHdr) (hf : TlpFits c h) :
    axwO c h + hdrLen h ≤ c.maxDw ∧ c.maxDw = c.burst * c.dws := by
  obtain ⟨hb, hd⟩ := axw_bytes c hc
  unfold TlpFits at hf
  rw [(axwOff_eq c hc h).1] at hf
  have hm : c.maxDw = c.burst * c.dws := by
    unfold AxwCfg.maxDw
    rw [hb, Nat.mul_left_comm]; omega
  rw [hb, Nat.mul_left_comm, ← hm] at hf
  unfold axwO
  exact ⟨by omega, hm⟩

theorem axw_burstLen (c : AxwCfg) (hc : AxwCfgOk c) (h : TlpHdr) (hf : TlpFits c h) :
    axwBurstLen c (axwLen h) (axwAddr c h) = tlpBeatCount c h - 1 ∧ tlpBeatCount c h ≤ 256 ∧ axwTr c (axwLen h) (axwAddr c h) = hdrLen h := by
  obtain ⟨hb, hd⟩ := axw_bytes c hc
  obtain ⟨hm, hm'⟩ := axw_fits c hc h hf
  have hL := hdrLen_pos h
  have hn := axw_beatCount c hc h
  have hle : tlpBeatCount c h ≤ c.burst := by
    have h1 := hn c.burst
    omega
  have hbu := hc.burst
  unfold axwBurstLen axwTr
  rw [axwLen_eq, if_pos (by omega), if_pos (by omega)]
  have e : (hdrLen h + axwOff c (axwAddr c h) - 1) / c.dws = tlpBeatCount c h - 1 := by
    show (hdrLen h + axwO c h - 1) / c.dws = _
    have h0 := (hn 0).2 (by omega)
    have h1 := hn (tlpBeatCount c h - 1)
    have h2 := hn (tlpBeatCount c h)
    obtain ⟨m, hm⟩ : ∃ m, tlpBeatCount c h = m + 1 := ⟨tlpBeatCount c h - 1, by omega⟩
    rw [hm] at h1 h2 ⊢
    simp only [Nat.add_sub_cancel] at h1 ⊢
    rw [Nat.succ_mul] at h2
    apply Nat.div_eq_of_lt_le
    · omega
    · rw [Nat.succ_mul]; omega
  rw [e]
  refine ⟨Nat.mod_eq_of_lt (by omega), by omega, rfl⟩

theorem axw_head_xfer (c : AxwCfg) (hc : AxwCfgOk c) (s : Axw) (i : AxwIn) (hr : i.rst = false) (hh : axwHead s i = true)
    (hf : TlpFits c i.hdr) (hg : axwGood i.hdr = true) : AxwXfer c (axwStep c s i) i [i] 0 := by
  obtain ⟨hb, hd⟩ := axw_bytes c hc
  obtain ⟨h1, h2, h3⟩ := axw_burstLen c hc i.hdr hf
  obtain ⟨w1, w2, w3, w4⟩ := axw_words_beats c hc i.hdr
  have hL := hdrLen_pos i.hdr
  have hst : s.st = .idle := by unfold axwHead at hh; simp only [Bool.and_eq_true, beq_iff_eq] at hh; exact hh.1.1.1
  have hs1 : s.ready = true ∧ i.valid = true := by unfold axwHead at hh; simp only [Bool.and_eq_true, beq_iff_eq] at hh; exact ⟨hh.1.1.2, hh.1.2⟩
  rw [axwStep_norst c s i hr]
  have hin : axwInNext c s i = tlpWords (2 ^ c.tb) i.hdr - 1 := by
    unfold axwInNext
    rw [if_pos hh, h3]
    have e : (hdrLen i.hdr - 1) / c.dws = tlpWords (2 ^ c.tb) i.hdr - 1 := by
      have hn := axw_words c hc i.hdr
      have q1 := hn (tlpWords (2 ^ c.tb) i.hdr - 1)
      have q2 := hn (tlpWords (2 ^ c.tb) i.hdr)
      obtain ⟨m, hm⟩ : ∃ m, tlpWords (2 ^ c.tb) i.hdr = m + 1 := ⟨tlpWords (2 ^ c.tb) i.hdr - 1, by omega⟩
      rw [hm] at q1 q2 ⊢
      simp only [Nat.add_sub_cancel] at q1 ⊢
      rw [Nat.succ_mul] at q2
      apply Nat.div_eq_of_lt_le
      · omega
      · rw [Nat.succ_mul]; omega
    rw [e, Nat.mod_eq_of_lt (by omega)]
  have hout : axwOutNext c s i = tlpBeatCount c i.hdr - 1 := by
    unfold axwOutNext; rw [if_pos hh, h1]
  have hact : axwActNext c s i = (axwInNext c s i != 0) := by
    unfold axwActNext; rw [if_pos (by rw [hh]; rfl)]
  refine ⟨rfl, ?_, ?_, ?_, ?_, ?_, ?_, by omega, ?_, ?_, ?_, ?_, h2, ?_, fun _ => ⟨rfl, rfl⟩, ?_, ?_⟩
  · show axwStNext s i = _
    unfold axwStNext; rw [hst]; simp [hh, hg]
  · show (if axwHead s i then (axwLen i.hdr + 2 ^ 11 - axwTr c (axwLen i.hdr) (axwAddr c i.hdr)) % 2 ^ 11 else _) = 0
    rw [if_pos hh, h3, axwLen_eq, Nat.add_sub_cancel_left]
  · show (if axwHead s i then axwOff c (axwAddr c i.hdr) else s.off) = _
    rw [if_pos hh]; rfl
  · show (if axwHead s i then (axwOff c (axwAddr c i.hdr) + axwTr c (axwLen i.hdr) (axwAddr c i.hdr)) % c.dws else _) = _
    rw [if_pos hh, h3]; rfl
  · show (if s.st == .idle then i.hdr.dw1 % 16 else s.fbe) = _
    rw [hst]; simp [bits]
  · show (if s.st == .idle then if axwLen i.hdr = 1 then i.hdr.dw1 % 16 else i.hdr.dw1 / 16 % 16 else s.lbe) = _
    rw [hst, axwLen_eq]; simp [bits]
  · show axwOutNext c s i = _
    rw [hout]; rfl
  · show (if axwHead s i || axwGo s i then axwOutNext c s i == 0 else s.last) = (axwOutNext c s i == 0)
    rw [hh]; rfl
  · show axwInNext c s i + 1 = _
    omega
  · exact hact
  · show some i.data = some (if s.ready && i.valid then i.data else s.save)
    rw [hs1.1, hs1.2]; rfl
  · intro hf
    have : (axwNext c s i false).first = if axwHead s i then true else if axwGo s i then false else s.first := rfl
    rw [this, if_pos hh] at hf
    cases hf
  · intro hrd
    have : (axwNext c s i false).ready = axwReadyNext c s i := rfl
    rw [this] at hrd
    unfold axwReadyNext at hrd
    rw [hst] at hrd
    simp [hh, hg] at hrd

theorem axw_idle_step (c : AxwCfg) (hc : AxwCfgOk c) (s : Axw) (i : AxwIn) (ws : List AxwIn) (P : List (List (Option UInt8) × Bool)) (A : List (Nat × Nat))
    (hr : i.rst = false) (h : AxwInv c s ws P A) (hst : s.st = .idle) (hcur : (axwSplit ws).2 = []) (hP : P = (axwAll ws).flatMap (tlpBeats c))
    (hok : AxwInOk c (ws ++ axwTakeNow s i)) (hfit : AxwFits c (ws ++ axwTakeNow s i)) :
    AxwInv c (axwStep c s i) (ws ++ axwTakeNow s i) (P ++ axwGenNow c s i) (A ++ axwBurstNow c s i) := by
  obtain ⟨hring, hcnt, hhalf⟩ := axw_ring c s i hr h.ring h.cnt
  have hgo : axwGo s i = false := by unfold axwGo; rw [hst]; rfl
  have hmore : axwMore s i = false := by unfold axwMore; rw [hgo]; rfl
  rw [hgo] at hcnt
  simp only [Bool.toNat_false, Nat.add_zero] at hcnt
  have hc0 := h.cnt
  have hgen : axwGenNow c s i = [] := by unfold axwGenNow; rw [hgo]; rfl
  rw [hgen, List.append_nil]
  have hB : axwBurstNow c s i = if axwHead s i && axwGood i.hdr then [((axwStep c s i).awaddr, (axwStep c s i).awlen)] else [] := by
    unfold axwBurstNow; rw [hmore, Bool.or_false]
  rw [hB]
  have hst' : (axwStep c s i).st = if axwHead s i then if axwGood i.hdr then .transfer else if i.eop then .idle else .waitEnd else .idle := by
    rw [axwStep_norst c s i hr]; show axwStNext s i = _; unfold axwStNext; rw [hst]
  have hrdy' : (axwStep c s i).ready = if axwHead s i then if axwGood i.hdr then false else if i.eop then axwSpace s i else true else axwSpace s i := by
    rw [axwStep_norst c s i hr]; show axwReadyNext c s i = _; unfold axwReadyNext; rw [hst]
  have haw' : (axwStep c s i).awV = ((axwHead s i && axwGood i.hdr) || (s.awV && !i.awReady)) := by
    rw [axwStep_norst c s i hr]; show ((axwHead s i && axwGood i.hdr) || axwMore s i || (s.awV && !i.awReady)) = _
    rw [hmore, Bool.or_false]
  have hspc : axwSpace s i = true → ringCount 5 s.out.ring ≤ 16 ∧ (s.awV && !i.awReady) = false := by
    intro hs
    unfold axwSpace at hs
    rw [Bool.and_eq_true] at hs
    refine ⟨h.half (by simpa using hs.2), ?_⟩
    rcases Bool.eq_false_or_eq_true s.awV with hv | hv <;> rcases Bool.eq_false_or_eq_true i.awReady with hw | hw <;> simp [hv, hw] at hs ⊢
  have hidle : axwHead s i = false → axwTakeNow s i = [] := by
    intro hh
    unfold axwTakeNow at *
    split
    · next ht =>
      rw [if_pos ht] at hok
      have h1 := (axwInOk_append c ws i hok).2
      rw [hcur] at h1
      have hsop : i.sop = true := h1.1
      unfold axwHead at hh
      rw [hst, hsop] at hh
      rw [Bool.and_eq_true] at ht
      rw [ht.1, ht.2] at hh
      cases hh
    · rfl
  have hhead : axwHead s i = true → axwTakeNow s i = [i] := by
    intro hh
    unfold axwHead at hh
    simp only [Bool.and_eq_true] at hh
    unfold axwTakeNow
    rw [if_pos (by rw [hh.1.1.2, hh.1.2]; rfl)]
  refine ⟨hring, fun hf => by have := hhalf hf; omega, by omega, ?_, ?_, ?_, ?_⟩
  · intro hrd hne
    rw [hrdy'] at hrd
    rw [hst'] at hne
    split at hrd
    · split at hrd
      · cases hrd
      · split at hrd
        · have := (hspc hrd).1; omega
        · next h1 h2 h3 => rw [if_pos h1, if_neg h2, if_neg h3] at hne; exact absurd rfl hne
    · have := (hspc hrd).1; omega
  · intro hs' hrd
    rw [hst'] at hs'
    rw [hrdy'] at hrd
    rw [haw']
    split at hs'
    · next h1 =>
      rw [if_pos h1] at hrd
      split at hs'
      · cases hs'
      · next h2 =>
        rw [if_neg h2] at hrd
        split at hs'
        · next h3 =>
          rw [if_pos h3] at hrd
          rw [(hspc hrd).2]; simp [h1, h2]
        · cases hs'
    · next h1 =>
      rw [if_neg h1] at hrd
      rw [(hspc hrd).2]; simp [h1]
  · -- the bursts
    cases hh : axwHead s i with
    | false => rw [hidle hh]; simp [h.bursts]
    | true =>
      rw [hhead hh] at hok hfit ⊢
      have h1 := (axwInOk_append c ws i hok).2
      rw [hcur] at h1
      have hf1 := (axwFits_append c ws i hfit).2
      rw [hcur] at hf1
      rw [axwAll_append, hcur, List.filterMap_append, ← axwAll_idle ws hcur, ← h.bursts]
      congr 1
      show _ = [[i]].filterMap (tlpBurst c)
      rw [Bool.true_and, axwGood_eq i.hdr h1.2.1]
      cases hd : tlpDoWrite i.hdr with
      | false => simp [(tlpBeats_none c [i] i rfl hd).2]
      | true =>
        rw [if_pos rfl]
        have e := tlpBurst_eq c [i] i rfl hd
        rw [show [[i]].filterMap (tlpBurst c) = (tlpBurst c [i]).toList from by simp [List.filterMap]; cases tlpBurst c [i] <;> rfl, e]
        have ea : (axwStep c s i).awaddr = axwAddr c i.hdr := by
          rw [axwStep_norst c s i hr]
          show (if axwHead s i then axwAddr c i.hdr else if axwMore s i then s.addr else s.awaddr) = _
          rw [if_pos hh]
        have el : (axwStep c s i).awlen = axwBurstLen c (axwLen i.hdr) (axwAddr c i.hdr) := by
          rw [axwStep_norst c s i hr]
          show (if axwHead s i then axwBurstLen c (axwLen i.hdr) (axwAddr c i.hdr) else if axwMore s i then axwBurstLen c s.op s.addr else s.awlen) = _
          rw [if_pos hh]
        rw [ea, el, (axw_burstLen c hc i.hdr (hf1 hd)).1, axwAddr_eq]
        rfl
  · cases hh : axwHead s i with
    | false =>
      rw [hidle hh, List.append_nil]
      exact .idle (by rw [hst', hh]; rfl) hcur hP
    | true =>
      rw [hhead hh] at hok hfit ⊢
      have h1 := (axwInOk_append c ws i hok).2
      rw [hcur] at h1
      have hf1 := (axwFits_append c ws i hfit).2
      rw [hcur] at hf1
      have hgd := axwGood_eq i.hdr h1.2.1
      rw [hh, hgd] at hst'
      cases hd : tlpDoWrite i.hdr with
      | false =>
        have hout : P = (axwAll (ws ++ [i])).flatMap (tlpBeats c) := by
          rw [axwAll_append, List.flatMap_append, hcur, ← axwAll_idle ws hcur, ← hP]
          show P = P ++ [[i]].flatMap (tlpBeats c)
          simp [(tlpBeats_none c [i] i rfl hd).1]
        rw [hd] at hst'
        cases he : i.eop with
        | true =>
          rw [he] at hst'
          exact .idle hst' (by rw [axwSplit_append, he]; rfl) hout
        | false =>
          rw [he] at hst'
          exact .waitEnd i hst' (by rw [axwSplit_append, he, hcur]; rfl) hd hout
      | true =>
        rw [hd] at hst'
        refine .transfer (axwSplit ws).1 i [i] 0 (by rw [axwAll_append, hcur]; rfl) hd ?_ ?_ ?_ ?_
        · exact axw_head_xfer c hc s i hr hh (hf1 hd) (by rw [hgd]; exact hd)
        · rw [List.take_zero, List.append_nil, ← axwAll_idle ws hcur]; exact hP
        · intro _
          have := h.rdyCnt (by unfold axwHead at hh; simp only [Bool.and_eq_true] at hh; exact hh.1.1.2) (by rw [hst]; decide)
          omega
        · intro hf
          rw [axwStep_norst c s i hr] at hf
          have : (axwNext c s i false).first = if axwHead s i then true else if axwGo s i then false else s.first := rfl
          rw [this, if_pos hh] at hf
          cases hf

theorem axw_wait_step (c : AxwCfg) (s : Axw) (i : AxwIn) (ws : List AxwIn) (P : List (List (Option UInt8) × Bool)) (A : List (Nat × Nat)) (w : AxwIn)
    (hr : i.rst = false) (h : AxwInv c s ws P A) (hst : s.st = .waitEnd) (hcur : (axwSplit ws).2.head? = some w) (hd : tlpDoWrite w.hdr = false)
    (hP : P = (axwAll ws).flatMap (tlpBeats c)) :
    AxwInv c (axwStep c s i) (ws ++ axwTakeNow s i) (P ++ axwGenNow c s i) (A ++ axwBurstNow c s i) := by
  obtain ⟨hring, hcnt, hhalf⟩ := axw_ring c s i hr h.ring h.cnt
  have hgo : axwGo s i = false := by unfold axwGo; rw [hst]; rfl
  have hmore : axwMore s i = false := by unfold axwMore; rw [hgo]; rfl
  have hh : axwHead s i = false := by unfold axwHead; rw [hst]; rfl
  rw [hgo] at hcnt
  simp only [Bool.toNat_false, Nat.add_zero] at hcnt
  have hc0 := h.cnt
  have hgen : axwGenNow c s i = [] := by unfold axwGenNow; rw [hgo]; rfl
  have hB : axwBurstNow c s i = [] := by unfold axwBurstNow; rw [hmore, hh]; rfl
  rw [hgen, List.append_nil, hB, List.append_nil]
  have hne : (axwSplit ws).2 ≠ [] := by intro e; rw [e] at hcur; cases hcur
  have hst' : (axwStep c s i).st = if s.ready && i.valid && i.eop then .idle else .waitEnd := by
    rw [axwStep_norst c s i hr]; show axwStNext s i = _; unfold axwStNext; rw [hst]
  have hrdy' : (axwStep c s i).ready = if s.ready && i.valid && i.eop then axwSpace s i else true := by
    rw [axwStep_norst c s i hr]; show axwReadyNext c s i = _; unfold axwReadyNext; rw [hst]
  have haw' : (axwStep c s i).awV = (s.awV && !i.awReady) := by
    rw [axwStep_norst c s i hr]; show ((axwHead s i && axwGood i.hdr) || axwMore s i || (s.awV && !i.awReady)) = _
    rw [hmore, hh]; rfl
  have hspc : axwSpace s i = true → ringCount 5 s.out.ring ≤ 16 ∧ (s.awV && !i.awReady) = false := by
    intro hs
    unfold axwSpace at hs
    rw [Bool.and_eq_true] at hs
    refine ⟨h.half (by simpa using hs.2), ?_⟩
    rcases Bool.eq_false_or_eq_true s.awV with hv | hv <;> rcases Bool.eq_false_or_eq_true i.awReady with hw | hw <;> simp [hv, hw] at hs ⊢
  have hhd : ((axwSplit ws).2 ++ [i]).head? = some w := by
    cases hx : (axwSplit ws).2 with
    | nil => exact absurd hx hne
    | cons y ys => rw [hx] at hcur; exact hcur
  have n1 := tlpBeats_none c _ w hcur hd
  have n2 := tlpBeats_none c _ w hhd hd
  refine ⟨hring, fun hf => by have := hhalf hf; omega, by omega, ?_, ?_, ?_, ?_⟩
  · intro hrd hne
    rw [hrdy'] at hrd
    rw [hst'] at hne
    split at hrd
    · have := (hspc hrd).1; omega
    · next h1 => rw [if_neg h1] at hne; exact absurd rfl hne
  · intro hs' hrd
    rw [hst'] at hs'
    rw [hrdy'] at hrd
    rw [haw']
    split at hs'
    · next h1 => rw [if_pos h1] at hrd; exact (hspc hrd).2
    · cases hs'
  · rw [h.bursts]
    unfold axwTakeNow
    split
    · rw [axwAll_append, axwAll_cur ws hne, List.filterMap_append, List.filterMap_append]
      congr 1
      rw [List.filterMap_cons, n1.2, List.filterMap_cons, n2.2]
    · rw [List.append_nil]
  · unfold axwTakeNow
    cases ht : (s.ready && i.valid) with
    | false =>
      rw [ht] at hst'
      rw [if_neg (by simp), List.append_nil]
      exact .waitEnd w hst' hcur hd hP
    | true =>
      rw [if_pos rfl]
      rw [ht] at hst'
      have hout : P = (axwAll (ws ++ [i])).flatMap (tlpBeats c) := by
        rw [hP, axwAll_append, axwAll_cur ws hne, List.flatMap_append, List.flatMap_append]
        congr 1
        rw [List.flatMap_cons, List.flatMap_cons, n1.1, n2.1]
      cases he : i.eop with
      | true =>
        rw [he] at hst'
        exact .idle hst' (by rw [axwSplit_append, he]; rfl) hout
      | false =>
        rw [he] at hst'
        exact .waitEnd w hst' (by rw [axwSplit_append, he]; exact hhd) hd hout

/-- The TLP that is transferred grows by the words taken. -/
theorem axw_all_grow (c : AxwCfg) (s : Axw) (i : AxwIn) (ws : List AxwIn) (pre : List (List AxwIn)) (w : AxwIn) (g : List AxwIn) (n : Nat)
    (hok : AxwInOk c ws) (hall : axwAll ws = pre ++ [g]) (hd : tlpDoWrite w.hdr = true) (x : AxwXfer c s w g n) :
    axwAll (ws ++ axwTakeNow s i) = pre ++ [axwGrow s i g] := by
  unfold axwTakeNow axwGrow
  cases ht : (s.ready && i.valid) with
  | false => simp [hall]
  | true =>
    simp only [if_true]
    have hA := (x.rdy (by rw [Bool.and_eq_true] at ht; exact ht.1)).1
    rw [x.inA] at hA
    have hin := x.inC
    have hlt : g.length < tlpWords (2 ^ c.tb) w.hdr := by simp at hA; omega
    rw [axwAll_append]
    by_cases hcur : (axwSplit ws).2 = []
    · exfalso
      rw [axwAll_idle ws hcur] at hall
      have h1 := hok.1 g (by rw [hall]; simp)
      have hh := x.head
      cases g with
      | nil => cases hh
      | cons y ys =>
        cases hh
        have h2 := h1.2.2 hd
        simp only [if_true] at h2
        omega
    · rw [axwAll_cur ws hcur] at hall
      have h1 := List.append_inj' hall rfl
      rw [h1.1, List.cons.inj h1.2 |>.1]

theorem axw_xfer_len (c : AxwCfg) (ws : List AxwIn) (pre : List (List AxwIn)) (w : AxwIn) (g : List AxwIn)
    (hok : AxwInOk c ws) (hall : axwAll ws = pre ++ [g]) (hd : tlpDoWrite w.hdr = true) (hh : g.head? = some w)
    (hlen : g.length = tlpWords (2 ^ c.tb) w.hdr) : (axwSplit ws).2 = [] := by
  by_cases hcur : (axwSplit ws).2 = []
  · exact hcur
  · exfalso
    rw [axwAll_cur ws hcur] at hall
    have h1 := List.append_inj' hall rfl
    have h2 := List.cons.inj h1.2 |>.1
    have h3 := hok.2
    rw [h2] at h3
    cases g with
    | nil => cases hh
    | cons y ys =>
      cases hh
      have h4 := h3.2.2 hd
      simp only [Bool.false_eq_true, if_false] at h4
      omega

theorem axw_transfer_step (c : AxwCfg) (hc : AxwCfgOk c) (s : Axw) (i : AxwIn) (ws : List AxwIn) (P : List (List (Option UInt8) × Bool)) (A : List (Nat × Nat))
    (hr : i.rst = false) (h : AxwInv c s ws P A) (pre : List (List AxwIn)) (w : AxwIn) (g : List AxwIn) (n : Nat) (hall : axwAll ws = pre ++ [g])
    (hd : tlpDoWrite w.hdr = true) (x : AxwXfer c s w g n) (hP : P = pre.flatMap (tlpBeats c) ++ (tlpBeats c g).take n)
    (cfst : s.first = true → ringCount 5 s.out.ring ≤ 17) (clst : s.first = false → s.inA = false → ringCount 5 s.out.ring ≤ 18)
    (hok0 : AxwInOk c ws) (hok : AxwInOk c (ws ++ axwTakeNow s i)) :
    AxwInv c (axwStep c s i) (ws ++ axwTakeNow s i) (P ++ axwGenNow c s i) (A ++ axwBurstNow c s i) := by
  obtain ⟨hring, hcnt, hhalf⟩ := axw_ring c s i hr h.ring h.cnt
  have hall' := axw_all_grow c s i ws pre w g n hok0 hall hd x
  have hst := x.st
  have hmore : axwMore s i = false := by unfold axwMore; rw [x.op]; simp
  have hh : axwHead s i = false := by unfold axwHead; rw [hst]; rfl
  have hB : axwBurstNow c s i = [] := by unfold axwBurstNow; rw [hmore, hh]; rfl
  have hgh : (axwGrow s i g).head? = some w := by
    have := x.head
    unfold axwGrow
    cases g with
    | nil => cases this
    | cons y ys => exact this
  rw [hB, List.append_nil]
  have hst' : (axwStep c s i).st = if axwGo s i && s.last then .idle else .transfer := by
    rw [axwStep_norst c s i hr]; show axwStNext s i = _; unfold axwStNext; rw [hst, x.op]; simp
  have hact : axwActNext c s i = if axwGo s i && s.inA && !s.first then axwInNext c s i != 0 else s.inA := by
    unfold axwActNext; rw [hmore, hh]; rfl
  have hin : axwInNext c s i = if axwGo s i && s.inA && !s.first then (s.inC + 2 ^ 13 - 1) % 2 ^ 13 else s.inC := by
    unfold axwInNext; rw [hmore, hh]; rfl
  have hout : axwOutNext c s i = if axwGo s i then (s.outC + 2 ^ 13 - 1) % 2 ^ 13 else s.outC := by
    unfold axwOutNext; rw [hmore, hh]; rfl
  have hrdy' : (axwStep c s i).ready = if axwGo s i then if s.last then axwSpace s i else !s.out.half && axwActNext c s i
      else !s.out.half && s.inA && !s.first := by
    rw [axwStep_norst c s i hr]; show axwReadyNext c s i = _; unfold axwReadyNext; rw [hst, x.op]
    rcases Bool.eq_false_or_eq_true s.last with hl | hl <;> simp [hl]
  have hspc : axwSpace s i = true → s.out.half = false ∧ (s.awV && !i.awReady) = false := by
    intro hs
    unfold axwSpace at hs
    rw [Bool.and_eq_true] at hs
    refine ⟨by simpa using hs.2, ?_⟩
    rcases Bool.eq_false_or_eq_true s.awV with hv | hv <;> rcases Bool.eq_false_or_eq_true i.awReady with hw | hw <;> simp [hv, hw] at hs ⊢
  have hrh : (axwStep c s i).ready = true → s.out.half = false := by
    intro hrd
    rw [hrdy'] at hrd
    split at hrd
    · split at hrd
      · exact (hspc hrd).1
      · rw [Bool.and_eq_true] at hrd; simpa using hrd.1
    · simp only [Bool.and_eq_true] at hrd; simpa using hrd.1.1
  have haw' : (axwStep c s i).awV = (s.awV && !i.awReady) := by
    rw [axwStep_norst c s i hr]; show ((axwHead s i && axwGood i.hdr) || axwMore s i || (s.awV && !i.awReady)) = _
    rw [hmore, hh]; rfl
  obtain ⟨w1, w2, w3, w4⟩ := axw_words_beats c hc w.hdr
  have hlt := x.lt
  have hinC := x.inC
  have hsm := x.small
  -- the count before a data transfer is generated
  have hgc : axwGo s i = true → ringCount 5 s.out.ring ≤ 18 ∧ (s.first = true ∨ s.inA = true → ringCount 5 s.out.ring ≤ 17) := by
    intro hg
    rcases Bool.eq_false_or_eq_true s.first with hf | hf
    · have := cfst hf; exact ⟨by omega, fun _ => this⟩
    · rcases Bool.eq_false_or_eq_true s.inA with ha | ha
      · unfold axwGo at hg
        rw [ha, hf] at hg
        simp only [Bool.not_true, Bool.or_false, Bool.and_eq_true] at hg
        have := h.rdyCnt hg.2.1 (by rw [hst]; decide)
        exact ⟨by omega, fun _ => this⟩
      · have := clst hf ha
        refine ⟨this, fun h => ?_⟩
        rcases h with h | h
        · rw [hf] at h; cases h
        · rw [ha] at h; cases h
  have hcnt0 := h.cnt
  refine ⟨hring, ?_, ?_, ?_, ?_, ?_, ?_⟩
  · intro hf
    have := hhalf hf
    have := Bool.toNat_le (axwGo s i)
    omega
  · cases hg : axwGo s i with
    | false => rw [hg] at hcnt; simp at hcnt; omega
    | true => have := (hgc hg).1; rw [hg] at hcnt; simp at hcnt; omega
  · intro hrd _
    have := h.half (hrh hrd)
    have := Bool.toNat_le (axwGo s i)
    omega
  · intro hs' hrd
    rw [hst'] at hs'
    split at hs'
    · next h1 =>
      rw [Bool.and_eq_true] at h1
      rw [hrdy', if_pos h1.1, if_pos h1.2] at hrd
      rw [haw']
      exact (hspc hrd).2
    · cases hs'
  · rw [h.bursts, hall, hall', List.filterMap_append, List.filterMap_append]
    congr 1
    rw [List.filterMap_cons, List.filterMap_cons, tlpBurst_eq c g w x.head hd, tlpBurst_eq c _ w hgh hd]
  · have hbe := tlpBeats_eq c g w x.head hd
    have hbe' := tlpBeats_eq c _ w hgh hd
    have hng : n ≤ g.length := by
      rcases Bool.eq_false_or_eq_true s.first with hf | hf
      · have := x.fst hf; omega
      · have := x.nfst hf; omega
    have htake : (tlpBeats c (axwGrow s i g)).take n = (tlpBeats c g).take n := by
      rw [hbe, hbe', ← List.map_take, ← List.map_take]
      refine List.map_congr_left fun j hj => ?_
      have hj : j < n := by
        rw [List.take_range, List.mem_range] at hj
        omega
      exact tlpBeatAt_append c w.hdr g _ j (by omega)
    have hgl : (axwGrow s i g).length = g.length + (s.ready && i.valid).toNat := by
      unfold axwGrow
      cases (s.ready && i.valid) <;> simp
    cases hg : axwGo s i with
    | false =>
      have hnt : (s.ready && i.valid) = false := by
        unfold axwGo at hg; rw [hst] at hg
        simp only [beq_self_eq_true, Bool.true_and, Bool.or_eq_false_iff] at hg
        exact hg.1.1
      have hgrow : axwGrow s i g = g := by unfold axwGrow; rw [hnt]; simp
      have hgen : axwGenNow c s i = [] := by unfold axwGenNow; rw [hg]; rfl
      have hAf : s.inA = true ∧ s.first = false := by
        unfold axwGo at hg; rw [hst] at hg
        simp only [beq_self_eq_true, Bool.true_and, Bool.or_eq_false_iff] at hg
        exact ⟨by simpa using hg.1.2, hg.2⟩
      rw [hgen, List.append_nil]
      have efirst : (axwStep c s i).first = s.first := by
        rw [axwStep_norst c s i hr]
        show (if axwHead s i then true else if axwGo s i then false else s.first) = _
        rw [hh, hg]; rfl
      have einA : (axwStep c s i).inA = s.inA := by
        rw [axwStep_norst c s i hr]; show axwActNext c s i = _
        rw [hact, hg]; rfl
      have einC : (axwStep c s i).inC = s.inC := by
        rw [axwStep_norst c s i hr]; show axwInNext c s i = _
        rw [hin, hg]; rfl
      have eoutC : (axwStep c s i).outC = s.outC := by
        rw [axwStep_norst c s i hr]; show axwOutNext c s i = _
        rw [hout, hg]; rfl
      refine .transfer pre w g n (by rw [hall', hgrow]) hd ?_ hP (fun hf => ?_) (fun _ ha => ?_)
      · refine ⟨x.head, by rw [hst', hg]; rfl, ?_, ?_, ?_, ?_, ?_, hlt, by rw [eoutC]; exact x.outC, ?_, by rw [einC]; exact hinC,
          by rw [einA, einC]; exact x.inA, hsm, ?_, by rw [efirst]; exact x.fst, by rw [efirst]; exact x.nfst, ?_⟩
        · rw [← x.op, axwStep_norst c s i hr]
          show (if axwHead s i then _ else if s.st == .idle then _ else if axwMore s i then _ else s.op) = s.op
          rw [hh, hst, hmore]; rfl
        · rw [← x.off, axwStep_norst c s i hr]
          show (if axwHead s i then _ else s.off) = s.off
          rw [hh]; rfl
        · rw [← x.lco, axwStep_norst c s i hr]
          show (if axwHead s i then _ else if axwMore s i then _ else s.lco) = s.lco
          rw [hh, hmore]; rfl
        · rw [← x.fbe, axwStep_norst c s i hr]
          show (if s.st == .idle then _ else s.fbe) = s.fbe
          rw [hst]; rfl
        · rw [← x.lbe, axwStep_norst c s i hr]
          show (if s.st == .idle then _ else s.lbe) = s.lbe
          rw [hst]; rfl
        · have : (axwStep c s i).last = s.last := by
            rw [axwStep_norst c s i hr]
            show (if axwHead s i || axwGo s i then axwOutNext c s i == 0 else s.last) = _
            rw [hh, hg]; rfl
          rw [this, eoutC]; exact x.last
        · rw [x.save, axwStep_norst c s i hr]
          show some s.save = some (if s.ready && i.valid then i.data else s.save)
          rw [hnt]; rfl
        · intro _; rw [efirst, einA]; exact hAf
      · rw [efirst, hAf.2] at hf; cases hf
      · rw [einA, hAf.1] at ha; cases ha
    | true =>
      have hgen : axwGenNow c s i = [tlpBeatAt c w.hdr (axwGrow s i g) n] := by
        unfold axwGenNow; rw [hg, if_pos rfl, axw_beat_view c hc s i w g n x hg]
      have hP' : P ++ axwGenNow c s i = pre.flatMap (tlpBeats c) ++ (tlpBeats c (axwGrow s i g)).take (n + 1) := by
        rw [hgen, hP, hbe', take_range_map _ _ _ hlt, ← hbe', htake, List.append_assoc]
      -- when words are taken
      have htk : (s.ready && i.valid) = (s.inA && !s.first) := by
        rcases Bool.eq_false_or_eq_true s.ready with hrd | hrd
        · obtain ⟨ha, hf⟩ := x.rdy hrd
          rw [ha, hf, hrd]
          unfold axwGo at hg
          rw [hst, hrd, ha, hf] at hg
          simpa using hg
        · rw [hrd]
          unfold axwGo at hg
          rw [hst, hrd] at hg
          rcases Bool.eq_false_or_eq_true s.inA with ha | ha <;> rcases Bool.eq_false_or_eq_true s.first with hf | hf <;> simp [ha, hf] at hg ⊢
      rw [hP']
      have hlast : s.last = decide (n + 1 = tlpBeatCount c w.hdr) := by
        rw [x.last, x.outC, Bool.eq_iff_iff]; simp; omega
      cases hl : s.last with
      | true =>
        have hn1 : n + 1 = tlpBeatCount c w.hdr := by rw [hl] at hlast; simpa using hlast.symm
        refine .idle (by rw [hst', hg, hl]; rfl) (axw_xfer_len c _ pre w _ hok hall' hd hgh ?_) ?_
        · rw [hgl, htk]
          rcases Bool.eq_false_or_eq_true s.first with hf | hf
          · have := x.fst hf; rw [hf]; simp; omega
          · have := x.nfst hf
            rw [hf]
            rcases Bool.eq_false_or_eq_true s.inA with ha | ha
            · rw [ha]
              have h1 := x.inA; rw [ha] at h1
              simp at h1 ⊢
              omega
            · rw [ha]
              have h1 := x.inA; rw [ha] at h1
              simp at h1 ⊢
              omega
        · rw [hall', List.flatMap_append, hn1]
          congr 1
          rw [List.flatMap_cons, List.flatMap_nil, List.append_nil]
          apply List.take_of_length_le
          rw [hbe']; simp
      | false =>
        have hn1 : n + 1 < tlpBeatCount c w.hdr := by rw [hl] at hlast; simp at hlast; omega
        have efirst : (axwStep c s i).first = false := by
          rw [axwStep_norst c s i hr]
          show (if axwHead s i then true else if axwGo s i then false else s.first) = _
          rw [hh, hg]; rfl
        have einA' : (axwStep c s i).inA = axwActNext c s i := by rw [axwStep_norst c s i hr]; rfl
        have einC' : (axwStep c s i).inC = axwInNext c s i := by rw [axwStep_norst c s i hr]; rfl
        have eoutC' : (axwStep c s i).outC = axwOutNext c s i := by rw [axwStep_norst c s i hr]; rfl
        have hoC := x.outC
        have einC : axwInNext c s i + (s.ready && i.valid).toNat = s.inC := by
          rw [hin, hg, htk, Bool.true_and]
          rcases Bool.eq_false_or_eq_true (s.inA && !s.first) with ha | ha
          · rw [ha, if_pos rfl]
            have h1 := x.inA
            rw [Bool.and_eq_true] at ha
            rw [ha.1] at h1
            simp at h1 ⊢
            omega
          · rw [ha, if_neg (by simp)]; rfl
        have einA : axwActNext c s i = (axwInNext c s i != 0) := by
          rw [hact, hg, Bool.true_and]
          split
          · rfl
          · next h1 =>
            rw [hin, hg, Bool.true_and, if_neg h1]; exact x.inA
        have eoutC : axwOutNext c s i = tlpBeatCount c w.hdr - 1 - (n + 1) := by
          rw [hout, hg, if_pos rfl]; omega
        have hfn : s.inA = false → s.first = true := by
          intro ha
          rcases Bool.eq_false_or_eq_true s.first with hf | hf
          · exact hf
          · exfalso
            have h1 := x.inA
            rw [ha] at h1
            have := x.nfst hf
            simp at h1
            omega
        refine .transfer pre w _ (n + 1) hall' hd ?_ rfl (fun hf => ?_) (fun _ _ => ?_)
        · refine ⟨hgh, by rw [hst', hg, hl]; rfl, ?_, ?_, ?_, ?_, ?_, hn1, by rw [eoutC', eoutC], ?_, by rw [einC', hgl]; omega,
            by rw [einA', einC', einA], hsm, ?_, (by rw [efirst]; intro hf; cases hf), ?_, ?_⟩
          · rw [← x.op, axwStep_norst c s i hr]
            show (if axwHead s i then _ else if s.st == .idle then _ else if axwMore s i then _ else s.op) = s.op
            rw [hh, hst, hmore]; rfl
          · rw [← x.off, axwStep_norst c s i hr]
            show (if axwHead s i then _ else s.off) = s.off
            rw [hh]; rfl
          · rw [← x.lco, axwStep_norst c s i hr]
            show (if axwHead s i then _ else if axwMore s i then _ else s.lco) = s.lco
            rw [hh, hmore]; rfl
          · rw [← x.fbe, axwStep_norst c s i hr]
            show (if s.st == .idle then _ else s.fbe) = s.fbe
            rw [hst]; rfl
          · rw [← x.lbe, axwStep_norst c s i hr]
            show (if s.st == .idle then _ else s.lbe) = s.lbe
            rw [hst]; rfl
          · rw [axwStep_norst c s i hr]
            show (if axwHead s i || axwGo s i then axwOutNext c s i == 0 else s.last) = (axwOutNext c s i == 0)
            rw [hg, Bool.or_true]; rfl
          · rw [axwStep_norst c s i hr]
            show _ = some (if s.ready && i.valid then i.data else s.save)
            unfold axwGrow
            cases (s.ready && i.valid) with
            | true => simp
            | false => simpa using x.save
          · intro _
            rw [hgl, htk]
            rcases Bool.eq_false_or_eq_true s.first with hf | hf
            · have := x.fst hf; rw [hf]; simp; omega
            · have := x.nfst hf
              rcases Bool.eq_false_or_eq_true s.inA with ha | ha
              · rw [ha, hf]; simp; omega
              · have := hfn ha; rw [hf] at this; cases this
          · intro hrd
            rw [hrdy', hg, hl] at hrd
            simp only [if_true, Bool.false_eq_true, if_false, Bool.and_eq_true] at hrd
            exact ⟨by rw [einA']; exact hrd.2, efirst⟩
        · rw [efirst] at hf; cases hf
        · have h17 := (hgc hg).2 (by
            rcases Bool.eq_false_or_eq_true s.inA with ha | ha
            · exact .inr ha
            · exact .inl (hfn ha))
          rw [hg] at hcnt; simp at hcnt; omega

/-- The invariant is kept. -/
theorem axw_inv_step (c : AxwCfg) (hc : AxwCfgOk c) (s : Axw) (i : AxwIn) (ws : List AxwIn) (P : List (List (Option UInt8) × Bool)) (A : List (Nat × Nat))
    (hr : i.rst = false) (h : AxwInv c s ws P A) (hok : AxwInOk c (ws ++ axwTakeNow s i)) (hfit : AxwFits c (ws ++ axwTakeNow s i)) :
    AxwInv c (axwStep c s i) (ws ++ axwTakeNow s i) (P ++ axwGenNow c s i) (A ++ axwBurstNow c s i) := by
  cases h.body with
  | idle st cur out => exact axw_idle_step c hc s i ws P A hr h st cur out hok hfit
  | waitEnd w st cur bad out => exact axw_wait_step c s i ws P A w hr h st cur bad out
  | transfer pre w g n all good x out cfst clst =>
    refine axw_transfer_step c hc s i ws P A hr h pre w g n all good x out cfst clst ?_ hok
    unfold axwTakeNow at hok
    split at hok
    · exact (axwInOk_append c ws i hok).1
    · rw [List.append_nil] at hok; exact hok

/-! ### Histories -/

theorem axwInOk_prefix (c : AxwCfg) (b : List AxwIn) : ∀ a, AxwInOk c (a ++ b) → AxwInOk c a := by
  induction b with
  | nil => intro a h; rw [List.append_nil] at h; exact h
  | cons x xs ih =>
    intro a h
    rw [show a ++ x :: xs = (a ++ [x]) ++ xs by simp] at h
    exact (axwInOk_append c a x (ih _ h)).1

theorem axwFits_prefix (c : AxwCfg) (b : List AxwIn) : ∀ a, AxwFits c (a ++ b) → AxwFits c a := by
  induction b with
  | nil => intro a h; rw [List.append_nil] at h; exact h
  | cons x xs ih =>
    intro a h
    rw [show a ++ x :: xs = (a ++ [x]) ++ xs by simp] at h
    exact (axwFits_append c a x (ih _ h)).1

theorem axwTaken_cons (c : AxwCfg) (s : Axw) (i : AxwIn) (is : List AxwIn) :
    axwTaken c s (i :: is) = axwTakeNow s i ++ axwTaken c (axwStep c s i) is := by
  unfold axwTaken axwTakeNow
  rw [axwTrace, List.filterMap_cons]
  cases (s.ready && i.valid) <;> rfl

/-- The data transfer of a cycle. -/
def axwWNow (s : Axw) (i : AxwIn) : List AxwBeat := if s.out.valid && i.wReady then [s.out.out] else []

/-- The address transfer of a cycle. -/
def axwAwNow (s : Axw) (i : AxwIn) : List (Nat × Nat) := if s.awV && i.awReady then [(s.awaddr, s.awlen)] else []

theorem axwWs_cons (c : AxwCfg) (s : Axw) (i : AxwIn) (is : List AxwIn) :
    axwWs c s (i :: is) = axwWNow s i ++ axwWs c (axwStep c s i) is := by
  unfold axwWs axwWNow
  rw [axwTrace, List.filterMap_cons]
  cases (s.out.valid && i.wReady) <;> rfl

theorem axwAws_cons (c : AxwCfg) (s : Axw) (i : AxwIn) (is : List AxwIn) :
    axwAws c s (i :: is) = axwAwNow s i ++ axwAws c (axwStep c s i) is := by
  unfold axwAws axwAwNow
  rw [axwTrace, List.filterMap_cons]
  cases (s.awV && i.awReady) <;> rfl

/-- The data transfers that wait. -/
def axwQ (c : AxwCfg) (s : Axw) : List (List (Option UInt8) × Bool) := (outQ 5 s.out).map (axwView (2 ^ c.tb))

/-- The burst that waits. -/
def axwPend (s : Axw) : List (Nat × Nat) := if s.awV then [(s.awaddr, s.awlen)] else []

theorem axw_no_more (c : AxwCfg) (s : Axw) (i : AxwIn) (ws : List AxwIn) (P : List (List (Option UInt8) × Bool)) (A : List (Nat × Nat))
    (h : AxwInv c s ws P A) : axwMore s i = false := by
  cases h.body with
  | idle st => unfold axwMore axwGo; rw [st]; rfl
  | waitEnd _ st => unfold axwMore axwGo; rw [st]; rfl
  | transfer _ _ _ _ _ _ x => unfold axwMore; rw [x.op]; simp

theorem axw_queue (c : AxwCfg) (s : Axw) (i : AxwIn) (ws : List AxwIn) (P : List (List (Option UInt8) × Bool)) (A : List (Nat × Nat))
    (hr : i.rst = false) (h : AxwInv c s ws P A) :
    axwQ c s ++ axwGenNow c s i = (axwWNow s i).map (axwView (2 ^ c.tb)) ++ axwQ c (axwStep c s i) := by
  have hcnt := h.cnt
  have hq := outFifo_queue 5 s.out (axwGo s i) (axwBeat c s i) i.wReady h.ring (by omega)
  have e : (axwStep c s i).out = outFifoStep 5 false s.out (axwGo s i) (axwBeat c s i) i.wReady := by
    rw [axwStep_norst c s i hr]; rfl
  unfold axwQ axwWNow axwGenNow
  rw [e, ← List.map_append, hq, List.map_append]
  congr 1
  cases axwGo s i <;> rfl

theorem axw_pend (c : AxwCfg) (s : Axw) (i : AxwIn) (ws : List AxwIn) (P : List (List (Option UInt8) × Bool)) (A : List (Nat × Nat))
    (hr : i.rst = false) (h : AxwInv c s ws P A) :
    axwPend s ++ axwBurstNow c s i = axwAwNow s i ++ axwPend (axwStep c s i) := by
  have hm := axw_no_more c s i ws P A h
  unfold axwBurstNow
  rw [hm, Bool.or_false]
  have haw' : (axwStep c s i).awV = ((axwHead s i && axwGood i.hdr) || (s.awV && !i.awReady)) := by
    rw [axwStep_norst c s i hr]; show ((axwHead s i && axwGood i.hdr) || axwMore s i || (s.awV && !i.awReady)) = _
    rw [hm, Bool.or_false]
  unfold axwPend axwAwNow
  rw [haw']
  cases hh : axwHead s i with
  | true =>
    have h1 : s.awV = false := by
      unfold axwHead at hh
      simp only [Bool.and_eq_true, beq_iff_eq] at hh
      exact h.idleAw hh.1.1.1 hh.1.1.2
    rw [h1]
    cases axwGood i.hdr <;> simp
  | false =>
    have e1 : (axwStep c s i).awaddr = s.awaddr := by
      rw [axwStep_norst c s i hr]
      show (if axwHead s i then axwAddr c i.hdr else if axwMore s i then s.addr else s.awaddr) = _
      rw [hh, hm]; rfl
    have e2 : (axwStep c s i).awlen = s.awlen := by
      rw [axwStep_norst c s i hr]
      show (if axwHead s i then _ else if axwMore s i then _ else s.awlen) = _
      rw [hh, hm]; rfl
    rw [e1, e2]
    cases s.awV <;> cases i.awReady <;> simp

theorem axw_run_gen (c : AxwCfg) (hc : AxwCfgOk c) (is : List AxwIn) : ∀ (s : Axw) (ws : List AxwIn) (B : List (List (Option UInt8) × Bool)) (A : List (Nat × Nat)),
    (∀ i ∈ is, i.rst = false) → AxwInv c s ws (B ++ axwQ c s) (A ++ axwPend s) →
    AxwInOk c (ws ++ axwTaken c s is) → AxwFits c (ws ++ axwTaken c s is) →
    AxwInv c (axwRun c s is) (ws ++ axwTaken c s is) (B ++ (axwWs c s is).map (axwView (2 ^ c.tb)) ++ axwQ c (axwRun c s is))
      (A ++ axwAws c s is ++ axwPend (axwRun c s is)) := by
  induction is with
  | nil => intro s ws B A _ h _ _; simpa [axwRun, axwTaken, axwTrace, axwWs, axwAws] using h
  | cons i is ih =>
    intro s ws B A hr h hok hfit
    rw [axwTaken_cons, ← List.append_assoc] at hok hfit ⊢
    have hri := hr i (by simp)
    have hs := axw_inv_step c hc s i ws _ _ hri h (axwInOk_prefix c _ _ hok) (axwFits_prefix c _ _ hfit)
    rw [List.append_assoc, axw_queue c s i ws _ _ hri h, List.append_assoc A, axw_pend c s i ws _ _ hri h,
      ← List.append_assoc, ← List.append_assoc] at hs
    have := ih (axwStep c s i) _ _ _ (fun j hj => hr j (by simp [hj])) hs hok hfit
    rw [axwRun, axwWs_cons, axwAws_cons, List.map_append]
    simpa [List.append_assoc] using this

/-- After reset nothing waits. -/
theorem axw_reset_inv (c : AxwCfg) (s : Axw) (r : AxwIn) (hr : r.rst = true) :
    AxwInv c (axwStep c s r) [] ([] ++ axwQ c (axwStep c s r)) ([] ++ axwPend (axwStep c s r)) := by
  have hout : (axwStep c s r).out = outFifoStep 5 true s.out (axwGo s r) (axwBeat c s r) r.wReady := by
    unfold axwStep; rw [hr]; rfl
  have hst : (axwStep c s r).st = .idle := by unfold axwStep; rw [hr]; rfl
  have hrd : (axwStep c s r).ready = false := by unfold axwStep; rw [hr]; rfl
  have haw : (axwStep c s r).awV = false := by unfold axwStep; rw [hr]; rfl
  obtain ⟨h1, h2⟩ := outFifo_rst 5 s.out (axwGo s r) (axwBeat c s r) r.wReady
  have hz : ringCount 5 (axwStep c s r).out.ring = 0 := by
    rw [hout]
    have h3 : (ringList 5 (outFifoStep 5 true s.out (axwGo s r) (axwBeat c s r) r.wReady).ring).length = 0 := by
      unfold outQ at h2
      rw [List.append_eq_nil_iff] at h2
      rw [h2.2]; rfl
    rw [ringList_length] at h3
    exact h3
  have hq : axwQ c (axwStep c s r) = [] := by unfold axwQ; rw [hout, h2]; rfl
  have hp : axwPend (axwStep c s r) = [] := by unfold axwPend; rw [haw]; rfl
  rw [hq, hp]
  refine ⟨by rw [hout]; exact h1.ring, fun _ => by omega, by omega, fun _ _ => by omega, fun _ _ => haw, rfl, .idle hst rfl rfl⟩

theorem axw_run_inv (c : AxwCfg) (hc : AxwCfgOk c) (s : Axw) (r : AxwIn) (hr : r.rst = true) (is : List AxwIn) (hn : ∀ i ∈ is, i.rst = false)
    (hok : AxwInOk c (axwTaken c (axwStep c s r) is)) (hfit : AxwFits c (axwTaken c (axwStep c s r) is)) :
    AxwInv c (axwRun c (axwStep c s r) is) (axwTaken c (axwStep c s r) is)
      ((axwWs c (axwStep c s r) is).map (axwView (2 ^ c.tb)) ++ axwQ c (axwRun c (axwStep c s r) is))
      (axwAws c (axwStep c s r) is ++ axwPend (axwRun c (axwStep c s r) is)) := by
  have := axw_run_gen c hc is (axwStep c s r) [] [] [] hn (axw_reset_inv c s r hr) hok hfit
  simpa using this

end Verif.Proofs
