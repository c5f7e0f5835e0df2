import Verif.Proofs.AxiMasterRdCpl
/-! The AXI master for reads: the side of the requests. -/
namespace Verif.Proofs
open Verif Verif.Model Verif.Spec

/-- The header fields kept for a request. -/
structure CmdHdr (h : TlpHdr) (k : AxrCmd) : Prop where
  rid : k.rid = h.dw1 / 2 ^ 16 % 2 ^ 16
  tag : k.tag = h.dw0 / 2 ^ 23 % 2 * 512 + h.dw0 / 2 ^ 19 % 2 * 256 + h.dw1 / 2 ^ 8 % 2 ^ 8
  tc : k.tc = h.dw0 / 2 ^ 20 % 8
  attr : k.attr = h.dw0 / 2 ^ 18 % 2 * 4 + h.dw0 / 2 ^ 12 % 4

theorem CmdHdr.rng {h : TlpHdr} {k : AxrCmd} (hk : CmdHdr h k) (hs : k.status < 8) : AxrRng k.status k.rid k.tag k.tc k.attr := by
  obtain ⟨h1, h2, h3, h4⟩ := hk
  refine ⟨hs, ?_, ?_, ?_, ?_⟩
  · rw [h1]; exact Nat.mod_lt _ (by decide)
  · rw [h2]; omega
  · rw [h3]; omega
  · rw [h4]; omega

/-- A read is in progress; `re` are the completions that are left. -/
structure StartIs (c : AxrCfg) (cid m : Nat) (s : Axr) (h : TlpHdr) (re : List AxrJob) : Prop where
  mps : 4 * s.mps = axrMax c m
  parts : ∃ f, s.dw ≤ f ∧ re = (readParts (axrMax c m) f (s.addr / 4 * 4) (4 * s.dw)).map (axrPart c cid h)
  dw : 1 ≤ s.dw ∧ s.dw ≤ 1024
  addr : s.addr = max (s.addr / 4 * 4) (axrTlpAddr c h + beFirst (tlpFirstBe h))
  op : s.op = axrTlpAddr c h + tlpReadEnd h - s.addr
  rest : s.addr / 4 * 4 + 4 * s.dw = axrTlpAddr c h + 4 * hdrLen h
  from' : s.addr / 4 * 4 = axrTlpAddr c h ∨ (s.addr / 4 * 4) % 128 = 0 ∧ axrTlpAddr c h < s.addr / 4 * 4
  page : axrTlpAddr c h % 4096 + 4 * hdrLen h ≤ 4096
  one : 4 * hdrLen h ≤ axrMax c m → axrTlpAddr c h % 2 ^ c.tb + 4 * hdrLen h ≤ 256 * 2 ^ c.tb
  cmd : CmdHdr h s.cmd
  st0 : s.cmd.status = 0

/-- The part read next. -/
def nextPart (s : Axr) : Nat × Nat := (s.addr / 4 * 4, 4 * axrTr s)

theorem readEnd_rng (h : TlpHdr) : 4 * (hdrLen h - 1) + 1 ≤ tlpReadEnd h ∧ tlpReadEnd h ≤ 4 * hdrLen h ∧ beFirst (tlpFirstBe h) < 4 ∧
    beFirst (tlpFirstBe h) + 1 ≤ tlpReadEnd h ∧ 1 ≤ hdrLen h ∧ hdrLen h ≤ 1024 := by
  have hl : 1 ≤ hdrLen h ∧ hdrLen h ≤ 1024 := by
    have hb : bits h.dw0 9 0 < 1024 := by unfold bits; exact Nat.mod_lt _ (by decide)
    unfold hdrLen; constructor <;> split <;> omega
  have h1 := axrBe_eq (tlpFirstBe h) (by unfold tlpFirstBe; simp only [bits]; exact Nat.mod_lt _ (by decide))
  have h2 := axrBe_eq (bits h.dw1 7 4) (by simp only [bits]; exact Nat.mod_lt _ (by decide))
  unfold tlpReadEnd
  split <;> omega

theorem start_tr (c : AxrCfg) (hc : AxrCfgOk c) (cid m : Nat) (s : Axr) (h : TlpHdr) (re : List AxrJob) (hs : StartIs c cid m s h re) :
    (s.dw ≤ s.mps → axrTr s = s.dw) ∧ (¬ s.dw ≤ s.mps → 4 * axrTr s = s.addr / 4 * 4 / 128 * 128 + axrMax c m - s.addr / 4 * 4 ∧
      (s.addr / 4 * 4) % 128 + 4 * axrTr s = axrMax c m) ∧ 1 ≤ axrTr s ∧ axrTr s ≤ s.dw ∧ (¬ s.dw ≤ s.mps → axrTr s < s.dw) := by
  have hm := hs.mps
  have hd := hs.dw
  obtain ⟨m1, m2, m3, _⟩ := axrMax_rng c hc m
  unfold axrTr
  generalize axrMax c m = mx at *
  split <;> omega

theorem part_ok (c : AxrCfg) (hc : AxrCfgOk c) (cid m : Nat) (s : Axr) (h : TlpHdr) (re : List AxrJob) (hs : StartIs c cid m s h re) :
    JobOk c (axrPart c cid h (nextPart s)) ∧ (axrPart c cid h (nextPart s)).first = s.addr ∧
    (axrPart c cid h (nextPart s)).first / 2 ^ c.tb = (axrPart c cid h (nextPart s)).addr / 2 ^ c.tb := by
  obtain ⟨t1, t2, t3, t4, t5⟩ := start_tr c hc cid m s h re hs
  obtain ⟨e1, e2, e3, e4, e5, e6⟩ := readEnd_rng h
  obtain ⟨b1, b2, b3⟩ := axr_bytes c hc
  obtain ⟨m1, m2, m3, m4⟩ := axrMax_rng c hc m
  have a1 := axrTlpAddr_mod4 c hc h
  have hm := hs.mps
  have hd := hs.dw
  have hfst : max (s.addr / 4 * 4) (axrTlpAddr c h + beFirst (tlpFirstBe h)) = s.addr := hs.addr.symm
  refine ⟨⟨?_, ?_, ?_, ?_, ?_⟩, hfst, ?_⟩
  · show (4 * axrTr s) % 4 = 0; omega
  · show (s.addr / 4 * 4) % 4 = 0; omega
  · show 0 < 4 * axrTr s; omega
  · show 4 * axrTr s ≤ 4096; omega
  · unfold jobNb
    show ((s.addr / 4 * 4) % 2 ^ c.tb + 4 * axrTr s + 2 ^ c.tb - 1) / 2 ^ c.tb ≤ 256
    have hb : 0 < 2 ^ c.tb := Nat.two_pow_pos _
    have key : (s.addr / 4 * 4) % 2 ^ c.tb + 4 * axrTr s ≤ 256 * 2 ^ c.tb := by
      have hrest := hs.rest
      have hpage := hs.page
      have hone := hs.one
      have hfrom := hs.from'
      have hpp : (s.addr / 4 * 4) % 4096 + 4 * axrTr s ≤ 4096 := by
        have hge : axrTlpAddr c h ≤ s.addr / 4 * 4 := by omega
        generalize axrTlpAddr c h = A at *
        generalize s.addr / 4 * 4 = p at *
        omega
      rcases Nat.lt_or_ge (2 ^ c.tb) 16 with hlt | hge
      · have h8 : c.dws = 2 := by
          have := axr_bytes c hc
          have htb : c.tb = 3 := by
            rcases Nat.lt_or_ge c.tb 4 with h | h
            · have := hc.tb; omega
            · have := Nat.pow_le_pow_right (n := 2) (by decide) h; omega
          unfold AxrCfg.dws; rw [htb]
        have h8' : 2 ^ c.tb = 8 := by omega
        have hm4 := m4 h8
        rw [h8'] at hone ⊢
        by_cases hle : s.dw ≤ s.mps
        · rcases hfrom with hA | ⟨h128, _⟩
          · rw [hA] at hrest ⊢
            have := hone (by omega)
            have := t1 hle
            omega
          · have := t1 hle
            omega
        · have := (t2 hle).2
          omega
      · have : (s.addr / 4 * 4) % 2 ^ c.tb ≤ (s.addr / 4 * 4) % 4096 := by
          have h2 : 2 ^ c.tb ∣ 4096 := by
            rw [show (4096 : Nat) = 2 ^ 12 from rfl]; exact Nat.pow_dvd_pow 2 hc.tb.2
          rw [← Nat.mod_mod_of_dvd _ h2]
          exact Nat.mod_le _ _
        omega
    rw [← Nat.lt_succ_iff, Nat.div_lt_iff_lt_mul hb]
    omega
  · show max (s.addr / 4 * 4) (axrTlpAddr c h + beFirst (tlpFirstBe h)) / 2 ^ c.tb = s.addr / 4 * 4 / 2 ^ c.tb
    rw [hfst, b1, ← Nat.div_div_eq_div_mul, ← Nat.div_div_eq_div_mul]
    congr 1; omega

/-- The command for the next part. -/
theorem part_cmd (c : AxrCfg) (hc : AxrCfgOk c) (cid m : Nat) (s : Axr) (i : AxrIn) (h : TlpHdr) (re : List AxrJob) (hs : StartIs c cid m s h re)
    (hi : axrIssue s = true) :
    CmdIs c cid (axrPart c cid h (nextPart s)) (axrCmdNext c s i) ∧
    jobBurst (2 ^ c.tb) (axrPart c cid h (nextPart s)) = some (s.addr, axrBeats c s % 2 ^ 8) := by
  obtain ⟨p1, p2, p3⟩ := part_ok c hc cid m s h re hs
  obtain ⟨t1, t2, t3, t4, t5⟩ := start_tr c hc cid m s h re hs
  obtain ⟨b1, b2, b3⟩ := axr_bytes c hc
  obtain ⟨j1, j2, j3, j4, j5, j6⟩ := job_rel c hc _ p1
  have hd := hs.dw
  have hst : s.st = .start := by unfold axrIssue at hi; simp at hi; exact hi.1.1
  have hnh : ¬ axrHead s i = true := by unfold axrHead; rw [hst]; simp
  have hN : jobN (axrPart c cid h (nextPart s)) = axrTr s := by
    show 4 * axrTr s / 4 = axrTr s; omega
  have hO : jobO c (axrPart c cid h (nextPart s)) = axrOff c s := by
    show s.addr / 4 * 4 / 4 % c.dws = s.addr / 4 % c.dws
    rw [Nat.mul_div_cancel _ (by decide)]
  rw [hO] at j2 j3
  rw [hN] at j1 j5 j6
  have hbeats : axrBeats c s = jobNb c (axrPart c cid h (nextPart s)) - 1 := by
    unfold axrBeats jobNb
    rw [j2, j1, b1, ← Nat.mul_add, show axrTr s + axrOff c s + 2 ^ 32 - 1 = (axrOff c s + axrTr s - 1) + 2 ^ 32 by omega, Nat.add_mod_right,
      Nat.mod_eq_of_lt (by omega)]
    exact axr_pred_div _ _ (by omega) (by omega)
  have hwords : (axrTr s + 2 ^ 32 - 1) % 2 ^ 32 / c.dws = jobNw c (axrPart c cid h (nextPart s)) - 1 := by
    unfold jobNw
    rw [j1, b1, show axrTr s + 2 ^ 32 - 1 = (axrTr s - 1) + 2 ^ 32 by omega, Nat.add_mod_right, Nat.mod_eq_of_lt (by omega)]
    exact axr_pred_div _ _ (by omega) (by omega)
  obtain ⟨n1, n2, n3⟩ := jobN_rel c hc _ p1
  have hnb := p1.nb
  have hbne : (axrPart c cid h (nextPart s)).bytes ≠ 0 := by show 4 * axrTr s ≠ 0; omega
  have ecmd : axrCmdNext c s i = { s.cmd with
      inLen := axrBeats c s % 2 ^ 10, outLen := (axrTr s + 2 ^ 32 - 1) % 2 ^ 32 / c.dws % 2 ^ 10, lower := s.addr % 2 ^ 7
      len := s.op, dws := axrTr s, off := (c.dws - axrOff c s) % c.dws, bubble := axrOff c s != 0 } := by
    unfold axrCmdNext; rw [if_neg hnh, if_pos hi]
  rw [ecmd]
  refine ⟨⟨?_, fun _ => ⟨p1, hs.st0, ?_, hN.symm, ?_, ?_, ?_, ?_⟩, fun h0 => absurd h0 hbne⟩, ?_⟩
  · exact hs.cmd.rng (by rw [hs.st0]; decide)
  · show recOf cid 0 s.cmd.rid s.cmd.tag s.cmd.tc s.cmd.attr (axrTr s) s.op (s.addr % 2 ^ 7 % 128) = _
    rw [hs.cmd.rid, hs.cmd.tag, hs.cmd.tc, hs.cmd.attr, axr_cplFor c.force64 cid h 0 true (by simp)]
    unfold axrPart
    show _ = ({ cplFor c.force64 cid h 0 true with
      len := 4 * axrTr s / 4 % 1024
      count := (axrTlpAddr c h + tlpReadEnd h - max (s.addr / 4 * 4) (axrTlpAddr c h + beFirst (tlpFirstBe h))) % 4096
      lower := max (s.addr / 4 * 4) (axrTlpAddr c h + beFirst (tlpFirstBe h)) % 128 } : CplRec)
    rw [← hs.addr, ← hs.op, Nat.mul_div_cancel_left _ (by decide), Nat.mod_mod_of_dvd _ (by decide)]
  · show axrBeats c s % 2 ^ 10 = _
    rw [hbeats, Nat.mod_eq_of_lt (by omega)]
  · show (axrTr s + 2 ^ 32 - 1) % 2 ^ 32 / c.dws % 2 ^ 10 = _
    rw [hwords, Nat.mod_eq_of_lt (by omega)]
  · show (c.dws - axrOff c s) % c.dws = _
    rw [hO]
  · show (axrOff c s != 0) = _
    rw [hO, Bool.eq_iff_iff]; simp
  · unfold jobBurst
    rw [if_neg hbne, p2]
    show some (s.addr, jobNb c (axrPart c cid h (nextPart s)) - 1) = _
    rw [hbeats, Nat.mod_eq_of_lt (by omega)]

theorem readParts_step (mx f a n : Nat) (h : 1 ≤ f) :
    readParts mx f a n = if n ≤ mx then [(a, n)]
      else (a, a / 128 * 128 + mx - a) :: readParts mx (f - 1) (a / 128 * 128 + mx) (n - (a / 128 * 128 + mx - a)) := by
  obtain ⟨f, rfl⟩ : ∃ g, f = g + 1 := ⟨f - 1, by omega⟩
  rw [readParts, Nat.add_sub_cancel]

/-- A burst starts: its completion is the next one, and the others follow. -/
theorem start_issue (c : AxrCfg) (hc : AxrCfgOk c) (cid m : Nat) (hm8 : m < 8) (s : Axr) (i : AxrIn) (h : TlpHdr) (re : List AxrJob)
    (hs : StartIs c cid m s h re) (hr : i.rst = false) (him : i.mps = m) (hi : axrIssue s = true) :
    (s.dw ≤ s.mps ∧ re = [axrPart c cid h (nextPart s)] ∧ (axrStep c s i).st = .idle) ∨
    (¬ s.dw ≤ s.mps ∧ ∃ re', re = axrPart c cid h (nextPart s) :: re' ∧ (axrStep c s i).st = .start ∧ StartIs c cid m (axrStep c s i) h re') := by
  obtain ⟨t1, t2, t3, t4, t5⟩ := start_tr c hc cid m s h re hs
  obtain ⟨e1, e2, e3, e4, e5, e6⟩ := readEnd_rng h
  obtain ⟨m1, m2, m3, m4⟩ := axrMax_rng c hc m
  obtain ⟨a1, a2⟩ := axrTlpAddr_mod4 c hc h
  obtain ⟨f, hf, hre⟩ := hs.parts
  have hm := hs.mps
  have hd := hs.dw
  have hst : s.st = .start := by unfold axrIssue at hi; simp at hi; exact hi.1.1
  have hnh : ¬ axrHead s i = true := by unfold axrHead; rw [hst]; simp
  have hni : ¬ (s.st == .idle) = true := by rw [hst]; decide
  rw [readParts_step _ _ _ _ (by omega)] at hre
  rw [axrStep_norst c s i hr]
  by_cases hle : s.dw ≤ s.mps
  · left
    rw [if_pos (by omega)] at hre
    refine ⟨hle, ?_, ?_⟩
    · rw [hre]; unfold nextPart; rw [t1 hle]; rfl
    · show axrStNext s i = _
      unfold axrStNext; rw [hst]; simp [hi, hle]
  · right
    rw [if_neg (by omega)] at hre
    obtain ⟨q1, q2⟩ := t2 hle
    have q5 := t5 hle
    have x1 : (axrNext c s i false).addr = s.addr / 2 ^ 12 * 2 ^ 12 + (s.addr / 2 ^ 7 % 32 * 32 + s.mps) * 4 % 2 ^ 12 := by
      show (if _ then _ else if _ then _ + (if _ then _ else _) else _) = _
      rw [if_neg hni, if_pos hi, if_neg hle]
    have x2 : (axrNext c s i false).op = (s.op + s.addr % 4 + 2 ^ 13 - axrTr s * 4 % 2 ^ 13) % 2 ^ 13 := by
      show (if _ then _ else if _ then _ else _) = _
      rw [if_neg hni, if_pos hi]
    have x3 : (axrNext c s i false).dw = (s.dw + 2 ^ 11 - axrTr s) % 2 ^ 11 := by
      show (if _ then _ else if _ then _ else _) = _
      rw [if_neg hni, if_pos hi]
    have hpage := hs.page
    have hrest := hs.rest
    have hfrom := hs.from'
    have haddr := hs.addr
    have hop := hs.op
    have y3 : (axrNext c s i false).dw = s.dw - axrTr s := by rw [x3]; omega
    have y1 : (axrNext c s i false).addr = s.addr / 4 * 4 / 128 * 128 + axrMax c m := by
      rw [x1]
      have hge : axrTlpAddr c h ≤ s.addr / 4 * 4 := by omega
      clear x1 x2 x3 y3 hre hop haddr t1 t2
      generalize axrTlpAddr c h = A at *
      generalize axrMax c m = mx at *
      generalize s.addr = a at *
      omega
    have hlt : s.addr / 4 * 4 < s.addr / 4 * 4 / 128 * 128 + axrMax c m := by omega
    have z4 : (axrNext c s i false).addr / 4 * 4 = (axrNext c s i false).addr := by rw [y1]; omega
    have y2 : (axrNext c s i false).op = axrTlpAddr c h + tlpReadEnd h - (axrNext c s i false).addr := by
      rw [x2, y1, hop]
      have hge : axrTlpAddr c h ≤ s.addr / 4 * 4 := by omega
      have hle2 : s.addr ≤ s.addr / 4 * 4 + 3 := by omega
      clear x1 x2 x3 y3 hre hop t1 t2 z4 y1
      generalize axrTlpAddr c h = A at *
      generalize axrMax c m = mx at *
      generalize tlpReadEnd h = E at *
      generalize axrTr s = t at *
      generalize s.addr = a at *
      omega
    refine ⟨hle, (readParts (axrMax c m) (f - 1) (s.addr / 4 * 4 / 128 * 128 + axrMax c m)
        (4 * s.dw - (s.addr / 4 * 4 / 128 * 128 + axrMax c m - s.addr / 4 * 4))).map (axrPart c cid h), ?_, ?_, ?_⟩
    · rw [hre, List.map_cons, ← q1]; rfl
    · show axrStNext s i = _
      unfold axrStNext; rw [hst]; simp [hi, hle]
    · have ecmd : (axrNext c s i false).cmd = axrCmdNext c s i := rfl
      have ecmd2 : axrCmdNext c s i = { s.cmd with
          inLen := axrBeats c s % 2 ^ 10, outLen := (axrTr s + 2 ^ 32 - 1) % 2 ^ 32 / c.dws % 2 ^ 10, lower := s.addr % 2 ^ 7
          len := s.op, dws := axrTr s, off := (c.dws - axrOff c s) % c.dws, bubble := axrOff c s != 0 } := by
        unfold axrCmdNext; rw [if_neg hnh, if_pos hi]
      exact
        { mps := by
            show 4 * (32 * 2 ^ min (i.mps % 8) c.payloadMax) = axrMax c m
            unfold axrMax; rw [him, Nat.mod_eq_of_lt hm8]; omega
          parts := ⟨f - 1, by rw [y3]; omega, by rw [z4, y1, y3, Nat.mul_sub, q1]⟩
          dw := by rw [y3]; omega
          addr := by rw [z4, y1]; omega
          op := y2
          rest := by rw [z4, y1, y3]; omega
          from' := by rw [z4, y1]; right; omega
          page := hpage
          one := hs.one
          cmd := by
            rw [ecmd, ecmd2]; exact ⟨hs.cmd.rid, hs.cmd.tag, hs.cmd.tc, hs.cmd.attr⟩
          st0 := by rw [ecmd, ecmd2]; exact hs.st0 }

/-- No burst: nothing changes. -/
theorem start_stay (c : AxrCfg) (cid m : Nat) (hm8 : m < 8) (s : Axr) (i : AxrIn) (h : TlpHdr) (re : List AxrJob)
    (hs : StartIs c cid m s h re) (hst : s.st = .start) (hr : i.rst = false) (him : i.mps = m) (hi : axrIssue s = false) :
    (axrStep c s i).st = .start ∧ StartIs c cid m (axrStep c s i) h re := by
  have hnh : ¬ axrHead s i = true := by unfold axrHead; rw [hst]; simp
  have hni : ¬ (s.st == .idle) = true := by rw [hst]; decide
  have hi' : ¬ axrIssue s = true := by rw [hi]; decide
  rw [axrStep_norst c s i hr]
  have x1 : (axrNext c s i false).addr = s.addr := by
    show (if _ then _ else if _ then _ else _) = _
    rw [if_neg hni, if_neg hi']
  have x2 : (axrNext c s i false).op = s.op := by
    show (if _ then _ else if _ then _ else _) = _
    rw [if_neg hni, if_neg hi']
  have x3 : (axrNext c s i false).dw = s.dw := by
    show (if _ then _ else if _ then _ else _) = _
    rw [if_neg hni, if_neg hi']
  have x4 : (axrNext c s i false).cmd = s.cmd := by
    show axrCmdNext c s i = _
    unfold axrCmdNext; rw [if_neg hnh, if_neg hi']
  refine ⟨?_, ?_⟩
  · show axrStNext s i = _
    unfold axrStNext; rw [hst]; simp [hi]
  · exact
      { mps := by
          show 4 * (32 * 2 ^ min (i.mps % 8) c.payloadMax) = axrMax c m
          unfold axrMax; rw [him, Nat.mod_eq_of_lt hm8]; omega
        parts := by rw [x1, x3]; exact hs.parts
        dw := by rw [x3]; exact hs.dw
        addr := by rw [x1]; exact hs.addr
        op := by rw [x1, x2]; exact hs.op
        rest := by rw [x1, x3]; exact hs.rest
        from' := by rw [x1]; exact hs.from'
        page := hs.page
        one := hs.one
        cmd := by rw [x4]; exact hs.cmd
        st0 := by rw [x4]; exact hs.st0 }

theorem head_cmd (c : AxrCfg) (s : Axr) (i : AxrIn) (hh : axrHead s i = true) :
    CmdHdr i.hdr (axrCmdNext c s i) ∧ (axrCmdNext c s i).status = (if axrIsUr i.hdr then 1 else 0) ∧
    (axrIsUr i.hdr = true → (axrCmdNext c s i).len = 0 ∧ (axrCmdNext c s i).dws = 0) := by
  unfold axrCmdNext
  rw [if_pos hh]
  exact ⟨⟨rfl, rfl, rfl, rfl⟩, rfl, fun h => ⟨if_pos h, if_pos h⟩⟩

/-- A read starts. -/
theorem start_head (c : AxrCfg) (hc : AxrCfgOk c) (cid m : Nat) (hm8 : m < 8) (s : Axr) (i : AxrIn) (hh : axrHead s i = true) (hk : AxrReqOk c m i)
    (hrd : tlpIsRead i.hdr = true) (hr : i.rst = false) (him : i.mps = m) :
    StartIs c cid m (axrStep c s i) i.hdr (axrJobs c m cid i.hdr) := by
  obtain ⟨e1, e2, e3, e4, e5, e6⟩ := readEnd_rng i.hdr
  obtain ⟨a1, a2⟩ := axrTlpAddr_mod4 c hc i.hdr
  obtain ⟨i1, i2, i3, i4⟩ := axrIs_eq i.hdr hk.1
  have hidle : (s.st == .idle) = true := by unfold axrHead at hh; simp only [Bool.and_eq_true] at hh; exact hh.1.1.1
  obtain ⟨c1, c2, _⟩ := head_cmd c s i hh
  have hfb : tlpFirstBe i.hdr = i.hdr.dw1 % 16 := by unfold tlpFirstBe; simp [bits]
  have hlb : bits i.hdr.dw1 7 4 = i.hdr.dw1 / 16 % 16 := by simp [bits]
  have hbe1 := axrBe_eq (i.hdr.dw1 % 16) (Nat.mod_lt _ (by decide))
  have hbe2 := axrBe_eq (i.hdr.dw1 / 16 % 16) (Nat.mod_lt _ (by decide))
  have x1 : (axrNext c s i false).addr = axrTlpAddr c i.hdr + beFirst (tlpFirstBe i.hdr) := by
    show (if _ then _ else _) = _
    rw [if_pos hidle, hfb, hbe1.2.1, axrAddr_eq, Nat.add_mod]
    show (axrTlpAddr c i.hdr + _ % 2 ^ c.addrW) % 2 ^ c.addrW = _
    obtain ⟨k, hk1, hk2⟩ := axr_addrW c hc
    have hb4 := hbe1.2.2.1
    rw [hk1] at a2 ⊢
    rw [Nat.mod_eq_of_lt (a := beFirst (i.hdr.dw1 % 16)) (by omega)]
    exact Nat.mod_eq_of_lt (by omega)
  have x2 : (axrNext c s i false).op = tlpReadEnd i.hdr - beFirst (tlpFirstBe i.hdr) := by
    show (if _ then axrOp i.hdr else _) = _
    rw [if_pos hidle]
    unfold axrOp tlpReadEnd
    rw [axrLen_eq, hlb, hfb, hbe1.1, hbe1.2.1]
    split <;> omega
  have x3 : (axrNext c s i false).dw = hdrLen i.hdr := by
    show (if _ then axrLen i.hdr else _) = _
    rw [if_pos hidle, axrLen_eq]
  rw [axrStep_norst c s i hr]
  have x4 : (axrNext c s i false).cmd = axrCmdNext c s i := rfl
  have z : (axrNext c s i false).addr / 4 * 4 = axrTlpAddr c i.hdr := by rw [x1]; omega
  exact
    { mps := by
        show 4 * (32 * 2 ^ min (i.mps % 8) c.payloadMax) = axrMax c m
        unfold axrMax; rw [him, Nat.mod_eq_of_lt hm8]; omega
      parts := ⟨4 * hdrLen i.hdr, by rw [x3]; omega, by rw [z, x3]; unfold axrJobs; rw [if_pos hrd]⟩
      dw := by rw [x3]; omega
      addr := by rw [z, x1]; omega
      op := by rw [x2, x1]; omega
      rest := by rw [z, x3]
      from' := by left; exact z
      page := (hk.2 hrd).2.1
      one := (hk.2 hrd).2.2
      cmd := by rw [x4]; exact c1
      st0 := by
        rw [x4, c2, i4]
        have : tlpIsUr i.hdr = false := by unfold tlpIsUr; rw [hrd]; rfl
        rw [this]; rfl }

/-- An unsupported request. -/
theorem ur_head (c : AxrCfg) (cid m : Nat) (s : Axr) (i : AxrIn) (hh : axrHead s i = true) (hk : AxrReqOk c m i) (hu : tlpIsUr i.hdr = true) :
    ∃ j, axrJobs c m cid i.hdr = [j] ∧ j.bytes = 0 ∧ CmdIs c cid j (axrCmdNext c s i) := by
  obtain ⟨i1, i2, i3, i4⟩ := axrIs_eq i.hdr hk.1
  obtain ⟨c1, c2, c3⟩ := head_cmd c s i hh
  rw [i4] at c2 c3
  obtain ⟨c4, c5⟩ := c3 hu
  rw [hu] at c2
  have c2 : (axrCmdNext c s i).status = 1 := c2
  have hnr : ¬ tlpIsRead i.hdr = true := by
    intro h; unfold tlpIsUr at hu; rw [h] at hu; simp at hu
  refine ⟨_, by unfold axrJobs; rw [if_neg hnr, if_pos hu], rfl, ⟨c1.rng (by rw [c2]; decide), fun h => absurd rfl h, fun _ => ⟨c2, c5, ?_⟩⟩⟩
  rw [c1.rid, c1.tag, c1.tc, c1.attr, axr_cplFor c.force64 cid i.hdr 1 false (by simp), c4, c5]
  rfl

end Verif.Proofs
