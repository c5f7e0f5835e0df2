import Verif.Proofs.DrdSpan
import Verif.Proofs.DrdEnv
/-! The completion state machine of the PCIe DMA read interface. -/
namespace Verif.Proofs
open Verif Verif.Model Verif.Spec

/-- The tag table entry is that of the request. -/
structure EntryAt (c : DrdCfg) (opOf : Nat → Nat) (t : DrdTag) (r : RdReq) : Prop where
  sel : t.sel = r.d.sel
  ram : t.ram = (r.d.ram + r.stop) % 2 ^ c.ramW
  op : t.op = opOf r.num
  zero : t.zero = decide (r.d.len = 0)

/-- An outstanding request. -/
structure RdReqWf (r : RdReq) : Prop where
  lt : r.off < r.stop
  le : r.stop - r.off ≤ 4096
  zero : r.d.len = 0 → r.stop - r.off = 1

/-! ### Numbers of a completion -/

/-- What a completion with data for `r` means to the state machine. -/
structure CplNums (c : DrdCfg) (r : RdReq) (t : DrdTag) (h : TlpHdr) : Prop where
  pos : 1 ≤ cplFirst c r h
  le : cplFirst c r h ≤ cplCount r h
  count : cplCount r h ≤ r.stop - r.off
  lane : cplOffset h + cplFirst c r h ≤ c.tlpBytes
  full : cplCount r h ≠ cplFirst c r h → cplOffset h + cplFirst c r h = c.tlpBytes
  total : drdTotal h = cplCount r h
  long : drdLong c h = decide (cplCount r h ≠ cplFirst c r h)
  cyc : drdCyc0 c h = cplFirst c r h
  more : drdMore h = decide (r.off + cplCount r h ≠ r.stop)
  addr : (t.ram + 2 ^ c.ramW * 2 ^ 13 - cplBytes h) % 2 ^ c.ramW = (r.d.ram + r.off) % 2 ^ c.ramW
  ofs : ((t.ram + c.tlpBytes * 2 ^ 13 - (cplBytes h + cplLower h % 4)) % c.tlpBytes + cplOffset h) % c.tlpBytes =
    (r.d.ram + r.off) % 2 ^ c.ramW % c.tlpBytes

theorem cpl_nums {c : DrdCfg} (hc : DrdCfgOk c) {opOf : Nat → Nat} {r : RdReq} {t : DrdTag} {i : DrdIn} (hw : RdReqWf r)
    (ht : EntryAt c opOf t r) (hd : CplDataOk c r i) : CplNums c r t i.rxHdr := by
  have h1 := hw.lt
  have h2 := hw.le
  have h3 := hd.count
  have h4 := hd.len
  have hT4 : c.tlpBytes % 4 = 0 := by
    unfold DrdCfg.tlpBytes
    obtain ⟨n, hn⟩ : ∃ n, c.tb = n + 2 := ⟨c.tb - 2, by have := hc.tb; omega⟩
    rw [hn, Nat.pow_add]; omega
  have hT : 4 ≤ c.tlpBytes := by
    unfold DrdCfg.tlpBytes
    show 2 ^ 2 ≤ 2 ^ c.tb
    exact Nat.pow_le_pow_right (by decide) hc.tb.1
  have hb : cplBytes i.rxHdr = r.stop - r.off := by
    unfold cplBytes
    unfold bits at h3
    simp only [Nat.pow_zero, Nat.div_one, Nat.sub_zero, Nat.reduceAdd] at h3
    rw [h3]
    split <;> omega
  have ho : cplLower i.rxHdr % 4 = cplOffset i.rxHdr := by
    unfold cplLower cplOffset bits
    simp only [Nat.pow_zero, Nat.div_one, Nat.reducePow, Nat.reduceAdd, Nat.reduceSub]; omega
  have ho4 : cplOffset i.rxHdr < 4 := by
    unfold cplOffset bits
    simp only [Nat.pow_zero, Nat.div_one, Nat.reducePow, Nat.reduceAdd, Nat.reduceSub]; omega
  have hl : cplLen i.rxHdr = hdrLen i.rxHdr := by
    unfold cplLen hdrLen bits
    simp only [Nat.pow_zero, Nat.div_one, Nat.reducePow, Nat.reduceAdd, Nat.reduceSub]
  have hl1 : 1 ≤ hdrLen i.rxHdr := by
    rw [← hl]; unfold cplLen; split <;> omega
  have hPR : 0 < 2 ^ c.ramW := Nat.two_pow_pos _
  have hdvd : c.tlpBytes ∣ 2 ^ c.ramW := by
    unfold DrdCfg.tlpBytes
    exact Nat.pow_dvd_pow 2 (by have := hc.ram; omega)
  have hmore : drdMore i.rxHdr = decide (r.stop - r.off > 4 * hdrLen i.rxHdr - cplOffset i.rxHdr) := by
    unfold drdMore; rw [hb, hl, ho, Nat.mul_comm]
  have htot : drdTotal i.rxHdr = cplCount r i.rxHdr := by
    unfold drdTotal cplCount
    rw [hmore, hl, ho, hb]
    split
    · rename_i h; have := of_decide_eq_true h; omega
    · rename_i h; simp only [decide_eq_true_eq] at h; omega
  have hlong : drdLong c i.rxHdr = decide (cplCount r i.rxHdr ≠ cplFirst c r i.rxHdr) := by
    unfold drdLong cplFirst cplCount
    rw [hmore, hl, ho, hb]
    split
    · rename_i h; have := of_decide_eq_true h
      rw [decide_eq_decide]; omega
    · rename_i h; simp only [decide_eq_true_eq] at h
      rw [decide_eq_decide]; omega
  refine ⟨?_, ?_, ?_, ?_, ?_, htot, hlong, ?_, ?_, ?_, ?_⟩
  · unfold cplFirst cplCount; omega
  · unfold cplFirst; omega
  · unfold cplCount; omega
  · unfold cplFirst; omega
  · unfold cplFirst; omega
  · unfold drdCyc0
    rw [hlong, htot, ho]
    unfold cplFirst
    split
    · rename_i h; simp only [decide_eq_true_eq] at h; omega
    · rename_i h; simp only [decide_eq_true_eq] at h; omega
  · rw [hmore, decide_eq_decide]; unfold cplCount; omega
  · rw [ht.ram, hb]
    generalize 2 ^ c.ramW = P at *
    have hm := Nat.div_add_mod (r.d.ram + r.stop) P
    have hlt := Nat.mod_lt (r.d.ram + r.stop) hPR
    generalize (r.d.ram + r.stop) % P = x at *
    generalize (r.d.ram + r.stop) / P = y at *
    have hbig : r.stop - r.off ≤ P * 2 ^ 13 := by
      have : 1 * 2 ^ 13 ≤ P * 2 ^ 13 := Nat.mul_le_mul_right _ hPR
      simp only [Nat.reducePow] at this ⊢; omega
    have key : (x + P * 2 ^ 13 - (r.stop - r.off)) + P * y = (r.d.ram + r.off) + P * 2 ^ 13 := by omega
    have := congrArg (· % P) key
    simpa only [Nat.add_mul_mod_self_left] using this
  · rw [ht.ram, hb, ho, Nat.mod_mod_of_dvd _ hdvd]
    obtain ⟨u, hu⟩ := hdvd
    have hm := Nat.div_add_mod (r.d.ram + r.stop) (2 ^ c.ramW)
    have hlt := Nat.mod_lt (r.d.ram + r.stop) hPR
    rw [hu, Nat.mul_assoc] at hm
    rw [hu] at hlt ⊢
    generalize (r.d.ram + r.stop) % (c.tlpBytes * u) = x at *
    generalize (r.d.ram + r.stop) / (c.tlpBytes * u) = y at *
    generalize c.tlpBytes = T at *
    have hbig : r.stop - r.off + 4 ≤ T * 2 ^ 13 := by
      have : 4 * 2 ^ 13 ≤ T * 2 ^ 13 := Nat.mul_le_mul_right _ hT
      simp only [Nat.reducePow] at this ⊢; omega
    rw [Nat.mod_add_mod]
    have key : (x + T * 2 ^ 13 - (r.stop - r.off + cplOffset i.rxHdr) + cplOffset i.rxHdr) + T * (u * y) =
        (r.d.ram + r.off) + T * 2 ^ 13 := by omega
    have := congrArg (· % T) key
    simpa only [Nat.add_mul_mod_self_left] using this

/-! ### The state machine and the specification -/

/-- The registers in the middle of a completion: `left` more bytes for `r`. -/
structure RxAt (c : DrdCfg) (opOf : Nat → Nat) (x : DrdRx) (r : RdReq) (left : Nat) : Prop where
  tag : x.tag = r.tag
  addr : x.addr = (r.d.ram + r.off) % 2 ^ c.ramW
  count : x.count = left
  pos : 1 ≤ left
  le : left ≤ r.stop - r.off
  final : x.final = decide (r.off + left = r.stop)
  ofs : x.offset < c.tlpBytes ∧ x.offset % c.tlpBytes = (r.d.ram + r.off) % 2 ^ c.ramW % c.tlpBytes
  sel : x.sel = r.d.sel
  op : x.op = opOf r.num
  nz : r.d.len ≠ 0

/-- The state machine is where the specification is. -/
def RxRel (c : DrdCfg) (opOf : Nat → Nat) (x : DrdRx) (f : RdEnv) : Prop :=
  match f.cur with
  | .none => x.st = .idle
  | .skip => x.st = .waitEnd
  | .data t left => x.st = .write ∧ ∃ r, f.out.find? (·.tag == t) = some r ∧ RxAt c opOf x r left

/-- The stage after the state machine holds this event. -/
structure StageEv (c : DrdCfg) (opOf : Nat → Nat) (s : Drd) (v : RdEvent) : Prop where
  op : s.rx.op = opOf v.num
  fin : s.rx.stFinish = v.finish
  err : s.rx.stError = v.error
  mask : ∀ k < c.segs, (s.rx.stMask && s.rx.mask k) = !(v.writes.filter (drdInSeg c k)).isEmpty
  cmd : ∀ k < c.segs, (s.rx.dataV && s.rx.mask k) = !(v.writes.filter (drdInSeg c k)).isEmpty
  wr : ∀ k < c.segs, (s.rx.dataV && s.rx.mask k) = true →
    drdCmdWrites c k (drdPipeCmd c (drdPipeStep c s) k) = v.writes.filter (drdInSeg c k)

/-- The stage after the state machine holds these events (at most one). -/
def StageRel (c : DrdCfg) (opOf : Nat → Nat) (s : Drd) (E : List RdEvent) : Prop :=
  (E = [] ∧ s.rx.stWr = false ∧ s.rx.dataV = false) ∨ ∃ v, E = [v] ∧ s.rx.stWr = true ∧ StageEv c opOf s v

theorem find_advance {out : List RdReq} {t k : Nat} {r : RdReq} (h : out.find? (·.tag == t) = some r) (hk : r.off + k ≠ r.stop) :
    (rdAdvance t k out).find? (·.tag == t) = some { r with off := r.off + k } := by
  induction out with
  | nil => simp at h
  | cons a out ih =>
    unfold rdAdvance at *
    rw [List.find?_cons] at h
    rw [List.filterMap_cons]
    by_cases ha : a.tag = t
    · have : (a.tag == t) = true := by simpa using ha
      rw [this] at h
      simp only [Option.some.injEq] at h
      subst h
      simp [ha, hk]
    · have : (a.tag == t) = false := by simpa using ha
      rw [this] at h
      simp only [ha, if_false, List.find?_cons, this]
      exact ih h

/-- What the state machine finds for a completion. -/
structure HeadOk (c : DrdCfg) (opOf : Nat → Nat) (s : Drd) (i : DrdIn) (out : List RdReq) : Prop where
  no : out.find? (·.tag == cplHdrTag i.rxHdr) = none → s.actB (drdRxTag c i) = s.actA (drdRxTag c i)
  yes : ∀ r, out.find? (·.tag == cplHdrTag i.rxHdr) = some r →
    drdRxTag c i = r.tag ∧ s.actB (drdRxTag c i) ≠ s.actA (drdRxTag c i) ∧ EntryAt c opOf (s.tags (drdRxTag c i)) r

theorem rx_fields (h : TlpHdr) : cplStatus h = bits h.dw1 15 13 ∧ cplFmt h = bits h.dw0 31 29 ∧
    cplTc h = bits h.dw0 22 20 ∧ cplAttr h = bits h.dw0 18 18 * 4 + bits h.dw0 13 12 ∧ cplEp h = (bits h.dw0 14 14 == 1) ∧
    cplRid h = bits h.dw2 31 16 ∧ cplRid h % 2 ^ 8 = bits h.dw2 23 16 ∧ bits h.dw0 13 12 < 4 := by
  refine ⟨rfl, rfl, rfl, rfl, rfl, rfl, ?_, ?_⟩
  · unfold cplRid bits
    simp only [Nat.reducePow, Nat.reduceAdd, Nat.reduceSub]; omega
  · unfold bits
    exact Nat.mod_lt _ (by decide)

theorem rx_kind {c : DrdCfg} {opOf : Nat → Nat} {s : Drd} {i : DrdIn} {out : List RdReq} (h : HeadOk c opOf s i out) :
    match rdKind c out i with
    | .unexpected => drdUnexpected c s i = true
    | .malformed => drdUnexpected c s i = false ∧ drdMalformed i = true
    | .error _ n => drdUnexpected c s i = false ∧ drdMalformed i = false ∧ drdCplError i = n ∧ n ≠ 0
    | .data _ => drdUnexpected c s i = false ∧ drdMalformed i = false ∧ drdCplError i = 0 := by
  obtain ⟨f1, f2, f3, f4, f5, f6, f7, f8⟩ := rx_fields i.rxHdr
  unfold rdKind
  dsimp only
  cases hf : out.find? (·.tag == cplHdrTag i.rxHdr) with
  | none =>
    have := h.no hf
    simp [drdUnexpected, this]
  | some r =>
    have hne := (h.yes r hf).2.1
    have hne' : (s.actB (drdRxTag c i) == s.actA (drdRxTag c i)) = false := by simpa using hne
    have hu : drdUnexpected c s i =
        decide ((bits i.rxHdr.dw1 15 13 = 0 ∧ bits i.rxHdr.dw0 31 29 ≠ 2) ∨ ¬ cplForMe c i) := by
      rw [Bool.eq_iff_iff, decide_eq_true_eq]
      unfold drdUnexpected cplForMe
      rw [f6] at f7
      rw [hne', f1, f2, f6, f7]
      by_cases hb : c.checkBus = true
      · simp [hb]
      · simp [hb]
    have hm : drdMalformed i = decide ((bits i.rxHdr.dw1 15 13 ≠ 0 ∧ bits i.rxHdr.dw0 31 29 ≠ 0) ∨ bits i.rxHdr.dw0 22 20 ≠ 0 ∨
        bits i.rxHdr.dw0 18 18 ≠ 0 ∨ bits i.rxHdr.dw0 13 12 ≠ 0 ∨ i.rxError = 3) := by
      unfold drdMalformed
      rw [f1, f2, f3, f4, Bool.eq_iff_iff]
      simp
      omega
    have he : drdCplError i = if bits i.rxHdr.dw0 14 14 = 1 ∨ i.rxError = 1 then 9 else
        if bits i.rxHdr.dw1 15 13 ≠ 0 ∨ i.rxError = 2 then if bits i.rxHdr.dw1 15 13 = 4 then 11 else 10 else
        if i.rxError = 15 then 1 else if i.rxError = 8 then 8 else 0 := by
      unfold drdCplError
      rw [f1, f5]
      simp
    rw [hu, hm, he]
    simp only
    by_cases h1 : (bits i.rxHdr.dw1 15 13 = 0 ∧ bits i.rxHdr.dw0 31 29 ≠ 2) ∨ ¬ cplForMe c i
    · simp only [h1, if_true, decide_true]
    simp only [h1, if_false, decide_false]
    by_cases h2 : (bits i.rxHdr.dw1 15 13 ≠ 0 ∧ bits i.rxHdr.dw0 31 29 ≠ 0) ∨ bits i.rxHdr.dw0 22 20 ≠ 0 ∨
        bits i.rxHdr.dw0 18 18 ≠ 0 ∨ bits i.rxHdr.dw0 13 12 ≠ 0 ∨ i.rxError = 3
    · simp only [h2, if_true, decide_true]; refine ⟨?_, ?_⟩ <;> trivial
    simp only [h2, if_false, decide_false]
    by_cases h3 : bits i.rxHdr.dw0 14 14 = 1 ∨ i.rxError = 1
    · simp only [h3, if_true]; refine ⟨?_, ?_, ?_, ?_⟩ <;> first | trivial | decide
    simp only [h3, if_false]
    by_cases h4 : bits i.rxHdr.dw1 15 13 ≠ 0 ∨ i.rxError = 2
    · simp only [h4, if_true]; refine ⟨?_, ?_, ?_, ?_⟩ <;> first | trivial | (split <;> decide)
    simp only [h4, if_false]
    by_cases h5 : i.rxError = 15
    · simp only [h5, if_true]; refine ⟨?_, ?_, ?_, ?_⟩ <;> first | trivial | decide
    simp only [h5, if_false]
    by_cases h6 : i.rxError = 8
    · simp only [h6, if_true]; refine ⟨?_, ?_, ?_, ?_⟩ <;> first | trivial | decide
    simp only [h6, if_false]
    refine ⟨?_, ?_, ?_⟩ <;> trivial

/-! ### One cycle of the state machine -/

theorem span_writes_eq (c : DrdCfg) (sel ram off k lane : Nat) (data : Nat → UInt8) :
    spanWrites c sel ((ram + off) % 2 ^ c.ramW) k lane data =
      (List.range k).map fun q => (sel, (ram + (off + q)) % 2 ^ c.ramW, data (lane + q)) := by
  unfold spanWrites
  refine List.map_congr_left fun q _ => ?_
  rw [Nat.mod_add_mod, Nat.add_assoc]

theorem stage_ev {c : DrdCfg} (hc : DrdCfgOk c) {opOf : Nat → Nat} {s : Drd} {r : RdReq} {k lane : Nat} {data : Nat → UInt8}
    {v : RdEvent} (hspan : StageSpan c s.rx ((r.d.ram + r.off) % 2 ^ c.ramW) k) (hk : 1 ≤ k) (hl : lane + k ≤ c.tlpBytes)
    (ho1 : s.rx.offset < c.tlpBytes)
    (ho2 : (s.rx.offset + lane) % c.tlpBytes = (r.d.ram + r.off) % 2 ^ c.ramW % c.tlpBytes)
    (hsel : s.rx.sel = r.d.sel) (hdata : s.rx.data = data) (hop : s.rx.op = opOf r.num) (hfin : s.rx.stFinish = v.finish)
    (herr : s.rx.stError = v.error) (hdv : s.rx.dataV = !decide (r.d.len = 0)) (hsm : s.rx.stMask = !decide (r.d.len = 0))
    (hn : v.num = r.num)
    (hw : v.writes = if r.d.len = 0 then [] else
      (List.range k).map fun q => (r.d.sel, (r.d.ram + (r.off + q)) % 2 ^ c.ramW, data (lane + q))) :
    StageEv c opOf s v := by
  have hs := fun q (hq : q < c.segs) => stage_writes hc hspan hk hl ho1 ho2 hq
  simp only [hsel, hdata, span_writes_eq] at hs
  refine ⟨by rw [hop, hn], hfin, herr, fun q hq => ?_, fun q hq => ?_, fun q hq h => ?_⟩
  · rw [hsm, hw]
    by_cases h0 : r.d.len = 0
    · simp [h0]
    · simp only [h0, decide_false, Bool.not_false, Bool.true_and, if_false]; exact (hs q hq).2
  · rw [hdv, hw]
    by_cases h0 : r.d.len = 0
    · simp [h0]
    · simp only [h0, decide_false, Bool.not_false, Bool.true_and, if_false]; exact (hs q hq).2
  · rw [hdv] at h
    by_cases h0 : r.d.len = 0
    · simp [h0] at h
    · rw [hw, if_neg h0]; exact (hs q hq).1

/-- After a cycle, state machine, finished tag and events are as specified. -/
def RxStepOk (c : DrdCfg) (opOf : Nat → Nat) (s : Drd) (f f1 : RdEnv) : Prop :=
  RxRel c opOf s.rx f1 ∧ f1.last = (if s.rx.finish then some s.rx.tag else none) ∧
    ∃ E, f1.evs = f.evs ++ E ∧ StageRel c opOf s E

/-- Nothing is taken. -/
theorem rx_quiet {c : DrdCfg} {opOf : Nat → Nat} {x : DrdRx} {s' : Drd} {i : DrdIn} {f : RdEnv} {b : Bool}
    (hrel : RxRel c opOf x f) (hx : s'.rx = { drdRxIdle x i with ready := b }) :
    RxStepOk c opOf s' f { f with last := none } := by
  unfold RxStepOk
  rw [hx]
  refine ⟨?_, rfl, [], by simp, .inl ⟨rfl, by rw [hx]; rfl, by rw [hx]; rfl⟩⟩
  unfold RxRel at hrel ⊢
  simp only
  cases hcur : f.cur with
  | none => rw [hcur] at hrel; exact hrel
  | skip => rw [hcur] at hrel; exact hrel
  | data t left =>
    rw [hcur] at hrel
    obtain ⟨h1, r, h2, h3⟩ := hrel
    exact ⟨h1, r, h2, ⟨h3.tag, h3.addr, h3.count, h3.pos, h3.le, h3.final, h3.ofs, h3.sel, h3.op, h3.nz⟩⟩

theorem tlp_dvd_ram {c : DrdCfg} (hc : DrdCfgOk c) : c.tlpBytes ∣ 2 ^ c.ramW := by
  unfold DrdCfg.tlpBytes
  exact Nat.pow_dvd_pow 2 (by have := hc.ram; omega)

theorem rx_write {c : DrdCfg} (hc : DrdCfgOk c) {opOf : Nat → Nat} {s s' : Drd} {i : DrdIn} {f : RdEnv} {t left : Nat} {r : RdReq}
    (hx : s'.rx = drdRxStep c s i) (hb : drdBeat s i = true) (hst : s.rx.st = .write)
    (hcur : f.cur = .data t left) (hf : f.out.find? (·.tag == t) = some r) (hr : RxAt c opOf s.rx r left) (hw : RdReqWf r)
    (heop : i.rxEop = true ↔ left ≤ c.tlpBytes) :
    RxStepOk c opOf s' f (({ f with last := none } : RdEnv).beat c i) := by
  have hT : 1 ≤ c.tlpBytes := Nat.two_pow_pos _
  have hrt : r.tag = t := by have := List.find?_some hf; simpa using this
  subst hrt
  have hcyc : drdCyc c s = min c.tlpBytes left := by unfold drdCyc; rw [hr.count]; split <;> omega
  have hfin : ((!decide (s.rx.count > c.tlpBytes) || i.rxEop) && s.rx.final) = decide (r.off + min c.tlpBytes left = r.stop) := by
    have := hr.le
    have := hw.lt
    rw [hr.count, hr.final]
    by_cases hl : left ≤ c.tlpBytes
    · rw [heop.2 hl, Nat.min_eq_right hl]; simp
    · have : i.rxEop = false := by rw [Bool.eq_false_iff]; exact fun h => hl (heop.1 h)
      rw [this, Nat.min_eq_left (by omega)]
      simp only [show left > c.tlpBytes by omega, decide_true, Bool.not_true, Bool.or_false, Bool.false_and]
      rw [eq_comm, decide_eq_false_iff_not]; omega
  have hx' : s'.rx = { drdSpan c (drdRxIdle s.rx i) s.rx.addr (min c.tlpBytes left) s.rx.count with
        st := if left ≤ c.tlpBytes then .idle else .write
        ready := drdSpace c s, dataV := true, stWr := true, finish := decide (r.off + min c.tlpBytes left = r.stop),
        stFinish := decide (r.off + min c.tlpBytes left = r.stop) } := by
    rw [hx]; unfold drdRxStep
    rw [hst]
    simp only [hb, if_true, hfin, hcyc]
    congr 1
    by_cases hl : left ≤ c.tlpBytes
    · simp [heop.2 hl, hl]
    · have : i.rxEop = false := by rw [Bool.eq_false_iff]; exact fun h => hl (heop.1 h)
      rw [this, hr.count]; simp [hl]
  have hbt : ({ f with last := none } : RdEnv).beat c i =
      { ({ f with last := none } : RdEnv).data c r (min c.tlpBytes left) 0 i.rxData with
        cur := if left ≤ c.tlpBytes then .none else .data r.tag (left - c.tlpBytes) } := by
    unfold RdEnv.beat
    simp only [hcur, hf]
  rw [hbt]
  have hle := hr.le
  have hpos := hr.pos
  refine ⟨?_, ?_, [_], rfl, .inr ⟨_, rfl, by rw [hx'], ?_⟩⟩
  · unfold RxRel
    simp only
    by_cases hl : left ≤ c.tlpBytes
    · simp only [hl, if_true]; rw [hx']; simp [hl]
    · simp only [hl, if_false]
      refine ⟨by rw [hx']; simp [hl], { r with off := r.off + min c.tlpBytes left }, ?_, ?_⟩
      · show (rdAdvance r.tag _ f.out).find? _ = _
        have hne : r.off + min c.tlpBytes left ≠ r.stop := by omega
        exact find_advance hf hne
      · have hmin : min c.tlpBytes left = c.tlpBytes := by omega
        rw [hmin] at hx' ⊢
        rw [hx']
        refine ⟨hr.tag, ?_, ?_, by omega, by simp only; omega, ?_, ?_, hr.sel, hr.op, hr.nz⟩
        · show (s.rx.addr + c.tlpBytes) % 2 ^ c.ramW = _
          rw [hr.addr, Nat.mod_add_mod, Nat.add_assoc]
        · show (s.rx.count + 2 ^ 13 - c.tlpBytes) % 2 ^ 13 = _
          have := hw.le
          rw [hr.count]
          simp only [Nat.reducePow]; omega
        · show s.rx.final = _
          rw [hr.final, decide_eq_decide]; simp only; omega
        · refine ⟨hr.ofs.1, ?_⟩
          show s.rx.offset % _ = _
          rw [hr.ofs.2]
          simp only
          rw [Nat.mod_mod_of_dvd _ (tlp_dvd_ram hc), Nat.mod_mod_of_dvd _ (tlp_dvd_ram hc), ← Nat.add_assoc, Nat.add_mod_right]
  · rw [hx']
    show (if decide (r.off + min c.tlpBytes left = r.stop) = true then some r.tag else none) =
      (if decide (r.off + min c.tlpBytes left = r.stop) = true then some s.rx.tag else none)
    rw [hr.tag]
  · have hnz : decide (r.d.len = 0) = false := by simp [hr.nz]
    refine stage_ev hc (r := r) (k := min c.tlpBytes left) (lane := 0) (data := i.rxData) ?_ (by omega) (by omega) ?_ ?_ ?_ ?_ ?_ ?_ ?_ ?_ ?_ rfl rfl
    · rw [hx', ← hr.addr]
      exact (drdSpan_stage c (drdRxIdle s.rx i) s.rx.addr (min c.tlpBytes left) s.rx.count).congr rfl rfl rfl rfl rfl rfl
    · rw [hx']; exact hr.ofs.1
    · rw [hx']; exact hr.ofs.2
    · rw [hx']; exact hr.sel
    · rw [hx']; rfl
    · rw [hx']; exact hr.op
    · rw [hx']
    · rw [hx']; rfl
    · rw [hx', hnz]; rfl
    · rw [hx', hnz]; rfl

/-- A completion that is dropped. -/
theorem rx_drop {c : DrdCfg} {opOf : Nat → Nat} {s s' : Drd} {i : DrdIn} {f : RdEnv}
    (h1 : s'.rx.st = if i.rxEop then .idle else .waitEnd) (h2 : s'.rx.finish = false) (h3 : s'.rx.stWr = false)
    (h4 : s'.rx.dataV = false) :
    RxStepOk c opOf s' f { ({ f with last := none } : RdEnv) with cur := if i.rxEop then .none else .skip } := by
  refine ⟨?_, by rw [h2]; rfl, [], by simp, .inl ⟨rfl, h3, h4⟩⟩
  unfold RxRel
  simp only
  by_cases he : i.rxEop = true
  · simp only [he, if_true] at h1 ⊢; exact h1
  · simp only [he] at h1 ⊢; exact h1

theorem rx_data {c : DrdCfg} (hc : DrdCfgOk c) {opOf : Nat → Nat} {s s' : Drd} {i : DrdIn} {f : RdEnv} {r : RdReq}
    (hf : f.out.find? (·.tag == cplHdrTag i.rxHdr) = some r) (hw : RdReqWf r)
    (hh : HeadOk c opOf s i f.out) (hd : CplDataOk c r i) {fin : Bool}
    (hfe : fin = (!drdLong c i.rxHdr && !drdMore i.rxHdr))
    (hx : s'.rx = { drdRxLoad c s i with
          st := if drdLong c i.rxHdr then .write else .idle
          ready := drdSpace c s
          dataV := !(s.tags (drdRxTag c i)).zero
          stMask := !(s.tags (drdRxTag c i)).zero
          stWr := true, finish := fin, stFinish := fin }) :
    RxStepOk c opOf s' f { ({ f with last := none } : RdEnv).data c r (cplFirst c r i.rxHdr) (cplOffset i.rxHdr) i.rxData with
          cur := if cplCount r i.rxHdr = cplFirst c r i.rxHdr then .none else .data r.tag (cplCount r i.rxHdr - cplFirst c r i.rxHdr) } := by
  obtain ⟨ht, _, he⟩ := hh.yes r hf
  have hn := cpl_nums hc hw he hd
  have hle := hn.le
  have hct := hn.count
  have hlt := hw.lt
  have hT : 0 < c.tlpBytes := Nat.two_pow_pos _
  have hfin : fin = decide (r.off + cplFirst c r i.rxHdr = r.stop) := by
    rw [hfe, hn.long, hn.more]
    by_cases h1 : cplCount r i.rxHdr = cplFirst c r i.rxHdr
    · rw [h1]; simp
    · simp only [ne_eq, h1, not_false_eq_true, decide_true, Bool.not_true, Bool.false_and]
      rw [eq_comm, decide_eq_false_iff_not]; omega
  have haddr : drdAddr0 c s i = (r.d.ram + r.off) % 2 ^ c.ramW := hn.addr
  refine ⟨?_, ?_, [_], rfl, .inr ⟨_, rfl, by rw [hx], ?_⟩⟩
  · unfold RxRel
    simp only
    by_cases hl : cplCount r i.rxHdr = cplFirst c r i.rxHdr
    · simp only [hl, if_true]; rw [hx]; simp [hn.long, hl]
    · simp only [hl, if_false]
      have hnz : r.d.len ≠ 0 := by
        intro h0
        have := hw.zero h0
        have := hn.pos
        omega
      refine ⟨by rw [hx]; simp [hn.long, hl], { r with off := r.off + cplFirst c r i.rxHdr }, ?_, ?_⟩
      · show (rdAdvance r.tag _ f.out).find? _ = _
        have hrt : r.tag = cplHdrTag i.rxHdr := by have := List.find?_some hf; simpa using this
        have hne : r.off + cplFirst c r i.rxHdr ≠ r.stop := by omega
        rw [← hrt] at hf
        exact find_advance hf hne
      · have hfull := hn.full hl
        rw [hx]
        refine ⟨ht, ?_, ?_, by omega, by simp only; omega, ?_, ?_, he.sel, he.op, hnz⟩
        · show (drdAddr0 c s i + drdCyc0 c i.rxHdr) % 2 ^ c.ramW = _
          rw [haddr, hn.cyc, Nat.mod_add_mod, Nat.add_assoc]
        · show (drdTotal i.rxHdr + 2 ^ 13 - drdCyc0 c i.rxHdr) % 2 ^ 13 = _
          have := hw.le
          rw [hn.total, hn.cyc]
          simp only [Nat.reducePow]; omega
        · show (!drdMore i.rxHdr) = _
          rw [hn.more, ← decide_not, decide_eq_decide]; simp only; omega
        · refine ⟨Nat.mod_lt _ hT, ?_⟩
          have hofs := hn.ofs
          show (((s.tags (drdRxTag c i)).ram + c.tlpBytes * 2 ^ 13 - (cplBytes i.rxHdr + cplLower i.rxHdr % 4)) % c.tlpBytes) % c.tlpBytes = _
          generalize ((s.tags (drdRxTag c i)).ram + c.tlpBytes * 2 ^ 13 - (cplBytes i.rxHdr + cplLower i.rxHdr % 4)) % c.tlpBytes = x at hofs ⊢
          simp only
          rw [Nat.mod_mod_of_dvd _ (tlp_dvd_ram hc)] at hofs ⊢
          have h1 : (x + cplOffset i.rxHdr + cplFirst c r i.rxHdr) % c.tlpBytes =
              (r.d.ram + r.off + cplFirst c r i.rxHdr) % c.tlpBytes := by
            rw [Nat.add_mod, hofs, ← Nat.add_mod]
          rw [Nat.add_assoc, hfull, Nat.add_mod_right] at h1
          rw [h1, Nat.add_assoc]
  · rw [hx]
    show (if decide (r.off + cplFirst c r i.rxHdr = r.stop) = true then some r.tag else none) =
      (if fin = true then some (drdRxTag c i) else none)
    rw [hfin, ht]
  · refine stage_ev hc (r := r) (k := cplFirst c r i.rxHdr) (lane := cplOffset i.rxHdr) (data := i.rxData) ?_ hn.pos hn.lane
      ?_ ?_ ?_ ?_ ?_ ?_ ?_ ?_ ?_ rfl rfl
    · rw [hx, ← haddr, ← hn.cyc]
      exact (drdSpan_stage c (drdRxIdle s.rx i) (drdAddr0 c s i) (drdCyc0 c i.rxHdr) (drdTotal i.rxHdr)).congr rfl rfl rfl rfl rfl rfl
    · rw [hx]; exact Nat.mod_lt _ hT
    · rw [hx]; exact hn.ofs
    · rw [hx]; exact he.sel
    · rw [hx]; rfl
    · rw [hx]; exact he.op
    · rw [hx]; exact hfin
    · rw [hx]; rfl
    · rw [hx, ← he.zero]
    · rw [hx, ← he.zero]

theorem rx_step {c : DrdCfg} (hc : DrdCfgOk c) {opOf : Nat → Nat} {s s' : Drd} {i : DrdIn} {f : RdEnv}
    (hx : s'.rx = drdRxStep c s i) (hrel : RxRel c opOf s.rx f) (hwf : ∀ r ∈ f.out, RdReqWf r)
    (hhead : drdTransfer s i = true → f.cur = .none → i.rxSop = true → HeadOk c opOf s i f.out)
    (hc1 : ∀ t left, drdTransfer s i = true → f.cur = .data t left → (i.rxEop = true ↔ left ≤ c.tlpBytes))
    (hc2 : drdTransfer s i = true → f.cur = .none → i.rxSop = true → ∀ r, rdKind c f.out i = .data r → CplDataOk c r i) :
    RxStepOk c opOf s' f (envBeat c s i f) := by
  have hbt : drdTransfer s i = drdBeat s i := rfl
  rw [hbt] at hhead hc1 hc2
  unfold envBeat
  rw [hbt]
  have hrel0 := hrel
  have hcases : f.cur = .skip ∨ (∃ t left, f.cur = .data t left) ∨ f.cur = .none := by
    cases f.cur with
    | none => exact .inr (.inr rfl)
    | skip => exact .inl rfl
    | data t left => exact .inr (.inl ⟨t, left, rfl⟩)
  rcases hcases with hcur | ⟨t, left, hcur⟩ | hcur
  · -- skip
    unfold RxRel at hrel; rw [hcur] at hrel; simp only at hrel
    by_cases hb : drdBeat s i = true
    · rw [if_pos hb]
      have hbb : ({ f with last := none } : RdEnv).beat c i =
          { ({ f with last := none } : RdEnv) with cur := if i.rxEop then .none else .skip } := by
        unfold RdEnv.beat; simp only [hcur]
      rw [hbb]
      refine rx_drop (s := s) ?_ ?_ ?_ ?_ <;> rw [hx] <;> unfold drdRxStep <;> rw [hrel] <;> simp only [hb, Bool.true_and]
      · split <;> simp_all [drdRxIdle]
      all_goals split <;> rfl
    · rw [if_neg hb]
      refine rx_quiet hrel0 (b := s.init.done) (i := i) ?_
      rw [hx]; unfold drdRxStep; rw [hrel]; simp [hb]
  · -- data
    unfold RxRel at hrel; rw [hcur] at hrel; simp only at hrel
    obtain ⟨hst, r, hf, hat⟩ := hrel
    by_cases hb : drdBeat s i = true
    · rw [if_pos hb]
      exact rx_write hc hx hb hst hcur hf hat (hwf r (List.mem_of_find?_eq_some hf)) (hc1 t left hb hcur)
    · rw [if_neg hb]
      refine rx_quiet hrel0 (b := drdSpace c s) (i := i) ?_
      rw [hx]; unfold drdRxStep; rw [hst]; simp [hb]
  · -- none
    unfold RxRel at hrel; rw [hcur] at hrel; simp only at hrel
    by_cases hh : drdHead s i = true
    · have hb : drdBeat s i = true := by unfold drdHead at hh; simp only [Bool.and_eq_true] at hh; exact hh.1.2
      have hsop : i.rxSop = true := by unfold drdHead at hh; simp only [Bool.and_eq_true] at hh; exact hh.2
      rw [if_pos hb]
      have hH := hhead hb hcur hsop
      have hk := rx_kind hH
      have hk2 := hc2 hb hcur hsop
      unfold RdEnv.beat
      simp only [hcur, hsop, if_true]
      unfold drdRxStep at hx
      simp only [hrel, hh, if_true] at hx
      cases hkind : rdKind c f.out i with
      | unexpected =>
        rw [hkind] at hk
        simp only [hk, if_true] at hx ⊢
        refine rx_drop (s := s) ?_ ?_ ?_ ?_ <;> rw [hx] <;> rfl
      | malformed =>
        rw [hkind] at hk
        simp only [hk.1, hk.2, if_true, Bool.false_eq_true, if_false] at hx ⊢
        refine rx_drop (s := s) ?_ ?_ ?_ ?_ <;> rw [hx] <;> rfl
      | error r n =>
        rw [hkind] at hk
        have hne : (drdCplError i != 0) = true := by rw [hk.2.2.1]; simpa using hk.2.2.2
        simp only [hk.1, hk.2.1, hne, if_true, Bool.false_eq_true, if_false] at hx ⊢
        have hf := (rdKind_mem (.inl ⟨n, hkind⟩)).1
        obtain ⟨ht, _, he⟩ := hH.yes r hf
        refine ⟨?_, ?_, [_], rfl, .inr ⟨_, rfl, by rw [hx], ?_⟩⟩
        · unfold RxRel
          simp only
          by_cases hee : i.rxEop = true
          · simp only [hee, if_true]; rw [hx]; simp [hee]
          · simp only [hee]; rw [hx]; simp [hee]
        · rw [hx]; simp only; exact congrArg some ht.symm
        · refine ⟨by rw [hx]; exact he.op, by rw [hx], by rw [hx]; exact hk.2.2.1, fun q _ => ?_, fun q _ => ?_, fun q _ h => ?_⟩
          · rw [hx]; rfl
          · rw [hx]; rfl
          · rw [hx] at h; exact absurd h (by simp [drdRxLoad, drdSpan, drdRxIdle])
      | data r =>
        rw [hkind] at hk
        have hne : (drdCplError i != 0) = false := by rw [hk.2.2]; rfl
        simp only [hk.1, hk.2.1, hne, Bool.false_eq_true, if_false] at hx ⊢
        have hf := (rdKind_mem (.inr hkind)).1
        exact rx_data hc hf (hwf r (List.mem_of_find?_eq_some hf)) hH (hk2 r hkind) rfl hx
    · have hq := rx_quiet hrel0 (s' := s') (b := drdSpace c s) (i := i)
        (by rw [hx]; unfold drdRxStep; rw [hrel]; simp [hh])
      by_cases hb : drdBeat s i = true
      · have hsop : i.rxSop = false := by
          unfold drdHead at hh
          rw [hrel, hb] at hh
          simpa using hh
        rw [if_pos hb]
        unfold RdEnv.beat
        simp only [hcur, hsop]
        rw [hcur] at hq
        exact hq
      · rw [if_neg hb]; exact hq

end Verif.Proofs
