import Verif.Proofs.DrdTags
import Verif.Proofs.DrdReqRun
/-! The invariant of requests, tags, tables and the completion state machine of the PCIe DMA read interface. -/
namespace Verif.Proofs
open Verif Verif.Model Verif.Spec

/-- The tag table entry, with the one that is about to be written. -/
def effTag (s : Drd) (t : Nat) : DrdTag := if s.startEn && s.startPtr == t then s.startE else s.tags t

/-- The descriptor that is being requested. -/
structure TodoBusy (c : DrdCfg) (opOf : Nat → Nat) (s : Drd) (f : RdEnv) (d : RdDesc) (off : Nat) : Prop where
  todo : f.todo = [⟨f.count - 1, d, off⟩]
  count : 0 < f.count
  lt : off < rdSpan d
  addr : s.req.addr = (d.addr + off) % 2 ^ 64
  ram : s.req.ram = (d.ram + off) % 2 ^ c.ramW
  left : s.req.count = rdSpan d - off
  zero : s.req.zero = decide (d.len = 0)
  sel : s.req.sel = d.sel
  op : opOf (f.count - 1) = s.opTag

/-- The tag is known as active. -/
def tagLive (s : Drd) (out : List RdReq) (t : Nat) : Prop :=
  (0 < (out.map (·.tag)).count t ∧ ¬ (s.startEn = true ∧ s.startPtr = t)) ∨ (s.rx.finish = true ∧ s.rx.tag = t)

/-- The invariant. -/
structure DrdInv (c : DrdCfg) (opOf : Nat → Nat) (s : Drd) (f : RdEnv) : Prop where
  init : InitOk c s.init
  quiet : s.init.done = false → DrdQuiet s
  opv : s.req.ready = true ∨ s.req.start = true → s.opTagV = true
  idle : s.req.start = false → f.todo = []
  busy : s.req.start = true → ∃ d off, TodoBusy c opOf s f d off
  tag : TagOk c s f.out
  wf : ∀ r ∈ f.out, RdReqWf r
  ent : ∀ r ∈ f.out, EntryAt c opOf (effTag s r.tag) r
  num : ∀ r ∈ f.out, r.num < f.count
  act : ∀ t, t < tagN c s.init → (s.actA t ≠ s.actB t ↔ tagLive s f.out t)
  start : s.startEn = true → s.txV = true ∧ rdHdrTag s.tx = s.startPtr ∧ 0 < (f.out.map (·.tag)).count s.startPtr
  rx : RxRel c opOf s.rx f
  last : f.last = if s.rx.finish then some s.rx.tag else none

theorem DrdInv.nodup {c : DrdCfg} {opOf : Nat → Nat} {s : Drd} {f : RdEnv} (h : DrdInv c opOf s f) (t : Nat) :
    (f.out.map (·.tag)).count t ≤ 1 := by
  have := h.tag.cnt t
  split at this <;> omega

theorem DrdInv.tag_lt {c : DrdCfg} {opOf : Nat → Nat} {s : Drd} {f : RdEnv} (h : DrdInv c opOf s f) {r : RdReq} (hr : r ∈ f.out) :
    r.tag < tagN c s.init ∧ r.tag < 2 ^ c.tagW := by
  have h1 := h.tag.cnt r.tag
  have h2 : 0 < (f.out.map (·.tag)).count r.tag := List.count_pos_iff.2 (List.mem_map.2 ⟨r, hr, rfl⟩)
  have h3 := tagN_le h.init
  split at h1 <;> omega

/-- The tag of the next request. -/
theorem DrdInv.next_tag {c : DrdCfg} {opOf : Nat → Nat} {s : Drd} {f : RdEnv} (h : DrdInv c opOf s f) (ht : s.tagV = true) :
    s.tag < 2 ^ c.tagW ∧ (f.out.map (·.tag)).count s.tag = 0 := by
  have h1 := h.tag.cnt s.tag
  have h3 := tagN_le h.init
  rw [ht] at h1
  simp only [Bool.true_and, beq_self_eq_true, Bool.toNat_true] at h1
  split at h1 <;> omega

theorem issue_tagV {c : DrdCfg} {s : Drd} {i : DrdIn} (h : drdIssue c s i = true) : s.tagV = true := by
  unfold drdIssue at h; simp only [Bool.and_eq_true] at h; exact h.1.1.1.2

/-- What is assumed of a transfer, as far as the state machine is concerned. -/
structure CplBeatOk (c : DrdCfg) (opOf : Nat → Nat) (s : Drd) (i : DrdIn) (f : RdEnv) : Prop where
  head : drdTransfer s i = true → f.cur = .none → i.rxSop = true → HeadOk c opOf s i f.out
  eop : ∀ t left, drdTransfer s i = true → f.cur = .data t left → (i.rxEop = true ↔ left ≤ c.tlpBytes)
  data : drdTransfer s i = true → f.cur = .none → i.rxSop = true → ∀ r, rdKind c f.out i = .data r → CplDataOk c r i

/-- What the next cycle has of requests. -/
structure ReqFacts (c : DrdCfg) (s : Drd) (i : DrdIn) : Prop where
  size : s.req.start = true → SizeOk s.mrrsDw s.req.addr s.req.count (drdReqSize c s)
  ok : s.req.start = true → ReqOkS c s.req
  hdr : s.req.start = true → rdHdrTag (drdHdr c s i.requesterId) = s.tag % 2 ^ 8 ∧
    rdHdrBytes (drdHdr c s i.requesterId) = if s.req.zero then [] else (List.range (drdReqSize c s).count).map (s.req.addr + ·)
  cases : (drdIssue c s i = true ∧ drdAccept s i = false ∧ (s.req.ready && i.valid) = false ∧ s.req.start = true) ∨
    (drdIssue c s i = false ∧ drdAccept s i = true ∧ (s.req.ready && i.valid) = true ∧ s.req.start = false) ∨
    (drdIssue c s i = false ∧ drdAccept s i = false ∧ (s.req.ready && i.valid) = false)
  m : 32 ≤ s.mrrsDw ∧ s.mrrsDw ≤ 512

theorem reqFacts {c : DrdCfg} {m rid : Nat} {s : Drd} {i : DrdIn} (hm : 32 ≤ m ∧ m ≤ 512) (h : ReqInv c m rid s)
    (hrid : i.requesterId < 2 ^ 16) : ReqFacts c s i := by
  have hmr := h.mrrs
  refine ⟨fun hs => ?_, h.ok, fun hs => ?_, drdReq_cases h i, by rw [hmr]; exact hm⟩
  · exact drdReqSize_ok (by rw [hmr]; exact hm) rfl (h.ok hs)
  · exact (drdHdr_ok hm hmr (h.ok hs) hrid).2

/-- The request that is issued. -/
theorem issue_req {c : DrdCfg} (hc : DrdCfgOk c) {opOf : Nat → Nat} {s : Drd} {i : DrdIn} {f : RdEnv} (h : DrdInv c opOf s f)
    (hq : ReqFacts c s i) (hi : drdIssue c s i = true) {d : RdDesc} {off : Nat} (hb : TodoBusy c opOf s f d off) :
    sendReq ⟨f.count - 1, d, off⟩ (drdHdr c s i.requesterId) =
      ⟨f.count - 1, d, s.tag, off, off + (drdReqSize c s).count⟩ ∧
    RdReqWf ⟨f.count - 1, d, s.tag, off, off + (drdReqSize c s).count⟩ ∧
    EntryAt c opOf (drdTagOf c s) ⟨f.count - 1, d, s.tag, off, off + (drdReqSize c s).count⟩ ∧
    (off + (drdReqSize c s).count < rdSpan d ↔ (drdReqSize c s).count ≠ s.req.count) ∧
    off + (drdReqSize c s).count ≤ rdSpan d := by
  have hst := (drdIssue_start hi).1
  have hz := hq.size hst
  have hok := hq.ok hst
  obtain ⟨g1, g2⟩ := hq.hdr hst
  have htv := issue_tagV hi
  have hlt := (h.next_tag htv).1
  have h8 : 2 ^ c.tagW ≤ 2 ^ 8 := Nat.pow_le_pow_right (by omega) hc.tag.2
  have hp := hz.pos
  have hle := hz.le
  have hpg := hz.page
  have hleft := hb.left
  have hoff := hb.lt
  have hlen : max 1 (rdHdrBytes (drdHdr c s i.requesterId)).length = (drdReqSize c s).count := by
    rw [g2]
    by_cases hz0 : s.req.zero = true
    · have := hok.zero hz0
      rw [if_pos hz0]; simp only [List.length_nil]; omega
    · rw [if_neg hz0]; simp only [List.length_map, List.length_range]; omega
  have hs : sendReq ⟨f.count - 1, d, off⟩ (drdHdr c s i.requesterId) =
      ⟨f.count - 1, d, s.tag, off, off + (drdReqSize c s).count⟩ := by
    unfold sendReq
    rw [hlen, g1, Nat.mod_eq_of_lt (Nat.lt_of_lt_of_le hlt h8)]
  have he : EntryAt c opOf (drdTagOf c s) ⟨f.count - 1, d, s.tag, off, off + (drdReqSize c s).count⟩ := by
    refine ⟨hb.sel, ?_, hb.op.symm, hb.zero⟩
    show (s.req.ram + (drdReqSize c s).count) % 2 ^ c.ramW = (d.ram + (off + (drdReqSize c s).count)) % 2 ^ c.ramW
    rw [hb.ram, Nat.mod_add_mod, Nat.add_assoc]
  clear hlen g1 g2
  generalize (drdReqSize c s).count = z at *
  have hzero : d.len = 0 → z = 1 := by
    intro h0
    have : s.req.zero = true := by rw [hb.zero]; simpa using h0
    have := hok.zero this
    omega
  refine ⟨hs, ⟨?_, ?_, ?_⟩, he, ?_, ?_⟩
  · show off < off + z
    omega
  · show off + z - off ≤ 4096
    omega
  · intro h0
    show off + z - off = 1
    have := hzero h0
    omega
  · omega
  · omega

/-- The requests after a cycle. -/
structure PendFacts (c : DrdCfg) (opOf : Nat → Nat) (s : Drd) (i : DrdIn) (f1 f3 : RdEnv) (new : List RdReq) : Prop where
  out : f3.out = f1.out ++ new
  evs : f3.evs = f1.evs
  cur : f3.cur = f1.cur
  last : f3.last = f1.last
  tags : ∀ t, (new.map (·.tag)).count t = (drdIssue c s i && s.tag == t).toNat
  ent : ∀ r ∈ new, drdIssue c s i = true ∧ r.tag = s.tag ∧ RdReqWf r ∧ EntryAt c opOf (drdTagOf c s) r ∧ r.num < f3.count
  count : f1.count ≤ f3.count
  idle : (drdNext c s i).req.start = false → f3.todo = []
  busy : (drdNext c s i).req.start = true → ∃ d off, TodoBusy c opOf (drdNext c s i) f3 d off
  opv : (drdNext c s i).req.ready = true ∨ (drdNext c s i).req.start = true → (drdNext c s i).opTagV = true

theorem pend_facts {c : DrdCfg} (hc : DrdCfgOk c) {opOf : Nat → Nat} {s : Drd} {i : DrdIn} {f : RdEnv} (h : DrdInv c opOf s f)
    (hq : ReqFacts c s i) (hacc : (s.req.ready && i.valid) = true → opOf f.count = s.opTag) :
    ∃ new, PendFacts c opOf s i (envBeat c s i f) (pendStep c s i f) new := by
  have hreq : (drdNext c s i).req = drdReqStep c s i := rfl
  have hot : (drdNext c s i).opTag = if drdOpRd c s i then ringHead c.opW s.opFifo else s.opTag := rfl
  have hov : (drdNext c s i).opTagV = (drdOpRd c s i || (s.opTagV && !drdIssueLast c s i)) := rfl
  obtain ⟨ht, hcn⟩ := envBeat_same c s i f
  generalize hf1 : envBeat c s i f = f1 at *
  have hps : pendStep c s i f = (let f := if drdIssue c s i then f1.send (drdHdr c s i.requesterId) else f1
      if s.req.ready && i.valid then f.accept (rdDescOf c i) else f) := by unfold pendStep; rw [hf1]
  rw [hps]
  clear hps
  rcases hq.cases with ⟨c1, c2, c3, c4⟩ | ⟨c1, c2, c3, c4⟩ | ⟨c1, c2, c3⟩
  · -- a request is issued
    obtain ⟨d, off, hb⟩ := h.busy c4
    obtain ⟨g1, g2, g3, g4, g5⟩ := issue_req hc h hq c1 hb
    obtain ⟨q1, q2, q3, q4, q5, q6, q7⟩ := drdReq_issue hq.m rfl (hq.ok c4) c1
    have htodo : f1.todo = [⟨f.count - 1, d, off⟩] := by rw [ht]; exact hb.todo
    have hsend := send_cons htodo (drdHdr c s i.requesterId)
    rw [g1] at hsend
    have hlast : drdIssueLast c s i = (drdReqSize c s).last := by unfold drdIssueLast; rw [c1]; rfl
    have hzl := (hq.size c4).last
    have hopv := h.opv (.inr c4)
    simp only [c1, c3, if_true, Bool.false_eq_true, if_false]
    rw [hsend]
    refine ⟨[⟨f.count - 1, d, s.tag, off, off + (drdReqSize c s).count⟩], rfl, rfl, rfl, rfl, ?_, ?_, Nat.le_refl _, ?_, ?_, ?_⟩
    · intro t
      simp only [List.map_cons, List.map_nil, c1, Bool.true_and]
      rw [List.count_cons, List.count_nil]; cases s.tag == t <;> rfl
    · intro r hr
      simp only [List.mem_singleton] at hr
      subst hr
      have := hb.count
      exact ⟨c1, rfl, g2, g3, by show f.count - 1 < f1.count; rw [hcn]; omega⟩
    · intro hs
      rw [hreq, q1] at hs
      have hne : ¬ (off + (drdReqSize c s).count < rdSpan d) := by
        rw [g4]; simpa using hs
      simp only
      rw [if_neg hne]
    · intro hs
      rw [hreq, q1] at hs
      have hz : (drdReqSize c s).count ≠ s.req.count := by simpa using hs
      have hlt := g4.2 hz
      have hl : drdIssueLast c s i = false := by rw [hlast, hzl]; simpa using hz
      have hrd : drdOpRd c s i = false := by unfold drdOpRd; simp [hopv, hl]
      obtain ⟨a1, _⟩ := q7 hz
      refine ⟨d, off + (drdReqSize c s).count, ?_, ?_, hlt, ?_, ?_, ?_, ?_, ?_, ?_⟩
      · simp only
        rw [if_pos hlt, hcn]
      · show 0 < f1.count
        rw [hcn]; exact hb.count
      · rw [hreq, a1, hb.addr, Nat.mod_add_mod, Nat.add_assoc]
      · rw [hreq, q5, hb.ram, Nat.mod_add_mod, Nat.add_assoc]
      · rw [hreq, q6, hb.left, Nat.sub_sub]
      · rw [hreq, q4, hb.zero]
      · rw [hreq, q3, hb.sel]
      · rw [hot, hrd]
        show opOf (f1.count - 1) = s.opTag
        rw [hcn]; exact hb.op
    · rw [hreq, hov, q1, q2, hopv, hlast]
      cases hl : (drdReqSize c s).last with
      | false => simp
      | true =>
        have hcz : (drdReqSize c s).count = s.req.count := by rw [hl] at hzl; simpa using hzl.symm
        have hil : drdIssueLast c s i = true := by rw [hlast, hl]
        simp only [hcz, decide_true, Bool.not_true, Bool.false_eq_true, or_false, Bool.true_and, Bool.and_eq_true, Bool.and_false,
          Bool.or_false]
        intro hh
        unfold drdOpRd
        rw [hil, hopv]; simpa using hh.2
  · -- a descriptor is accepted
    have hopv := h.opv (.inl (by simp only [Bool.and_eq_true] at c3; exact c3.1))
    have hil : drdIssueLast c s i = false := by unfold drdIssueLast; rw [c1]; rfl
    have hrd : drdOpRd c s i = false := by unfold drdOpRd; simp [hopv, hil]
    have hR := drdReq_accept (c := c) c4 c2
    have htodo : f1.todo = [] := by rw [ht]; exact h.idle c4
    simp only [c1, c3, if_true, Bool.false_eq_true, if_false]
    refine ⟨[], by simp [RdEnv.accept], rfl, rfl, rfl, by simp [c1], by simp, Nat.le_succ _, ?_, ?_, ?_⟩
    · rw [hreq, hR]; simp [reqTaken]
    · intro _
      refine ⟨rdDescOf c i, 0, ?_, Nat.succ_pos _, ?_, ?_, ?_, ?_, ?_, ?_, ?_⟩
      · unfold RdEnv.accept; simp [htodo]
      · unfold rdSpan; split <;> omega
      · rw [hreq, hR]
        show i.addr % 2 ^ 64 = (i.addr % 2 ^ 64 + 0) % 2 ^ 64
        rw [Nat.add_zero, Nat.mod_mod]
      · rw [hreq, hR]
        show i.ram % 2 ^ c.ramW = (i.ram % 2 ^ c.ramW + 0) % 2 ^ c.ramW
        rw [Nat.add_zero, Nat.mod_mod]
      · rw [hreq, hR]; rfl
      · rw [hreq, hR]; rfl
      · rw [hreq, hR]; rfl
      · rw [hot, hrd]
        show opOf (f1.count + 1 - 1) = s.opTag
        rw [Nat.add_sub_cancel, hcn]; exact hacc c3
    · intro _; rw [hov, hopv, hil]; simp
  · simp only [c1, c3, Bool.false_eq_true, if_false]
    have hil : drdIssueLast c s i = false := by unfold drdIssueLast; rw [c1]; rfl
    obtain ⟨b, hR, hb'⟩ := drdReq_none c1 c2
    have hopv' : s.opTagV = true → drdOpRd c s i = false := fun h' => by unfold drdOpRd; simp [h', hil]
    refine ⟨[], by simp, rfl, rfl, rfl, by simp [c1], by simp, Nat.le_refl _, ?_, ?_, ?_⟩
    · rw [hreq, hR]; intro hs
      rw [ht]; exact h.idle hs
    · rw [hreq, hR]; intro hs
      have hs : s.req.start = true := hs
      obtain ⟨d, off, hb⟩ := h.busy hs
      have hrd := hopv' (h.opv (.inr hs))
      refine ⟨d, off, by rw [ht, hcn]; exact hb.todo, by rw [hcn]; exact hb.count, hb.lt, ?_, ?_, ?_, ?_, ?_, ?_⟩
      · rw [hreq, hR]; exact hb.addr
      · rw [hreq, hR]; exact hb.ram
      · rw [hreq, hR]; exact hb.left
      · rw [hreq, hR]; exact hb.zero
      · rw [hreq, hR]; exact hb.sel
      · rw [hot, hrd, hcn]; exact hb.op
    · rw [hreq, hov]
      intro hh
      have : s.opTagV = true := by
        rcases hh with hh | hh
        · have hs : s.req.start = false := by
            rw [Bool.eq_false_iff]; intro hs
            rw [hR] at hh; rw [hb' hs] at hh; simp at hh
          unfold drdReqStep at hh
          simp only [hs, c2, Bool.false_eq_true, if_false, Bool.and_eq_true] at hh
          exact hh.2
        · rw [hR] at hh; exact h.opv (.inr hh)
      rw [this, hil]; simp

theorem toNat_beq_some {l : Option Nat} {b : Bool} {x : Nat} (h : l = if b then some x else none) (t : Nat) :
    (l == some t) = (b && x == t) := by
  rw [h]; cases b <;> simp

/-- One cycle. -/
theorem core_step {c : DrdCfg} (hc : DrdCfgOk c) {opOf : Nat → Nat} {s : Drd} {i : DrdIn} {f : RdEnv} (h : DrdInv c opOf s f)
    (hq : ReqFacts c s i) (hbk : CplBeatOk c opOf s i f) (hacc : (s.req.ready && i.valid) = true → opOf f.count = s.opTag) :
    DrdInv c opOf (drdNext c s i) (pendStep c s i f) ∧ BeatOut f (envBeat c s i f) ∧
    ∃ E, (pendStep c s i f).evs = f.evs ++ E ∧ StageRel c opOf (drdNext c s i) E := by
  obtain ⟨new, hp⟩ := pend_facts hc h hq hacc
  have hbo : BeatOut f (envBeat c s i f) := beat_out h.rx h.wf h.nodup
  obtain ⟨x1, x2, E, x3, x4⟩ := rx_step hc (s' := drdNext c s i) rfl h.rx h.wf hbk.head hbk.eop hbk.data
  obtain ⟨_, hcn⟩ := envBeat_same c s i f
  have hbt := beat_tags hbo
  have hbm := fun r' hr => beat_mem hbo h.wf (r' := r') hr
  generalize envBeat c s i f = f1 at *
  generalize pendStep c s i f = f3 at *
  have hI : (drdNext c s i).init = drdInitStep c s.init := rfl
  obtain ⟨i1, i2, _, i4, i5, _, i7, _⟩ := init_step h.init
  have hflow : ∀ t, (f3.out.map (·.tag)).count t + ((drdNext c s i).rx.finish && (drdNext c s i).rx.tag == t).toNat =
      (f.out.map (·.tag)).count t + (drdIssue c s i && s.tag == t).toNat := by
    intro t
    have e1 := hbt t
    have e2 := hp.tags t
    rw [toNat_beq_some x2 t] at e1
    rw [hp.out, List.map_append, List.count_append]
    omega
  have htag := tag_flow h.init h.quiet h.tag hflow
  have hquiet : (drdNext c s i).init.done = false → DrdQuiet (drdNext c s i) := by
    intro hd
    exact (quiet_step (h.quiet (i4 hd)) (i4 hd)).1
  have hnext : drdIssue c s i = true → (f.out.map (·.tag)).count s.tag = 0 := fun h' => (h.next_tag (issue_tagV h')).2
  have hSE : (drdNext c s i).startEn = drdIssue c s i := rfl
  have hSP : (drdNext c s i).startPtr = s.tag := rfl
  have hSD : (drdNext c s i).startE = drdTagOf c s := rfl
  have hTB : ∀ k, (drdNext c s i).tags k = if !s.init.tag && s.startEn && k == s.startPtr then s.startE else s.tags k := fun _ => rfl
  have heff : ∀ t, (drdNext c s i).tags t = effTag s t := by
    intro t
    rw [hTB]
    unfold effTag
    by_cases hen : s.startEn = true
    · have : s.init.tag = false := by
        rw [Bool.eq_false_iff]; intro h'
        have := (h.quiet (i5 h').1).en
        rw [hen] at this; simp at this
      rw [this, hen]
      simp only [Bool.not_false, Bool.true_and]
      rw [Bool.beq_comm]
    · simp [hen]
  have hmemc : ∀ r' ∈ f1.out, 0 < (f.out.map (·.tag)).count r'.tag := by
    intro r' hr'
    obtain ⟨r, hr, ha⟩ := hbm r' hr'
    exact List.count_pos_iff.2 (List.mem_map.2 ⟨r, hr, ha.tag.symm⟩)
  have hne : ∀ r' ∈ f1.out, ¬ (drdIssue c s i = true ∧ s.tag = r'.tag) := by
    intro r' hr' ⟨h1, h2⟩
    have := hmemc r' hr'
    have := hnext h1
    rw [h2] at this; omega
  refine ⟨⟨by rw [hI]; exact i1, hquiet, hp.opv, hp.idle, hp.busy, htag, ?_, ?_, ?_, ?_, ?_, ?_, ?_⟩, hbo, E, ?_, x4⟩
  · intro r hr
    rw [hp.out, List.mem_append] at hr
    rcases hr with hr | hr
    · obtain ⟨_, _, ha⟩ := hbm r hr; exact ha.wf
    · exact (hp.ent r hr).2.2.1
  · intro r hr
    rw [hp.out, List.mem_append] at hr
    rcases hr with hr | hr
    · obtain ⟨r0, hr0, ha⟩ := hbm r hr
      have he := h.ent r0 hr0
      have : effTag (drdNext c s i) r.tag = effTag s r0.tag := by
        have hn := hne r hr
        have e : (drdIssue c s i && s.tag == r.tag) = false := by
          rw [Bool.eq_false_iff]; intro h'; simp only [Bool.and_eq_true, beq_iff_eq] at h'; exact hn h'
        conv => lhs; unfold effTag
        rw [hSE, hSP, e, heff, ha.tag]; rfl
      rw [this]
      exact ⟨by rw [ha.d]; exact he.sel, by rw [ha.d, ha.stop]; exact he.ram, by rw [ha.num]; exact he.op, by rw [ha.d]; exact he.zero⟩
    · obtain ⟨e1, e2, _, e4, _⟩ := hp.ent r hr
      have : effTag (drdNext c s i) r.tag = drdTagOf c s := by
        unfold effTag
        rw [hSE, hSP, hSD, e1, e2]; simp
      rw [this]; exact e4
  · intro r hr
    rw [hp.out, List.mem_append] at hr
    rcases hr with hr | hr
    · obtain ⟨r0, hr0, ha⟩ := hbm r hr
      have h1 := h.num r0 hr0
      have h2 := hp.count
      rw [ha.num]; omega
    · exact (hp.ent r hr).2.2.2.2
  · -- active tags
    intro t ht
    have hA : (drdNext c s i).actA t = if s.init.tag then if t == s.init.count % 2 ^ c.tagW then false else s.actA t
      else if s.startEn && t == s.startPtr then !s.actB t else s.actA t := rfl
    have hB : (drdNext c s i).actB t = if s.init.tag then if t == s.init.count % 2 ^ c.tagW then false else s.actB t
      else if s.rx.finish && t == s.rx.tag then s.actA t else s.actB t := rfl
    have hfl := hflow t
    have hcnt := h.tag.cnt t
    rw [hI, i2] at ht
    unfold tagLive
    rw [hSE, hSP]
    by_cases hT : s.init.tag = true
    · have hQ := h.quiet (i5 hT).1
      obtain ⟨_, hiss, _⟩ := quiet_step (i := i) hQ (i5 hT).1 (c := c)
      have hfin' : (drdNext c s i).rx.finish = false := (quiet_step (i := i) (c := c) hQ (i5 hT).1).1.fin
      have hN : tagN c s.init = s.init.count := by unfold tagN; rw [if_pos hT]
      rw [hT, hN, Bool.toNat_true] at ht
      rw [hA, hB, hT, Nat.mod_eq_of_lt (i5 hT).2, hfin', hiss]
      rw [hfin', hiss] at hfl
      simp only [Bool.false_and, Bool.toNat_false, Nat.add_zero] at hfl
      simp only [if_true, Bool.false_eq_true, false_and, not_false_eq_true, and_true, or_false]
      by_cases hteq : t = s.init.count
      · subst hteq
        simp only [beq_self_eq_true, if_true]
        rw [if_neg (by rw [hN]; omega)] at hcnt
        constructor
        · intro h'; exact absurd rfl h'
        · intro h'; omega
      · have hb : (t == s.init.count) = false := by simpa using hteq
        rw [hb]
        simp only [Bool.false_eq_true, if_false]
        rw [h.act t (by rw [hN]; omega), hfl]
        unfold tagLive
        simp [hQ.en, hQ.fin]
    · have hT' : s.init.tag = false := by simpa using hT
      rw [hT', Bool.toNat_false, Nat.add_zero] at ht
      rw [if_pos ht] at hcnt
      have hact := h.act t ht
      unfold tagLive at hact
      rw [hA, hB, hT']
      simp only [Bool.false_eq_true, if_false]
      by_cases hen : s.startEn = true ∧ s.startPtr = t
      · have hpos := (h.start hen.1).2.2
        rw [hen.2] at hpos
        have e1 : (s.startEn && t == s.startPtr) = true := by simp [hen.1, hen.2]
        have e2 : (s.rx.finish && t == s.rx.tag) = false := by
          rw [Bool.eq_false_iff]; intro h'
          have : (s.rx.finish && s.rx.tag == t) = true := by simp only [Bool.and_eq_true, beq_iff_eq] at h' ⊢; exact ⟨h'.1, h'.2.symm⟩
          rw [this, Bool.toNat_true] at hcnt; omega
        have e3 : (drdIssue c s i && s.tag == t) = false := by
          rw [Bool.eq_false_iff]; intro h'; simp only [Bool.and_eq_true, beq_iff_eq] at h'
          have := hnext h'.1; rw [h'.2] at this; omega
        rw [e1, e2]
        rw [e3, Bool.toNat_false] at hfl
        simp only [if_true, Bool.false_eq_true, if_false]
        constructor
        · intro _
          by_cases hf : ((drdNext c s i).rx.finish && (drdNext c s i).rx.tag == t) = true
          · right; simpa using hf
          · left
            have hf : ((drdNext c s i).rx.finish && (drdNext c s i).rx.tag == t) = false := by simpa using hf
            rw [hf, Bool.toNat_false] at hfl
            refine ⟨by omega, fun h' => ?_⟩
            rw [h'.1, h'.2] at e3; simp at e3
        · intro _; cases s.actB t <;> simp
      · have e1 : (s.startEn && t == s.startPtr) = false := by
          rw [Bool.eq_false_iff]; intro h'; simp only [Bool.and_eq_true, beq_iff_eq] at h'; exact hen ⟨h'.1, h'.2.symm⟩
        rw [e1]
        simp only [Bool.false_eq_true, if_false]
        have hlive : ∀ n : Nat, n + ((drdNext c s i).rx.finish && (drdNext c s i).rx.tag == t).toNat = (f.out.map (·.tag)).count t →
            ((0 < n ∨ ((drdNext c s i).rx.finish = true ∧ (drdNext c s i).rx.tag = t)) ↔ 0 < (f.out.map (·.tag)).count t) := by
          intro n hn
          rw [← hn]
          by_cases hf : (drdNext c s i).rx.finish = true ∧ (drdNext c s i).rx.tag = t
          · have : ((drdNext c s i).rx.finish && (drdNext c s i).rx.tag == t) = true := by simpa using hf
            rw [this, Bool.toNat_true]
            constructor
            · intro _; omega
            · intro _; exact .inr hf
          · have : ((drdNext c s i).rx.finish && (drdNext c s i).rx.tag == t) = false := by
              rw [Bool.eq_false_iff]; intro h'; simp only [Bool.and_eq_true, beq_iff_eq] at h'; exact hf h'
            rw [this, Bool.toNat_false, Nat.add_zero]
            constructor
            · rintro (h' | h')
              · exact h'
              · exact absurd h' hf
            · exact .inl
        have hgoal : ((0 < (f3.out.map (·.tag)).count t ∧ ¬ (drdIssue c s i = true ∧ s.tag = t)) ∨
            ((drdNext c s i).rx.finish = true ∧ (drdNext c s i).rx.tag = t)) ↔ 0 < (f.out.map (·.tag)).count t := by
          by_cases hiss : drdIssue c s i = true ∧ s.tag = t
          · have e3 : (drdIssue c s i && s.tag == t) = true := by simpa using hiss
            have h0 := hnext hiss.1
            rw [hiss.2] at h0
            rw [hp.out, List.map_append, List.count_append, hp.tags t, e3, h0, Bool.toNat_true] at hfl
            have hf0 : ((drdNext c s i).rx.finish && (drdNext c s i).rx.tag == t) = false := by
              cases hf : ((drdNext c s i).rx.finish && (drdNext c s i).rx.tag == t) with
              | false => rfl
              | true => rw [hf, Bool.toNat_true] at hfl; omega
            rw [h0]
            constructor
            · rintro (⟨_, h'⟩ | h')
              · exact absurd hiss h'
              · rw [h'.1, h'.2] at hf0; simp at hf0
            · intro h'; omega
          · have e3 : (drdIssue c s i && s.tag == t) = false := by
              rw [Bool.eq_false_iff]; intro h'; simp only [Bool.and_eq_true, beq_iff_eq] at h'; exact hiss h'
            rw [e3, Bool.toNat_false, Nat.add_zero] at hfl
            rw [← hlive _ hfl]
            simp only [hiss, not_false_eq_true, and_true]
        rw [hgoal]
        by_cases hfin : s.rx.finish = true ∧ s.rx.tag = t
        · have e2 : (s.rx.finish && t == s.rx.tag) = true := by simp [hfin.1, hfin.2]
          have e4 : (s.rx.finish && s.rx.tag == t) = true := by simpa using hfin
          rw [e4, Bool.toNat_true] at hcnt
          rw [e2]
          simp only [if_true]
          constructor
          · intro h'; exact absurd rfl h'
          · intro h'; omega
        · have e2 : (s.rx.finish && t == s.rx.tag) = false := by
            rw [Bool.eq_false_iff]; intro h'; simp only [Bool.and_eq_true, beq_iff_eq] at h'; exact hfin ⟨h'.1, h'.2.symm⟩
          rw [e2]
          simp only [Bool.false_eq_true, if_false]
          rw [hact]
          simp only [hen, hfin, not_false_eq_true, and_true, or_false]
  · intro hen
    rw [hSE] at hen
    rw [hSP]
    have hst := drdIssue_start hen
    have htx : (drdNext c s i).tx = if s.req.start && (!s.txV || i.txReady) then drdHdr c s i.requesterId else s.tx := rfl
    have htv : (drdNext c s i).txV = (drdIssue c s i || (s.txV && !i.txReady)) := rfl
    have hlt := (h.next_tag (issue_tagV hen)).1
    have h8 : 2 ^ c.tagW ≤ 2 ^ 8 := Nat.pow_le_pow_right (by omega) hc.tag.2
    refine ⟨by rw [htv, hen]; rfl, ?_, ?_⟩
    · rw [htx, hst.1, hst.2]
      simp only [Bool.and_self, if_true]
      rw [(hq.hdr hst.1).1, Nat.mod_eq_of_lt (Nat.lt_of_lt_of_le hlt h8)]
    · rw [hp.out, List.map_append, List.count_append, hp.tags, hen]
      simp
  · -- state machine
    unfold RxRel at x1 ⊢
    rw [hp.cur]
    cases hcur : f1.cur with
    | none => rw [hcur] at x1; exact x1
    | skip => rw [hcur] at x1; exact x1
    | data t left =>
      rw [hcur] at x1
      obtain ⟨y1, r, y2, y3⟩ := x1
      refine ⟨y1, r, ?_, y3⟩
      rw [hp.out, List.find?_append, y2]; rfl
  · rw [hp.last]; exact x2
  · rw [hp.evs]; exact x3

end Verif.Proofs
