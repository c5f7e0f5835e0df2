import Verif.Proofs.DrdCore
/-! Histories of the PCIe DMA read interface: requests, tags and completions. -/
namespace Verif.Proofs
open Verif Verif.Model Verif.Spec

/-- The request on the interface. -/
def pendReq (s : Drd) (e : RdEnv) : List RdReq := if s.txV then (e.todo.take 1).map (sendReq · s.tx) else []

theorem pendEnv_same (s : Drd) (e : RdEnv) : (pendEnv s e).cur = e.cur ∧ (pendEnv s e).last = e.last ∧ (pendEnv s e).evs = e.evs ∧
    (pendEnv s e).count = e.count ∧ (pendEnv s e).out = e.out ++ pendReq s e := by
  unfold pendEnv pendReq
  by_cases ht : s.txV = true
  · rw [if_pos ht, if_pos ht]
    cases he : e.todo with
    | nil => unfold RdEnv.send; rw [he]; simp
    | cons t ts => rw [send_cons he]; simp
  · rw [if_neg ht, if_neg ht]; simp

/-- The invariant, with requests counted when they are sent. -/
structure EnvInv (c : DrdCfg) (m rid : Nat) (opOf : Nat → Nat) (s : Drd) (e : RdEnv) : Prop where
  req : ReqInv c m rid s
  inv : DrdInv c opOf s (pendEnv s e)
  todo : s.txV = true → e.todo ≠ []
  cur : s.txV = true → ∀ u left, e.cur = .data u left → rdHdrTag s.tx ≠ u

theorem EnvInv.pend {c : DrdCfg} {m rid : Nat} {opOf : Nat → Nat} {s : Drd} {e : RdEnv} (h : EnvInv c m rid opOf s e)
    (ht : s.txV = true) : ∃ x, pendReq s e = [x] ∧ x.tag = rdHdrTag s.tx := by
  obtain ⟨t, ts, he⟩ := List.exists_cons_of_ne_nil (h.todo ht)
  exact ⟨sendReq t s.tx, by unfold pendReq; rw [if_pos ht, he]; rfl, rfl⟩

theorem EnvInv.pend_ne {c : DrdCfg} {m rid : Nat} {opOf : Nat → Nat} {s : Drd} {e : RdEnv} (h : EnvInv c m rid opOf s e)
    (ht : s.txV = true) {r : RdReq} (hr : r ∈ e.out) : r.tag ≠ rdHdrTag s.tx := by
  obtain ⟨x, h1, h2⟩ := h.pend ht
  have hn := h.inv.nodup r.tag
  rw [(pendEnv_same s e).2.2.2.2, h1, List.map_append, List.count_append] at hn
  have h3 : 0 < (e.out.map (·.tag)).count r.tag := List.count_pos_iff.2 (List.mem_map.2 ⟨r, hr, rfl⟩)
  intro h4
  have h5 : 0 < ([x].map (·.tag)).count r.tag := List.count_pos_iff.2 (by simp [h2, h4])
  omega

theorem drdRxTag_eq (c : DrdCfg) (i : DrdIn) : drdRxTag c i = cplHdrTag i.rxHdr % 2 ^ c.tagW := by
  unfold drdRxTag cplTag cplHdrTag bits
  rfl

/-- Completions find what they should. -/
theorem env_beat {c : DrdCfg} (hc : DrdCfgOk c) {m rid : Nat} {opOf : Nat → Nat} {s : Drd} {i : DrdIn} {e : RdEnv}
    (h : EnvInv c m rid opOf s e) (hk : drdTransfer s i = true → CplOk c e s i) :
    CplBeatOk c opOf s i (pendEnv s e) ∧
    (s.txV = true → drdTransfer s i = true → e.cur = .none → i.rxSop = true → rdHdrTag s.tx ≠ cplHdrTag i.rxHdr) := by
  obtain ⟨p1, p2, p3, p4, p5⟩ := pendEnv_same s e
  have h8 : 2 ^ c.tagW ≤ 2 ^ 8 := Nat.pow_le_pow_right (by omega) hc.tag.2
  have hinit : drdTransfer s i = true → s.init.done = true := by
    intro ht
    cases hd : s.init.done with
    | true => rfl
    | false =>
      have := (h.inv.quiet hd).rx
      unfold drdTransfer at ht; rw [this] at ht; simp at ht
  have hTN : drdTransfer s i = true → tagN c s.init = 2 ^ c.tagW := by
    intro ht
    unfold tagN
    rw [(h.inv.init.fin (hinit ht)).1]; rfl
  have hne : s.txV = true → drdTransfer s i = true → e.cur = .none → i.rxSop = true → rdHdrTag s.tx ≠ cplHdrTag i.rxHdr := by
    intro htv ht hcur hsop heq
    have hok := hk ht
    unfold CplOk at hok
    rw [hcur] at hok
    obtain ⟨ho, _⟩ := hok hsop
    by_cases hex : ∀ r ∈ e.out, r.tag ≠ cplHdrTag i.rxHdr
    · have h3 := (ho hex).2.2
      obtain ⟨x, q1, q2⟩ := h.pend htv
      have hx : x ∈ (pendEnv s e).out := by rw [p5, q1]; simp
      have := (h.inv.tag_lt hx).2
      rw [q2, heq] at this
      exact h3 ⟨htv, by rw [Nat.mod_eq_of_lt this]; exact heq⟩
    · simp only [Classical.not_forall, Classical.not_not] at hex
      obtain ⟨r, hr, he⟩ := hex
      exact h.pend_ne htv hr (by rw [he, heq])
  refine ⟨⟨?_, ?_, ?_⟩, hne⟩
  · intro ht hcur hsop
    rw [p1] at hcur
    have hok := hk ht
    unfold CplOk at hok
    rw [hcur] at hok
    obtain ⟨ho, _⟩ := hok hsop
    have hfind : (pendEnv s e).out.find? (·.tag == cplHdrTag i.rxHdr) = e.out.find? (·.tag == cplHdrTag i.rxHdr) := by
      rw [p5]
      by_cases htv : s.txV = true
      · obtain ⟨x, q1, q2⟩ := h.pend htv
        rw [q1]
        exact find_append_ne (by rw [q2]; exact hne htv ht hcur hsop)
      · unfold pendReq; rw [if_neg htv, List.append_nil]
    constructor
    · intro hnone
      rw [hfind] at hnone
      have hex : ∀ r ∈ e.out, r.tag ≠ cplHdrTag i.rxHdr := by
        intro r hr
        have := List.find?_eq_none.1 hnone r hr
        simpa using this
      obtain ⟨o1, o2, o3⟩ := ho hex
      rw [drdRxTag_eq]
      have hlt : cplHdrTag i.rxHdr % 2 ^ c.tagW < 2 ^ c.tagW := Nat.mod_lt _ (Nat.two_pow_pos _)
      generalize cplHdrTag i.rxHdr % 2 ^ c.tagW = t at *
      have hact := h.inv.act t (by rw [hTN ht]; exact hlt)
      have hnl : ¬ tagLive s (pendEnv s e).out t := by
        rintro (⟨h1, _⟩ | ⟨h1, h2⟩)
        · rw [List.count_pos_iff, List.mem_map] at h1
          obtain ⟨r, hr, he⟩ := h1
          rw [p5, List.mem_append] at hr
          rcases hr with hr | hr
          · exact o1 r hr he
          · by_cases htv : s.txV = true
            · obtain ⟨x, q1, q2⟩ := h.pend htv
              rw [q1, List.mem_singleton] at hr
              subst hr
              exact o3 ⟨htv, by rw [← q2]; exact he⟩
            · unfold pendReq at hr; rw [if_neg htv] at hr; simp at hr
        · have := h.inv.last
          rw [p2, h1, if_pos rfl, h2] at this
          exact o2 this
      rw [← hact] at hnl
      simp only [ne_eq, Classical.not_not] at hnl
      exact hnl.symm
    · intro r hr
      rw [hfind] at hr
      have hmem : r ∈ e.out := List.mem_of_find?_eq_some hr
      have hrt : r.tag = cplHdrTag i.rxHdr := by have := List.find?_some hr; simpa using this
      have hmf : r ∈ (pendEnv s e).out := by rw [p5]; simp [hmem]
      obtain ⟨l1, l2⟩ := h.inv.tag_lt hmf
      have hT : drdRxTag c i = r.tag := by rw [drdRxTag_eq, ← hrt, Nat.mod_eq_of_lt l2]
      have hns : ¬ (s.startEn = true ∧ s.startPtr = r.tag) := by
        intro ⟨g1, g2⟩
        obtain ⟨k1, k2, _⟩ := h.inv.start g1
        exact h.pend_ne k1 hmem (by rw [k2, g2])
      refine ⟨hT, ?_, ?_⟩
      · rw [hT]
        have := (h.inv.act r.tag l1).2 (.inl ⟨List.count_pos_iff.2 (List.mem_map.2 ⟨r, hmf, rfl⟩), hns⟩)
        exact fun h' => this h'.symm
      · have he := h.inv.ent r hmf
        have : effTag s r.tag = s.tags r.tag := by
          unfold effTag
          have : (s.startEn && s.startPtr == r.tag) = false := by
            rw [Bool.eq_false_iff]; intro h'; simp only [Bool.and_eq_true, beq_iff_eq] at h'; exact hns h'
          rw [this]; rfl
        rw [hT, ← this]; exact he
  · intro t left ht hcur
    rw [p1] at hcur
    have hok := hk ht
    unfold CplOk at hok
    rw [hcur] at hok
    exact hok
  · intro ht hcur hsop r hr
    rw [p1] at hcur
    have hok := hk ht
    unfold CplOk at hok
    rw [hcur] at hok
    refine (hok hsop).2 r ?_
    rw [← hr]
    refine (rdKind_find ?_).symm
    rw [p5]
    by_cases htv : s.txV = true
    · obtain ⟨x, q1, q2⟩ := h.pend htv
      rw [q1]
      exact find_append_ne (by rw [q2]; exact hne htv ht hcur hsop)
    · unfold pendReq; rw [if_neg htv, List.append_nil]

/-- What a cycle does. -/
structure EnvStep (c : DrdCfg) (opOf : Nat → Nat) (s : Drd) (i : DrdIn) (e : RdEnv) : Prop where
  pend : pendEnv (drdStep c s i) (e.step c s i) = pendStep c s i (pendEnv s e)
  beat : BeatOut (pendEnv s e) (envBeat c s i (pendEnv s e))
  evs : ∃ E, (e.step c s i).evs = e.evs ++ E ∧ StageRel c opOf (drdStep c s i) E
  facts : ∃ new, PendFacts c opOf s i (envBeat c s i (pendEnv s e)) (pendStep c s i (pendEnv s e)) new

theorem env_step {c : DrdCfg} (hc : DrdCfgOk c) {m rid mrrs : Nat} (hm : 32 ≤ m ∧ m ≤ 512)
    (hmr : 32 * 2 ^ (if mrrs > 5 then 5 else mrrs) = m) (hrid : rid < 2 ^ 16) {opOf : Nat → Nat} {s : Drd} {i : DrdIn} {e : RdEnv}
    (h : EnvInv c m rid opOf s e) (hr : i.rst = false) (hi : i.mrrs = mrrs ∧ i.requesterId = rid)
    (hd : (s.req.ready && i.valid) = true → RdDescOk c (rdDescOf c i))
    (hk : drdTransfer s i = true → CplOk c e s i) (hacc : (s.req.ready && i.valid) = true → opOf e.count = s.opTag) :
    EnvInv c m rid opOf (drdStep c s i) (e.step c s i) ∧ EnvStep c opOf s i e := by
  obtain ⟨p1, p2, p3, p4, p5⟩ := pendEnv_same s e
  obtain ⟨q1, q2, q3, q4, q5⟩ := pendEnv_same (drdStep c s i) (e.step c s i)
  obtain ⟨hbk, h2⟩ := env_beat hc h hk
  have hq := reqFacts hm h.req (i := i) (by rw [hi.2]; exact hrid)
  have hna : drdIssue c s i = true → (s.req.ready && i.valid) = false := by
    intro h'
    rcases hq.cases with ⟨_, _, c3, _⟩ | ⟨c1, _⟩ | ⟨c1, _⟩
    · exact c3
    · rw [c1] at h'; simp at h'
    · rw [c1] at h'; simp at h'
  have hst : s.req.start = true → (pendEnv s e).todo ≠ [] := by
    intro h'
    obtain ⟨d, off, hb⟩ := h.inv.busy h'
    rw [hb.todo]; simp
  obtain ⟨u1, u2⟩ := pend_step hr h.todo hna hst h.cur h2
  have hacc' : (s.req.ready && i.valid) = true → opOf (pendEnv s e).count = s.opTag := by rw [p4]; exact hacc
  obtain ⟨v1, v2, E, v3, v4⟩ := core_step hc h.inv hq hbk hacc'
  obtain ⟨new, hp⟩ := pend_facts hc h.inv hq hacc'
  have hstep : drdStep c s i = drdNext c s i := drdStep_eq c s i hr
  refine ⟨⟨(reqInv_step hc.len hm h.req hr hmr hi hrid hd).1, ?_, u2, ?_⟩, u1, v2, ⟨E, ?_, ?_⟩, new, hp⟩
  · rw [u1, hstep]; exact v1
  · intro htv u left hcur
    rw [← q1, u1, hp.cur] at hcur
    rw [hstep] at htv ⊢
    have htv' : (drdNext c s i).txV = (drdIssue c s i || (s.txV && !i.txReady)) := rfl
    have htx : (drdNext c s i).tx = if s.req.start && (!s.txV || i.txReady) then drdHdr c s i.requesterId else s.tx := rfl
    have hbc := beat_cur hcur
    rw [p1] at hbc
    by_cases hiss : drdIssue c s i = true
    · have hss := drdIssue_start hiss
      have htag := (h.inv.next_tag (issue_tagV hiss))
      have h8 : 2 ^ c.tagW ≤ 2 ^ 8 := Nat.pow_le_pow_right (by omega) hc.tag.2
      rw [htx, hss.1, hss.2]
      simp only [Bool.and_self, if_true]
      rw [(hq.hdr hss.1).1, Nat.mod_eq_of_lt (Nat.lt_of_lt_of_le htag.1 h8)]
      intro heq
      have hpos : 0 < ((pendEnv s e).out.map (·.tag)).count u := by
        rcases hbc with ⟨l', hl⟩ | ⟨_, _, _, _, r, hr', he⟩
        · have hrx := h.inv.rx
          unfold RxRel at hrx
          rw [p1, hl] at hrx
          obtain ⟨_, r, hf, _⟩ := hrx
          have : r.tag = u := by have := List.find?_some hf; simpa using this
          exact List.count_pos_iff.2 (List.mem_map.2 ⟨r, List.mem_of_find?_eq_some hf, this⟩)
        · exact List.count_pos_iff.2 (List.mem_map.2 ⟨r, hr', he⟩)
      rw [← heq] at hpos
      have := htag.2
      omega
    · have hiss' : drdIssue c s i = false := by simpa using hiss
      rw [htv', hiss'] at htv
      simp only [Bool.false_or, Bool.and_eq_true, Bool.not_eq_true'] at htv
      rw [htx, htv.1, htv.2]
      simp only [Bool.not_true, Bool.or_false, Bool.and_false, Bool.false_eq_true, if_false]
      rcases hbc with ⟨l', hl⟩ | ⟨g1, g2, g3, g4, _⟩
      · exact h.cur htv.1 u l' hl
      · rw [g4]; exact h2 htv.1 g1 g2 g3
  · rw [← q3, u1, v3, p3]
  · rw [hstep]; exact v4

/-- Operation tags in the order in which descriptors are accepted. -/
def drdOpTags (c : DrdCfg) (s : Drd) (is : List DrdIn) : List Nat :=
  (drdTrace c s is).filterMap fun x => if x.1.req.ready && x.2.valid then some x.1.opTag else none

theorem drdOpTags_cons (c : DrdCfg) (s : Drd) (i : DrdIn) (is : List DrdIn) :
    drdOpTags c s (i :: is) = (if s.req.ready && i.valid then [s.opTag] else []) ++ drdOpTags c (drdStep c s i) is := by
  unfold drdOpTags
  rw [drdTrace, List.filterMap_cons]
  cases s.req.ready && i.valid <;> rfl

theorem env_count (c : DrdCfg) (s : Drd) (i : DrdIn) (e : RdEnv) :
    (e.step c s i).count = e.count + (s.req.ready && i.valid).toNat := by
  have hb : ∀ e : RdEnv, (if drdTransfer s i then ({ e with last := none } : RdEnv).beat c i else { e with last := none }).count = e.count := by
    intro e; split
    · exact (beat_same c i _).2
    · rfl
  have hs : ∀ (e : RdEnv) (h : TlpHdr), (e.send h).count = e.count := by
    intro e h; unfold RdEnv.send; split <;> rfl
  unfold RdEnv.step
  simp only
  cases s.req.ready && i.valid with
  | false =>
    simp only [Bool.false_eq_true, if_false, Bool.toNat_false, Nat.add_zero]
    split
    · rw [hs, hb]
    · rw [hb]
  | true =>
    simp only [if_true, Bool.toNat_true]
    unfold RdEnv.accept
    simp only
    split
    · rw [hs, hb]
    · rw [hb]

/-- The initial invariant. -/
theorem env_reset {c : DrdCfg} {m rid mrrs : Nat} (hmr : 32 * 2 ^ (if mrrs > 5 then 5 else mrrs) = m) {opOf : Nat → Nat} (s : Drd) (r : DrdIn)
    (hr : r.rst = true) (hi : r.mrrs = mrrs) : EnvInv c m rid opOf (drdStep c s r) rdEnv0 := by
  have h1 : (drdStep c s r).req.start = false := by unfold drdStep; rw [hr]; rfl
  have h2 : (drdStep c s r).req.ready = false := by unfold drdStep; rw [hr]; rfl
  have h3 : (drdStep c s r).txV = false := by unfold drdStep; rw [hr]; rfl
  have h4 : (drdStep c s r).init = ⟨0, false, true, true⟩ := by unfold drdStep; rw [hr]; rfl
  have h5 : (drdStep c s r).rx.st = .idle := by unfold drdStep; rw [hr]; rfl
  have h6 : (drdStep c s r).rx.finish = false := by unfold drdStep; rw [hr]; rfl
  have h7 : (drdStep c s r).startEn = false := by unfold drdStep; rw [hr]; rfl
  have h8 : (drdStep c s r).rx.ready = false := by unfold drdStep; rw [hr]; rfl
  have h9 : (drdStep c s r).tagV = false := by unfold drdStep; rw [hr]; rfl
  have h10 : (drdStep c s r).fifo1 = ringReset (drdNext c s r).fifo1 := by unfold drdStep; rw [hr]; rfl
  have h11 : (drdStep c s r).fifo2 = ringReset (drdNext c s r).fifo2 := by unfold drdStep; rw [hr]; rfl
  have hreq := (reqInv_reset (c := c) (rid := rid) hmr s r hr hi).1
  generalize drdStep c s r = s0 at *
  have hp : pendEnv s0 rdEnv0 = rdEnv0 := by unfold pendEnv; rw [h3]; rfl
  have hN : tagN c s0.init = 0 := by rw [h4]; rfl
  obtain ⟨f1, f2, _⟩ := ring_reset c.tagW1 (drdNext c s r).fifo1
  obtain ⟨g1, g2, _⟩ := ring_reset c.tagW2 (drdNext c s r).fifo2
  rw [← h10] at f1 f2
  rw [← h11] at g1 g2
  refine ⟨hreq, ?_, by rw [h3]; simp, by rw [h3]; simp⟩
  rw [hp]
  refine ⟨?_, fun _ => ⟨h1, h2, h8, h6, h7⟩, by rw [h1, h2]; simp, fun _ => rfl, by rw [h1]; simp, ⟨f1, g1, ?_, ?_, ?_⟩, ?_, ?_, ?_, ?_, ?_, ?_, ?_⟩
  · rw [h4]
    exact ⟨fun _ => ⟨(decide_eq_true (Nat.two_pow_pos _)).symm, (decide_eq_true (Nat.two_pow_pos _)).symm, Nat.two_pow_pos _⟩, by simp⟩
  · rw [f2]; simp
  · rw [g2]; simp
  · intro t
    rw [f2, g2, h9, h6, hN]
    simp [rdEnv0]
  · simp [rdEnv0]
  · simp [rdEnv0]
  · simp [rdEnv0]
  · rw [hN]; simp
  · rw [h7]; simp
  · exact h5
  · rw [h6]; rfl

/-- What is assumed of a history. -/
structure DrdHist (c : DrdCfg) (mrrs rid : Nat) (e : RdEnv) (s : Drd) (is : List DrdIn) : Prop where
  rst : ∀ i ∈ is, i.rst = false
  inp : ∀ i ∈ is, i.mrrs = mrrs ∧ i.requesterId = rid
  desc : ∀ d ∈ drdAccepted c s is, RdDescOk c d
  cpl : CplsOk c e s is

/-- Induction over a history. -/
theorem env_induct {c : DrdCfg} (hc : DrdCfgOk c) {m rid mrrs : Nat} (hm : 32 ≤ m ∧ m ≤ 512)
    (hmr : 32 * 2 ^ (if mrrs > 5 then 5 else mrrs) = m) (hrid : rid < 2 ^ 16) {opOf : Nat → Nat}
    {P : Drd → RdEnv → List DrdIn → Prop} (hnil : ∀ s e, EnvInv c m rid opOf s e → P s e [])
    (hcons : ∀ s e i is, EnvInv c m rid opOf s e → EnvInv c m rid opOf (drdStep c s i) (e.step c s i) → EnvStep c opOf s i e →
      i.rst = false → (drdTransfer s i = true → CplOk c e s i) → ((s.req.ready && i.valid) = true → opOf e.count = s.opTag) →
      P (drdStep c s i) (e.step c s i) is → P s e (i :: is)) (is : List DrdIn) :
    ∀ s e, EnvInv c m rid opOf s e → DrdHist c mrrs rid e s is → (∀ j, opOf (e.count + j) = (drdOpTags c s is).getD j 0) → P s e is := by
  induction is with
  | nil => intro s e h _ _; exact hnil s e h
  | cons i is ih =>
    intro s e h hh ho
    have hr := hh.rst i List.mem_cons_self
    have hd := hh.desc
    rw [drdAccepted_cons] at hd
    have hk := hh.cpl
    unfold CplsOk at hk
    have hacc : (s.req.ready && i.valid) = true → opOf e.count = s.opTag := by
      intro ha
      have := ho 0
      rw [drdOpTags_cons, ha] at this
      simpa using this
    obtain ⟨h1, h2⟩ := env_step hc hm hmr hrid h hr (hh.inp i List.mem_cons_self) (fun ha => hd _ (List.mem_append_left _ (by simp [ha])))
      hk.1 hacc
    refine hcons s e i is h h1 h2 hr hk.1 hacc (ih _ _ h1 ⟨fun x hx => hh.rst x (List.mem_cons_of_mem _ hx),
      fun x hx => hh.inp x (List.mem_cons_of_mem _ hx), fun d hd' => hd d (List.mem_append_right _ hd'), hk.2⟩ ?_)
    intro j
    rw [env_count]
    cases ha : (s.req.ready && i.valid) with
    | false =>
      have := ho j
      rw [drdOpTags_cons, ha] at this
      simpa using this
    | true =>
      have := ho (1 + j)
      rw [drdOpTags_cons, ha] at this
      rw [Bool.toNat_true, Nat.add_assoc, this]
      simp [Nat.add_comm 1 j]

/-- Induction over a history from reset. -/
theorem env_history {c : DrdCfg} (hc : DrdCfgOk c) {rid mrrs : Nat} (hmm : mrrs ≤ 4) (hrid : rid < 2 ^ 16) (is : List DrdIn) (s : Drd)
    (r : DrdIn) (hr : r.rst = true) (hi : r.mrrs = mrrs) (hh : DrdHist c mrrs rid rdEnv0 (drdStep c s r) is)
    {P : (Nat → Nat) → Drd → RdEnv → List DrdIn → Prop}
    (hnil : ∀ opOf s e, EnvInv c (32 * 2 ^ mrrs) rid opOf s e → P opOf s e [])
    (hcons : ∀ opOf s e i is, EnvInv c (32 * 2 ^ mrrs) rid opOf s e → EnvInv c (32 * 2 ^ mrrs) rid opOf (drdStep c s i) (e.step c s i) →
      EnvStep c opOf s i e → i.rst = false → (drdTransfer s i = true → CplOk c e s i) →
      ((s.req.ready && i.valid) = true → opOf e.count = s.opTag) →
      P opOf (drdStep c s i) (e.step c s i) is → P opOf s e (i :: is)) :
    ∃ opOf, EnvInv c (32 * 2 ^ mrrs) rid opOf (drdStep c s r) rdEnv0 ∧ P opOf (drdStep c s r) rdEnv0 is := by
  obtain ⟨m1, m2, _⟩ := mrrs_vals hmm
  have h5 : (if mrrs > 5 then 5 else mrrs) = mrrs := if_neg (by omega)
  rw [h5] at m1 m2
  have hmr : 32 * 2 ^ (if mrrs > 5 then 5 else mrrs) = 32 * 2 ^ mrrs := by rw [h5]
  refine ⟨fun n => (drdOpTags c (drdStep c s r) is).getD n 0, env_reset hmr s r hr hi, ?_⟩
  refine env_induct (P := P _) hc ⟨m1, m2⟩ hmr hrid (hnil _) (hcons _) is _ _ (env_reset hmr s r hr hi) hh ?_
  intro j
  show _ = _
  rw [show rdEnv0.count = 0 from rfl, Nat.zero_add]

/-- Tags in the first FIFO only. -/
structure LowTags (c : DrdCfg) (s : Drd) (e : RdEnv) : Prop where
  tag : s.tagV = true → s.tag < 2 ^ c.tagW1
  out : ∀ r ∈ (pendEnv s e).out, r.tag < 2 ^ c.tagW1

theorem low_step {c : DrdCfg} {m rid : Nat} {opOf : Nat → Nat} {s : Drd} {i : DrdIn} {e : RdEnv}
    (h : EnvInv c m rid opOf s e) (hs : EnvStep c opOf s i e) (hr : i.rst = false) (hx : i.extTag = false) (hl : LowTags c s e) :
    LowTags c (drdStep c s i) (e.step c s i) := by
  rw [drdStep_eq c s i hr] at *
  constructor
  · intro hv
    have e1 : (drdNext c s i).tag = if drdTagRd1 c s i then ringHead c.tagW1 s.fifo1 else
      if drdTagRd2 c s i then ringHead c.tagW2 s.fifo2 else s.tag := rfl
    have e2 : (drdNext c s i).tagV = (drdTagRd1 c s i || drdTagRd2 c s i || (s.tagV && !drdIssue c s i)) := rfl
    have e3 : drdTagRd2 c s i = false := by unfold drdTagRd2; rw [hx]; simp
    rw [e3] at e1 e2
    rw [e2] at hv
    rw [e1]
    by_cases h1 : drdTagRd1 c s i = true
    · rw [if_pos h1]
      have hne : 0 < ringCount c.tagW1 s.fifo1 := by
        unfold drdTagRd1 at h1
        simp only [Bool.and_eq_true, Bool.not_eq_true'] at h1
        have := ring_empty _ _ h.inv.tag.r1
        rw [h1.2] at this
        have := of_decide_eq_false this.symm
        omega
      have hh := ring_pop _ _ h.inv.tag.r1 hne
      refine h.inv.tag.lt1 _ ?_
      rw [hh.2.2]; simp
    · rw [if_neg h1] at *
      simp only [h1, Bool.false_or, Bool.or_false, Bool.and_eq_true] at hv
      simpa using hl.tag hv.1
  · intro r hr'
    have hp := hs.pend
    rw [drdStep_eq c s i hr] at hp
    rw [hp] at hr'
    obtain ⟨new, hf⟩ := hs.facts
    rw [hf.out, List.mem_append] at hr'
    rcases hr' with hr' | hr'
    · obtain ⟨r0, h0, ha⟩ := beat_mem hs.beat h.inv.wf hr'
      rw [ha.tag]; exact hl.out r0 h0
    · obtain ⟨g1, g2, _⟩ := hf.ent r hr'
      rw [g2]; exact hl.tag (issue_tagV g1)

/-- The error outputs after a cycle. -/
theorem err_step {c : DrdCfg} (hc : DrdCfgOk c) {m rid : Nat} {opOf : Nat → Nat} {s : Drd} {i : DrdIn} {e : RdEnv}
    (h : EnvInv c m rid opOf s e) (hr : i.rst = false) (hk : drdTransfer s i = true → CplOk c e s i) :
    ((drdStep c s i).rx.errCor, (drdStep c s i).rx.errUncor) = rdPulse c e s i := by
  have hrx : (drdStep c s i).rx = drdRxStep c s i := by rw [drdStep_eq c s i hr]; rfl
  rw [hrx]
  have hrel := h.inv.rx
  obtain ⟨p1, _, _, _, p5⟩ := pendEnv_same s e
  unfold RxRel at hrel
  rw [p1] at hrel
  have hcases : e.cur = .skip ∨ (∃ t left, e.cur = .data t left) ∨ e.cur = .none := by
    cases e.cur with
    | none => exact .inr (.inr rfl)
    | skip => exact .inl rfl
    | data t left => exact .inr (.inl ⟨t, left, rfl⟩)
  unfold rdPulse
  rcases hcases with hcur | ⟨t, left, hcur⟩ | hcur
  · rw [if_neg (by rw [hcur]; simp)]
    rw [hcur] at hrel
    unfold drdRxStep
    rw [hrel]
    dsimp only
    split <;> rfl
  · rw [if_neg (by rw [hcur]; simp)]
    rw [hcur] at hrel
    unfold drdRxStep
    rw [hrel.1]
    dsimp only
    split <;> rfl
  · rw [hcur] at hrel
    simp only at hrel
    have hhead : drdHead s i = (drdTransfer s i && i.rxSop) := by
      unfold drdHead drdTransfer drdBeat; rw [hrel]; simp
    unfold drdRxStep
    rw [hrel]
    dsimp only
    by_cases ht : drdTransfer s i = true ∧ i.rxSop = true
    · have hA : drdHead s i = true := by rw [hhead, ht.1, ht.2]; rfl
      have hB : drdTransfer s i = true ∧ e.cur = .none ∧ i.rxSop = true := ⟨ht.1, hcur, ht.2⟩
      rw [if_pos hA, if_pos hB]
      obtain ⟨hbk, hne⟩ := env_beat hc h hk
      have hH := hbk.head ht.1 (by rw [p1]; exact hcur) ht.2
      have hkind := rx_kind hH
      have hsame : rdKind c (pendEnv s e).out i = rdKind c e.out i := by
        refine rdKind_find ?_
        rw [p5]
        by_cases htv : s.txV = true
        · obtain ⟨x, q1, q2⟩ := h.pend htv
          rw [q1]
          exact find_append_ne (by rw [q2]; exact hne htv ht.1 hcur ht.2)
        · unfold pendReq; rw [if_neg htv, List.append_nil]
      rw [hsame] at hkind
      cases hq : rdKind c e.out i with
      | unexpected =>
        rw [hq] at hkind
        simp only at hkind
        simp only [hkind, if_true]; rfl
      | malformed =>
        rw [hq] at hkind
        simp only at hkind
        simp only [hkind.1, hkind.2, if_true, Bool.false_eq_true, if_false]; rfl
      | error r code =>
        rw [hq] at hkind
        simp only at hkind
        obtain ⟨k1, k2, k3, k4⟩ := hkind
        subst k3
        have k5 : (drdCplError i != 0) = true := by simpa using k4
        simp only [k1, k2, k5, if_true, Bool.false_eq_true, if_false]
      | data r =>
        rw [hq] at hkind
        simp only at hkind
        obtain ⟨k1, k2, k3⟩ := hkind
        have k5 : (drdCplError i != 0) = false := by rw [k3]; rfl
        simp only [k1, k2, k5, Bool.false_eq_true, if_false]; rfl
    · have hA : ¬ drdHead s i = true := by rw [hhead]; simpa using ht
      have hB : ¬ (drdTransfer s i = true ∧ e.cur = .none ∧ i.rxSop = true) := fun h' => ht ⟨h'.1, h'.2.2⟩
      rw [if_neg hA, if_neg hB]; rfl

/-- Tags of requests. -/
theorem drd_tags {c : DrdCfg} (hc : DrdCfgOk c) {rid mrrs : Nat} (hmm : mrrs ≤ 4) (hrid : rid < 2 ^ 16) (is : List DrdIn) (s : Drd)
    (r : DrdIn) (hr : r.rst = true) (hi : r.mrrs = mrrs) (hh : DrdHist c mrrs rid rdEnv0 (drdStep c s r) is) :
    ∃ opOf, EnvInv c (32 * 2 ^ mrrs) rid opOf (drdRun c (drdStep c s r) is) (rdEnv0.run c (drdStep c s r) is) ∧
      ((∀ i ∈ is, i.extTag = false) → LowTags c (drdRun c (drdStep c s r) is) (rdEnv0.run c (drdStep c s r) is)) := by
  have key := env_history (P := fun opOf s e is => EnvInv c (32 * 2 ^ mrrs) rid opOf (drdRun c s is) (e.run c s is) ∧
    (LowTags c s e → (∀ i ∈ is, i.extTag = false) → LowTags c (drdRun c s is) (e.run c s is))) hc hmm hrid is s r hr hi hh
    (fun opOf s e h => ⟨h, fun h1 _ => h1⟩)
    (fun opOf s e i is h h' hs hr _ _ ih => ⟨ih.1, fun hl hx => ih.2 (low_step h hs hr (hx i List.mem_cons_self) hl)
      (fun x hx' => hx x (List.mem_cons_of_mem _ hx'))⟩)
  obtain ⟨opOf, h1, h2⟩ := key
  refine ⟨opOf, h2.1, h2.2 ⟨?_, ?_⟩⟩
  · have : (drdStep c s r).tagV = false := by unfold drdStep; rw [hr]; rfl
    rw [this]; simp
  · have : (drdStep c s r).txV = false := by unfold drdStep; rw [hr]; rfl
    unfold pendEnv; rw [this]; simp [rdEnv0]

/-- The error outputs. -/
theorem drd_errors {c : DrdCfg} (hc : DrdCfgOk c) {rid mrrs : Nat} (hmm : mrrs ≤ 4) (hrid : rid < 2 ^ 16) (is : List DrdIn) (i : DrdIn)
    (s : Drd) (r : DrdIn) (hr : r.rst = true) (hi : r.mrrs = mrrs) (hh : DrdHist c mrrs rid rdEnv0 (drdStep c s r) is)
    (hir : i.rst = false)
    (hk : drdTransfer (drdRun c (drdStep c s r) is) i = true →
      CplOk c (rdEnv0.run c (drdStep c s r) is) (drdRun c (drdStep c s r) is) i) :
    ((drdStep c (drdRun c (drdStep c s r) is) i).rx.errCor, (drdStep c (drdRun c (drdStep c s r) is) i).rx.errUncor) =
      rdPulse c (rdEnv0.run c (drdStep c s r) is) (drdRun c (drdStep c s r) is) i := by
  obtain ⟨opOf, h1, _⟩ := drd_tags hc hmm hrid is s r hr hi hh
  exact err_step hc h1 hir hk

end Verif.Proofs
