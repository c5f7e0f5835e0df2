import Verif.Proofs.DrdEvents
import Verif.Proofs.DrdWrite
import Verif.Proofs.OpTable
/-! The operation table of the PCIe DMA read interface. -/
namespace Verif.Proofs
open Verif Verif.Model Verif.Spec

/-- What the request state machine does in a cycle. -/
inductive ReqEv (c : DrdCfg) (opOf : Nat → Nat) (s : Drd) (i : DrdIn) (f f1 f3 : RdEnv) : Prop
  | issue (d : RdDesc) (off z : Nat) (hi : drdIssue c s i = true) (ha : drdAccept s i = false) (hr : (s.req.ready && i.valid) = false)
    (hs : s.req.start = true) (hs' : (drdNext c s i).req.start = !(drdReqSize c s).last) (hz : 0 < z) (hc0 : 0 < f.count)
    (ho : opOf (f.count - 1) = s.opTag)
    (h1 : f.todo = [⟨f.count - 1, d, off⟩]) (h2 : f3.out = f1.out ++ [⟨f.count - 1, d, s.tag, off, off + z⟩])
    (h3 : f3.todo = if (drdReqSize c s).last then [] else [⟨f.count - 1, d, off + z⟩]) (h4 : f3.count = f.count)
    (hsp : off + z ≤ rdSpan d) (hsl : (drdReqSize c s).last = true → off + z = rdSpan d)
  | accept (hi : drdIssue c s i = false) (ha : drdAccept s i = true) (hr : (s.req.ready && i.valid) = true)
    (hs : s.req.start = false) (hs' : (drdNext c s i).req.start = true) (hv : s.opTagV = true) (ho : opOf f.count = s.opTag)
    (h1 : f.todo = []) (h2 : f3.out = f1.out) (h3 : f3.todo = [⟨f.count, rdDescOf c i, 0⟩]) (h4 : f3.count = f.count + 1)
  | none (hi : drdIssue c s i = false) (ha : drdAccept s i = false) (hr : (s.req.ready && i.valid) = false)
    (hs' : (drdNext c s i).req.start = s.req.start)
    (h1 : f3.todo = f.todo) (h2 : f3.out = f1.out) (h3 : f3.count = f.count)

theorem req_ev {c : DrdCfg} (hc : DrdCfgOk c) {opOf : Nat → Nat} {s : Drd} {i : DrdIn} {f : RdEnv} (h : DrdInv c opOf s f)
    (hq : ReqFacts c s i) (hacc : (s.req.ready && i.valid) = true → opOf f.count = s.opTag) :
    ReqEv c opOf s i f (envBeat c s i f) (pendStep c s i f) ∧ (pendStep c s i f).evs = (envBeat c s i f).evs := by
  have hreq : (drdNext c s i).req = drdReqStep c s i := rfl
  obtain ⟨new, hp⟩ := pend_facts hc h hq hacc
  refine ⟨?_, hp.evs⟩
  clear hp
  obtain ⟨ht, hcn⟩ := envBeat_same c s i f
  generalize hf1 : envBeat c s i f = f1 at *
  have hps : pendStep c s i f = (let f := if drdIssue c s i then f1.send (drdHdr c s i.requesterId) else f1
      if s.req.ready && i.valid then f.accept (rdDescOf c i) else f) := by unfold pendStep; rw [hf1]
  rw [hps]
  clear hps
  rcases hq.cases with ⟨c1, c2, c3, c4⟩ | ⟨c1, c2, c3, c4⟩ | ⟨c1, c2, c3⟩
  · obtain ⟨d, off, hb⟩ := h.busy c4
    obtain ⟨g1, g2, g3, g4, g5⟩ := issue_req hc h hq c1 hb
    obtain ⟨q1, q2, q3, q4, q5, q6, q7⟩ := drdReq_issue hq.m rfl (hq.ok c4) c1
    have htodo : f1.todo = [⟨f.count - 1, d, off⟩] := by rw [ht]; exact hb.todo
    have hsend := send_cons htodo (drdHdr c s i.requesterId)
    rw [g1] at hsend
    have hzl := (hq.size c4).last
    have hzp := (hq.size c4).pos
    rw [c1, c3]
    simp only [if_true, Bool.false_eq_true, if_false]
    rw [hsend]
    refine .issue d off (drdReqSize c s).count c1 c2 c3 c4 ?_ hzp hb.count hb.op hb.todo rfl ?_ hcn g5 (fun hl => ?_)
    · rw [hreq, q1, hzl]
    · rw [hzl]
      by_cases hl : (drdReqSize c s).count = s.req.count
      · have : ¬ off + (drdReqSize c s).count < rdSpan d := by rw [g4]; simpa using hl
        simp only [hl] at this ⊢
        rw [if_neg this]; simp
      · have := g4.2 hl
        simp only
        rw [if_pos this]; simp [hl]
    · rw [hzl] at hl
      have := of_decide_eq_true hl
      have := g4.1
      omega
  · have hR := drdReq_accept (c := c) c4 c2
    have htodo : f1.todo = [] := by rw [ht]; exact h.idle c4
    rw [c1, c3]
    simp only [if_true, Bool.false_eq_true, if_false]
    have hopv := h.opv (.inl (by simp only [Bool.and_eq_true] at c3; exact c3.1))
    refine .accept c1 c2 c3 c4 (by rw [hreq, hR]; rfl) hopv (hacc c3) (h.idle c4) rfl ?_ ?_
    · unfold RdEnv.accept; simp [htodo, hcn]
    · show f1.count + 1 = _; rw [hcn]
  · rw [c1, c3]
    simp only [Bool.false_eq_true, if_false]
    obtain ⟨b, hR, hb'⟩ := drdReq_none c1 c2
    exact .none c1 c2 c3 (by rw [hreq, hR]) ht rfl hcn

theorem ReqEv.todo {c : DrdCfg} {opOf : Nat → Nat} {s : Drd} {i : DrdIn} {f f1 f3 : RdEnv} (h : ReqEv c opOf s i f f1 f3)
    (ht : f1.todo = f.todo) (hc : f1.count = f.count) : TodoStep f1 f3 := by
  cases h with
  | issue d off z _ _ _ _ _ hz _ _ h1 h2 h3 h4 =>
    refine .issue (f.count - 1) d off s.tag z hz (by rw [ht, h1]) h2 ?_ (by rw [h4, hc])
    rw [h3]; cases (drdReqSize c s).last <;> simp
  | accept _ _ _ _ _ _ _ h1 h2 h3 h4 => exact .accept (rdDescOf c i) (by rw [ht, h1]) h2 (by rw [h3, hc]) (by rw [h4, hc])
  | none _ _ _ _ h1 h2 h3 => exact .none (by rw [h1, ht]) h2 (by rw [h3, hc])

/-- The operation table; `A` are the numbers of the descriptors that have an operation, and `n` events have been dealt with. -/
structure OpInv (c : DrdCfg) (opOf : Nat → Nat) (s : Drd) (f : RdEnv) (n : Nat) (A : List Nat) : Prop where
  ev : EvInv f
  zero : s.init.done = false → f.count = 0
  ring : RingOk c.opW s.opFifo
  cnt : ∀ t, (ringList c.opW s.opFifo).count t + (s.opTagV && !s.req.start && s.opTag == t).toNat + (A.map opOf).count t =
    if t < opN c s.init then 1 else 0
  alt : ∀ m ∈ A, m < f.count
  atodo : ∀ t ∈ f.todo, t.num ∈ A
  aout : ∀ r ∈ f.out, r.num ∈ A
  aev : ∀ v ∈ f.evs.drop n, v.num ∈ A
  lt : ∀ t < opN c s.init, s.ops.cntS t < 2 ^ (c.tagW + 1) ∧ s.ops.cntF t < 2 ^ (c.tagW + 1)
  first : ∀ m ∈ A, (s.ops.initA (opOf m) ≠ s.ops.initB (opOf m) ↔ ∃ t ∈ f.todo, t.num = m ∧ t.off = 0)
  num : ∀ m ∈ A, s.ops.initA (opOf m) = s.ops.initB (opOf m) →
    (s.ops.cntS (opOf m) + 1) % 2 ^ (c.tagW + 1) =
      (s.ops.cntF (opOf m) + (outN f.out m + finN (f.evs.drop n) m)) % 2 ^ (c.tagW + 1) ∧
    s.ops.commit (opOf m) = !todoN f m
  err : ∀ m ∈ A, (if s.ops.errA (opOf m) ≠ s.ops.errB (opOf m) then s.ops.errCode (opOf m) else 0) = rdError (f.evs.take n) m
  tagT : ∀ t ∈ f.todo, s.ops.tag (opOf t.num) = t.d.tag
  tagO : ∀ r ∈ f.out, s.ops.tag (opOf r.num) = r.d.tag
  tagE : ∀ v ∈ f.evs.drop n, ∀ x, v.status = some x → s.ops.tag (opOf v.num) = x.1

theorem map_count_inj {g : Nat → Nat} {l : List Nat} (h : ∀ t, (l.map g).count t ≤ 1) {a b : Nat} (ha : a ∈ l) (hb : b ∈ l)
    (hg : g a = g b) : a = b := by
  induction l with
  | nil => simp at ha
  | cons x l ih =>
    have hle : ∀ t, (l.map g).count t ≤ 1 := fun t => by
      have := h t
      rw [List.map_cons, List.count_cons] at this; omega
    have hx : ∀ y ∈ l, g y ≠ g x := by
      intro y hy he
      have := h (g x)
      rw [List.map_cons, List.count_cons] at this
      have h0 : 0 < (l.map g).count (g x) := List.count_pos_iff.2 (List.mem_map.2 ⟨y, hy, he⟩)
      simp at this; omega
    rcases List.mem_cons.1 ha with h1 | h1 <;> rcases List.mem_cons.1 hb with h2 | h2
    · rw [h1, h2]
    · exact absurd (by rw [← hg, h1]) (hx b h2)
    · exact absurd (by rw [hg, h2]) (hx a h1)
    · exact ih hle h1 h2

theorem map_count_nodup {g : Nat → Nat} {l : List Nat} (h : ∀ t, (l.map g).count t ≤ 1) : l.Nodup := by
  induction l with
  | nil => simp
  | cons x l ih =>
    rw [List.nodup_cons]
    refine ⟨fun hx => ?_, ih fun t => ?_⟩
    · have := h (g x)
      rw [List.map_cons, List.count_cons] at this
      have h0 : 0 < (l.map g).count (g x) := List.count_pos_iff.2 (List.mem_map.2 ⟨x, hx, rfl⟩)
      simp at this; omega
    · have := h t
      rw [List.map_cons, List.count_cons] at this; omega

theorem map_count_erase {g : Nat → Nat} {l : List Nat} {m : Nat} (hm : m ∈ l) (t : Nat) :
    ((l.erase m).map g).count t + (g m == t).toNat = (l.map g).count t := by
  have hp := (List.perm_cons_erase hm).map g
  rw [hp.count_eq t, List.map_cons, List.count_cons]
  cases g m == t <;> rfl

theorem OpInv.le {c : DrdCfg} {opOf : Nat → Nat} {s : Drd} {f : RdEnv} {n : Nat} {A : List Nat} (h : OpInv c opOf s f n A) (t : Nat) :
    (A.map opOf).count t ≤ 1 := by
  have := h.cnt t
  split at this <;> omega

theorem OpInv.op_lt {c : DrdCfg} {opOf : Nat → Nat} {s : Drd} {f : RdEnv} {n : Nat} {A : List Nat} (h : OpInv c opOf s f n A) {m : Nat}
    (hm : m ∈ A) : opOf m < opN c s.init := by
  have := h.cnt (opOf m)
  have h0 : 0 < (A.map opOf).count (opOf m) := List.count_pos_iff.2 (List.mem_map.2 ⟨m, hm, rfl⟩)
  split at this
  · assumption
  · omega

theorem cnt_arith {S F P M : Nat} (hS : S < M) (hF : F < M) (h : (S + 1) % M = (F + P) % M) (h1 : 1 ≤ P) (h2 : P ≤ M) :
    S = F ↔ P = 1 := by
  constructor
  · intro he
    subst he
    have := @mod_inj_lt (S + 1) 0 (P - 1) M (by omega) (by omega) (by rw [h]; congr 1; omega)
    omega
  · intro he
    subst he
    have := @mod_inj_lt 1 S F M hS hF (by rw [Nat.add_comm 1 S, Nat.add_comm 1 F, h])
    exact this

/-- When an entry is dealt with, the operation is complete exactly if the specification says so. -/
theorem op_done {c : DrdCfg} {opOf : Nat → Nat} {s : Drd} {f : RdEnv} {n : Nat} {A : List Nat} (h : OpInv c opOf s f n A)
    (hp : drdPop c s = true) {v : RdEvent} {l : List RdEvent} (hd : f.evs.drop n = v :: l) (he : EntryRel c opOf s.cur v)
    (hb : outN f.out v.num + (f.evs.drop n).length ≤ 2 ^ (c.tagW + 1)) :
    drdOpDone c s = v.status.isSome := by
  have hm : v.num ∈ A := h.aev v (by rw [hd]; simp)
  have hev : f.evs = f.evs.take n ++ v :: l := by rw [← hd, List.take_append_drop]
  have hin : s.ops.initA (opOf v.num) = s.ops.initB (opOf v.num) := by
    apply Classical.byContradiction
    intro hne
    obtain ⟨t, ht, h1, h2⟩ := (h.first v.num hm).1 hne
    exact (h.ev.fresh t ht h2).2 v (by rw [hev]; simp) h1.symm
  obtain ⟨n1, n2⟩ := h.num v.num hm hin
  obtain ⟨l1, l2⟩ := h.lt _ (h.op_lt hm)
  rw [Bool.eq_iff_iff, h.ev.dec _ v l hev]
  unfold drdOpDone
  rw [hp, he.op, he.fin, n2]
  simp only [Bool.true_and, Bool.and_eq_true, Bool.not_eq_true', beq_iff_eq]
  cases hf : v.finish with
  | false => simp
  | true =>
    have hfl : finN (f.evs.drop n) v.num ≤ (f.evs.drop n).length := List.countP_le_length
    rw [hd, finN_cons, hf] at n1 hfl
    simp only [Bool.true_and, beq_self_eq_true, Bool.toNat_true] at n1 hfl
    rw [hd] at hb
    rw [cnt_arith l1 l2 n1 (by omega) (by omega)]
    constructor
    · rintro ⟨⟨-, g1⟩, g2⟩; exact ⟨rfl, g1, by omega, by omega⟩
    · rintro ⟨-, g1, g2, g3⟩; exact ⟨⟨rfl, g1⟩, by omega⟩

/-- The status is the one that the specification gives. -/
theorem op_status {c : DrdCfg} {opOf : Nat → Nat} {s : Drd} {f : RdEnv} {n : Nat} {A : List Nat} (h : OpInv c opOf s f n A)
    {v : RdEvent} {l : List RdEvent} (hd : f.evs.drop n = v :: l) (he : EntryRel c opOf s.cur v) {x : Nat × Nat}
    (hx : v.status = some x) : x = (s.ops.tag s.cur.op, drdStError s) := by
  have hm : v.num ∈ A := h.aev v (by rw [hd]; simp)
  have hev : f.evs = f.evs.take n ++ v :: l := by rw [← hd, List.take_append_drop]
  have h1 := h.ev.err _ v l x hev hx
  have h2 := h.tagE v (by rw [hd]; simp) x hx
  rw [rdError_snoc, ← h.err _ hm] at h1
  refine Prod.ext ?_ ?_
  · rw [he.op, h2]
  · rw [h1]
    unfold drdStError
    rw [he.op, he.err]
    simp

theorem num_arith {S F P S' F' P' M is pf : Nat} (h : (S + 1) % M = (F + P) % M) (hp : P' + pf = P + is) (hS : S' % M = (S + is) % M)
    (hF : F' % M = (F + pf) % M) : (S' + 1) % M = (F' + P') % M := by
  have e1 : (S' + 1) % M = (S + 1 + is) % M := by
    rw [← Nat.mod_add_mod, hS, Nat.mod_add_mod]; congr 1; omega
  have e2 : (F' + P') % M = (F + P + is) % M := by
    rw [← Nat.mod_add_mod, hF, Nat.mod_add_mod]; congr 1; omega
  rw [e1, e2, ← Nat.mod_add_mod, h, Nat.mod_add_mod]

/-- The operation tags in a cycle. -/
theorem op_flow {c : DrdCfg} {opOf : Nat → Nat} {s : Drd} {i : DrdIn} {f f1 f3 : RdEnv} {n : Nat} {A A' : List Nat}
    (h : OpInv c opOf s f n A) (hI : DrdInv c opOf s f) (hre : ReqEv c opOf s i f f1 f3)
    (hdone : drdOpDone c s = true → ∃ m ∈ A, s.cur.op = opOf m)
    (hA : ∀ t, (A'.map opOf).count t + (drdOpDone c s && s.cur.op == t).toNat = (A.map opOf).count t + (drdAccept s i && s.opTag == t).toNat) :
    RingOk c.opW (drdNext c s i).opFifo ∧ ∀ t, (ringList c.opW (drdNext c s i).opFifo).count t +
      ((drdNext c s i).opTagV && !(drdNext c s i).req.start && (drdNext c s i).opTag == t).toNat + (A'.map opOf).count t =
      if t < opN c (drdNext c s i).init then 1 else 0 := by
  obtain ⟨_, _, iN, _, _, io, _⟩ := init_step hI.init
  have hNle : opN c s.init ≤ 2 ^ c.opW := by
    unfold opN; split
    · have := io (by assumption); omega
    · omega
  have hcnt := h.cnt
  have hF : (drdNext c s i).opFifo = ringMove c.opW s.opFifo (drdOpWe c s) (if s.init.op then s.init.count % 2 ^ c.opW else s.cur.op)
    (drdOpRd c s i) := rfl
  have hdi : drdOpDone c s = true → s.init.op = false := by
    unfold drdOpDone drdPop; intro h'; simp only [Bool.and_eq_true, Bool.not_eq_true'] at h'; exact h'.1.1.1.1.1
  have hx : drdOpWe c s = true → (if s.init.op then s.init.count % 2 ^ c.opW else s.cur.op) < 2 ^ c.opW ∧
      (ringList c.opW s.opFifo).count (if s.init.op then s.init.count % 2 ^ c.opW else s.cur.op) = 0 := by
    intro hwe
    by_cases hT : s.init.op = true
    · have hlt := (io hT).2
      rw [if_pos hT, Nat.mod_eq_of_lt hlt]
      have := hcnt s.init.count
      rw [if_neg (by unfold opN; rw [if_pos hT]; omega)] at this
      omega
    · have hd : drdOpDone c s = true := by
        unfold drdOpWe at hwe; simp only [hT, Bool.false_or] at hwe; simpa using hwe
      obtain ⟨m, hm, he⟩ := hdone hd
      rw [if_neg hT, he]
      have h1 := hcnt (opOf m)
      have h0 : 0 < (A.map opOf).count (opOf m) := List.count_pos_iff.2 (List.mem_map.2 ⟨m, hm, rfl⟩)
      split at h1 <;> omega
  have hle1 : ∀ t, (ringList c.opW s.opFifo).count t ≤ 1 := fun t => by
    have := hcnt t; split at this <;> omega
  have hw : drdOpWe c s = true → ringCount c.opW s.opFifo < 2 ^ c.opW := by
    intro h'
    obtain ⟨g1, g2⟩ := hx h'
    have := count_length_lt (l := ringList c.opW s.opFifo) (a := 0) (n := 2 ^ c.opW)
      (fun y hy => ⟨by omega, by
        have h1 := hcnt y
        have h2 := List.count_pos_iff.2 hy
        split at h1 <;> omega⟩) hle1 ⟨by omega, g1⟩ (List.count_eq_zero.1 g2)
    rw [ringList_length] at this; omega
  have hrd : drdOpRd c s i = true → 0 < ringCount c.opW s.opFifo := by
    intro h'
    unfold drdOpRd at h'
    rw [ring_empty c.opW s.opFifo h.ring] at h'
    simp only [Bool.and_eq_true, Bool.not_eq_true', decide_eq_false_iff_not] at h'
    omega
  refine ⟨by rw [hF]; exact (ringMove_list h.ring hw hrd).1, fun t => ?_⟩
  have c1 := ringMove_count h.ring hw hrd (x := if s.init.op then s.init.count % 2 ^ c.opW else s.cur.op) t
  rw [← hF] at c1
  have c2 := hcnt t
  have c3 := hA t
  have hI' : (drdNext c s i).init = drdInitStep c s.init := rfl
  have hot : (drdNext c s i).opTag = if drdOpRd c s i then ringHead c.opW s.opFifo else s.opTag := rfl
  have hov : (drdNext c s i).opTagV = (drdOpRd c s i || (s.opTagV && !drdIssueLast c s i)) := rfl
  have hst := hI.opv
  have c4 : ((drdNext c s i).opTagV && !(drdNext c s i).req.start && (drdNext c s i).opTag == t).toNat + (drdAccept s i && s.opTag == t).toNat =
      (s.opTagV && !s.req.start && s.opTag == t).toNat + (drdOpRd c s i && ringHead c.opW s.opFifo == t).toNat := by
    have hrd' : drdOpRd c s i = true → s.opTagV = true → drdIssueLast c s i = true := by
      unfold drdOpRd; grind
    have hil : drdIssueLast c s i = (drdIssue c s i && (drdReqSize c s).last) := rfl
    rw [hot, hov]
    rw [hil] at hrd' ⊢
    cases hre with
    | issue _ _ _ hi ha _ hs hs' =>
      have hv := hst (.inr hs)
      rw [ha, hs', hs, hi, hv]
      rw [hi, hv] at hrd'
      generalize drdOpRd c s i = a at *
      generalize (drdReqSize c s).last = b at *
      cases a <;> cases b <;> simp at hrd' ⊢
    | accept hi ha hr hs hs' hv =>
      rw [ha, hs', hs, hi, hv]
      rw [hi, hv] at hrd'
      generalize drdOpRd c s i = a at *
      cases a <;> simp at hrd' ⊢
    | none hi ha hr hs' =>
      rw [ha, hs', hi]
      rw [hi] at hrd'
      generalize drdOpRd c s i = a at *
      generalize s.req.start = b at *
      generalize s.opTagV = d at *
      cases a <;> cases b <;> cases d <;> simp at hrd' hst ⊢
  have c5 : (drdOpWe c s && (if s.init.op then s.init.count % 2 ^ c.opW else s.cur.op) == t).toNat =
      (drdOpDone c s && s.cur.op == t).toNat + (s.init.op && s.init.count == t).toNat := by
    unfold drdOpWe
    by_cases hT : s.init.op = true
    · have hlt := (io hT).2
      have hnd : drdOpDone c s = false := by
        rw [Bool.eq_false_iff]; intro h'; rw [hdi h'] at hT; simp at hT
      rw [hnd, hT, if_pos rfl, Nat.mod_eq_of_lt hlt]
      simp
    · simp only [hT, Bool.false_or, Bool.false_and]
      simp
  have c7 : (if t < opN c s.init + s.init.op.toNat then 1 else 0) =
      (if t < opN c s.init then 1 else 0) + (s.init.op && s.init.count == t).toNat := by
    by_cases hT : s.init.op = true
    · have : opN c s.init = s.init.count := by unfold opN; rw [if_pos hT]
      rw [this, hT]
      simp only [Bool.toNat_true, Bool.true_and]
      by_cases h1 : t < s.init.count
      · rw [if_pos (by omega), if_pos h1]
        have : (s.init.count == t) = false := by rw [beq_eq_false_iff_ne]; omega
        rw [this]; rfl
      · by_cases h2 : s.init.count = t
        · rw [if_pos (by omega), if_neg h1]; simp [h2]
        · rw [if_neg (by omega), if_neg h1]
          have : (s.init.count == t) = false := by simpa using h2
          rw [this]; rfl
    · simp [hT]
  rw [hI', iN, c7, ← c2]
  generalize (if s.init.op then s.init.count % 2 ^ c.opW else s.cur.op) = x at *
  omega

/-- The entry that is dealt with. -/
def PopEv (c : DrdCfg) (opOf : Nat → Nat) (s : Drd) (evs : List RdEvent) (n : Nat) : Prop :=
  drdPop c s = true → ∃ v l, evs.drop n = v :: l ∧ EntryRel c opOf s.cur v ∧ drdOpDone c s = v.status.isSome

/-- The descriptors that have an operation after a cycle. -/
theorem op_active {c : DrdCfg} {opOf : Nat → Nat} {s : Drd} {i : DrdIn} {f f1 f3 : RdEnv} {n : Nat} {A : List Nat}
    (h : OpInv c opOf s f n A) (hre : ReqEv c opOf s i f f1 f3) (hpop : PopEv c opOf s f.evs n) :
    ∃ A' : List Nat, (∀ t, (A'.map opOf).count t + (drdOpDone c s && s.cur.op == t).toNat =
        (A.map opOf).count t + (drdAccept s i && s.opTag == t).toNat) ∧
      (drdOpDone c s = true → ∃ m ∈ A, s.cur.op = opOf m) ∧
      (∀ m, m ∈ A' ↔ (m ∈ A ∧ ¬ (drdOpDone c s = true ∧ ∃ v l, f.evs.drop n = v :: l ∧ v.num = m)) ∨
        (drdAccept s i = true ∧ m = f.count)) := by
  have hacc : ∀ t, (((if drdAccept s i then [f.count] else []) : List Nat).map opOf).count t = (drdAccept s i && s.opTag == t).toNat := by
    intro t
    cases hre with
    | issue _ _ _ hi ha => rw [ha]; rfl
    | accept hi ha hr hs hs' hv ho =>
      rw [ha]; simp only [if_true, List.map_cons, List.map_nil, ho, List.count_cons, List.count_nil]
      cases s.opTag == t <;> rfl
    | none hi ha => rw [ha]; rfl
  by_cases hd : drdOpDone c s = true
  · have hp : drdPop c s = true := by unfold drdOpDone at hd; simp only [Bool.and_eq_true] at hd; exact hd.1.1.1
    obtain ⟨v, l, h1, h2, h3⟩ := hpop hp
    have hm : v.num ∈ A := h.aev v (by rw [h1]; simp)
    refine ⟨A.erase v.num ++ (if drdAccept s i then [f.count] else []), ?_, fun _ => ⟨v.num, hm, h2.op⟩, ?_⟩
    · intro t
      rw [List.map_append, List.count_append, hacc, hd, h2.op]
      have := map_count_erase (g := opOf) hm t
      simp only [Bool.true_and]
      omega
    · intro m
      rw [List.mem_append, (map_count_nodup h.le).mem_erase_iff]
      have e1 : (drdOpDone c s = true ∧ ∃ v l, f.evs.drop n = v :: l ∧ v.num = m) ↔ m = v.num := by
        constructor
        · rintro ⟨-, v', l', g1, g2⟩
          rw [h1] at g1; injection g1 with g1; rw [g1, g2]
        · intro he; exact ⟨hd, v, l, h1, he.symm⟩
      rw [e1]
      cases drdAccept s i <;> simp [and_comm]
  · have hd' : drdOpDone c s = false := by simpa using hd
    refine ⟨A ++ (if drdAccept s i then [f.count] else []), ?_, fun h' => absurd h' hd, ?_⟩
    · intro t
      rw [List.map_append, List.count_append, hacc, hd']
      simp
    · intro m
      rw [List.mem_append]
      simp only [hd', Bool.false_eq_true, false_and, not_false_eq_true, and_true]
      cases drdAccept s i <;> simp

/-- The entries of the operation table of a descriptor that has one. -/
structure OpAt (c : DrdCfg) (s : Drd) (i : DrdIn) (k : Nat) (iss pop : Bool) : Prop where
  tag : (drdNext c s i).ops.tag k = s.ops.tag k
  initA : (drdNext c s i).ops.initA k = s.ops.initA k
  initB : (drdNext c s i).ops.initB k = if iss then s.ops.initA k else s.ops.initB k
  commit : (drdNext c s i).ops.commit k = if iss then (drdReqSize c s).last else s.ops.commit k
  cntS : (drdNext c s i).ops.cntS k = if iss then if s.ops.initB k ≠ s.ops.initA k then s.ops.cntF k else
    (s.ops.cntS k + 1) % 2 ^ (c.tagW + 1) else s.ops.cntS k
  cntF : (drdNext c s i).ops.cntF k = if pop && s.cur.finish then (s.ops.cntF k + 1) % 2 ^ (c.tagW + 1) else s.ops.cntF k
  errA : (drdNext c s i).ops.errA k = s.ops.errA k
  errB : (drdNext c s i).ops.errB k = if pop && s.cur.error != 0 then !s.ops.errA k else s.ops.errB k
  errCode : (drdNext c s i).ops.errCode k = if pop && s.cur.error != 0 then s.cur.error else s.ops.errCode k

theorem op_at {c : DrdCfg} {s : Drd} {i : DrdIn} {k : Nat} {iss pop : Bool} (hin : s.init.op = false)
    (ha : (drdAccept s i && k == s.opTag) = false) (hi : (drdIssue c s i && k == s.opTag) = iss)
    (hp : (drdPop c s && k == s.cur.op) = pop) : OpAt c s i k iss pop := by
  have hp1 : (drdPop c s && s.cur.finish && k == s.cur.op) = (pop && s.cur.finish) := by
    rw [← hp]; cases drdPop c s <;> cases s.cur.finish <;> cases k == s.cur.op <;> rfl
  have hp2 : (drdPop c s && s.cur.error != 0 && k == s.cur.op) = (pop && s.cur.error != 0) := by
    rw [← hp]; cases drdPop c s <;> cases s.cur.error != 0 <;> cases k == s.cur.op <;> rfl
  have hO : (drdNext c s i).ops = drdOpsStep c s i := rfl
  have hfst : iss = true → k = s.opTag := by
    intro h'; rw [← hi] at h'; simp only [Bool.and_eq_true, beq_iff_eq] at h'; exact h'.2
  refine ⟨?_, ?_, ?_, ?_, ?_, ?_, ?_, ?_, ?_⟩ <;> rw [hO] <;> unfold drdOpsStep <;> dsimp only <;> rw [hin]
  · simp only [Bool.not_false, Bool.true_and, ha, Bool.false_eq_true, if_false]
  · simp only [Bool.false_eq_true, if_false, ha]
  · simp only [Bool.false_eq_true, if_false, hi]
  · simp only [Bool.not_false, Bool.true_and, hi]
  · simp only [Bool.false_eq_true, if_false, hi]
    cases hh : iss with
    | false => rfl
    | true => rw [← hfst hh]; simp
  · simp only [Bool.false_eq_true, if_false, hp1]
  · simp only [Bool.false_eq_true, if_false, ha]
  · simp only [Bool.false_eq_true, if_false, hp2]
  · simp only [Bool.not_false, Bool.true_and, hp2]

/-- One cycle. -/
theorem op_step {c : DrdCfg} {opOf : Nat → Nat} {s : Drd} {i : DrdIn} {f f1 f3 : RdEnv} {n : Nat} {A : List Nat}
    (h : OpInv c opOf s f n A) (hI : DrdInv c opOf s f) (hre : ReqEv c opOf s i f f1 f3) (he3 : f3.evs = f1.evs)
    (ht : f1.todo = f.todo) (hcn : f1.count = f.count) (hb : BeatOut f f1) (hn : n ≤ f.evs.length)
    (hpop : PopEv c opOf s f.evs n) :
    ∃ A', OpInv c opOf (drdNext c s i) f3 (n + (drdPop c s).toNat) A' := by
  obtain ⟨A', a1, a2, a3⟩ := op_active h hre hpop
  obtain ⟨r1, r2⟩ := op_flow h hI hre a2 a1
  have hev1 := evInv_beat h.ev hb ht hcn
  have hev : EvInv f3 := evInv_todo hev1 (hre.todo ht hcn) he3
  obtain ⟨E, e1, e2⟩ := beat_evs hb
  have hE : f3.evs = f.evs ++ E := by rw [he3, e1]
  obtain ⟨_, _, iN, i4, _, io, _⟩ := init_step hI.init
  have hI' : (drdNext c s i).init = drdInitStep c s.init := rfl
  have hc3 : f3.count = f.count + (drdAccept s i).toNat := by
    cases hre with
    | issue _ _ _ _ ha _ _ _ _ _ _ _ _ _ h4 => rw [h4, ha]; rfl
    | accept _ ha _ _ _ _ _ _ _ _ h4 => rw [h4, ha]; rfl
    | none _ ha _ _ _ _ h3 => rw [h3, ha]; rfl
  have hzero : (drdNext c s i).init.done = false → f3.count = 0 := by
    intro hd
    rw [hI'] at hd
    have hd := i4 hd
    have hq := hI.quiet hd
    have : drdAccept s i = false := by unfold drdAccept; rw [hq.ready]; simp
    rw [hc3, h.zero hd, this]; rfl
  have hcl : n + (drdPop c s).toNat ≤ f.evs.length := by
    by_cases hp : drdPop c s = true
    · obtain ⟨v, l, h1, -⟩ := hpop hp
      have := congrArg List.length h1
      rw [List.length_drop, List.length_cons] at this
      rw [hp, Bool.toNat_true]; omega
    · have : drdPop c s = false := by simpa using hp
      rw [this]; exact hn
  have hdrop : f3.evs.drop (n + (drdPop c s).toNat) = f.evs.drop (n + (drdPop c s).toNat) ++ E := by
    rw [hE, List.drop_append_of_le_length hcl]
  have htake : f3.evs.take (n + (drdPop c s).toNat) = f.evs.take (n + (drdPop c s).toNat) := by
    rw [hE, List.take_append_of_le_length hcl]
  -- the limits of the counters
  have hlt' : ∀ t < opN c (drdNext c s i).init, (drdNext c s i).ops.cntS t < 2 ^ (c.tagW + 1) ∧
      (drdNext c s i).ops.cntF t < 2 ^ (c.tagW + 1) := by
    intro t htt
    have hM := Nat.two_pow_pos (c.tagW + 1)
    have hO : (drdNext c s i).ops = drdOpsStep c s i := rfl
    rw [hI', iN] at htt
    have hml : ∀ a, a % 2 ^ (c.tagW + 1) < 2 ^ (c.tagW + 1) := fun a => Nat.mod_lt _ hM
    by_cases hT : s.init.op = true
    · have hlt := (io hT).2
      have hN : opN c s.init = s.init.count := by unfold opN; rw [if_pos hT]
      rw [hO]; unfold drdOpsStep; dsimp only
      rw [hT] at htt ⊢
      rw [hN, Bool.toNat_true] at htt
      simp only [if_true]
      rw [Nat.mod_eq_of_lt hlt]
      by_cases hk : t = s.init.count
      · simp [hk, hM]
      · have := h.lt t (by rw [hN]; omega)
        have hk' : (t == s.init.count) = false := by simpa using hk
        rw [hk']; simpa using this
    · have hT : s.init.op = false := by simpa using hT
      rw [hT, Bool.toNat_false, Nat.add_zero] at htt
      obtain ⟨l1, l2⟩ := h.lt t htt
      rw [hO]; unfold drdOpsStep; dsimp only
      rw [hT]
      simp only [Bool.false_eq_true, if_false]
      constructor
      · split
        · split
          · exact l2
          · exact hml _
        · exact l1
      · split
        · exact hml _
        · exact l2
  by_cases hT : s.init.op = true
  · -- initialisation
    have hd := (io hT).1
    have hf0 := h.zero hd
    have hq := hI.quiet hd
    have hacc : drdAccept s i = false := by unfold drdAccept; rw [hq.ready]; simp
    have hf3 : f3.count = 0 := by rw [hc3, hf0, hacc]; rfl
    have hev0 : ∀ v ∈ f3.evs, False := fun v hv => by have := hev.evlt v hv; omega
    have hout0 : ∀ v ∈ f3.out, False := fun v hv => by have := hev.outlt v hv; omega
    have htodo0 : ∀ v ∈ f3.todo, False := fun v hv => by have := hev.todolt v hv; omega
    have hA0 : ∀ m ∈ A', False := by
      intro m hm
      rcases (a3 m).1 hm with ⟨h1, -⟩ | ⟨h1, -⟩
      · have := h.alt m h1; omega
      · rw [hacc] at h1; simp at h1
    exact ⟨A', hev, hzero, r1, r2, fun m hm => (hA0 m hm).elim, fun t ht => (htodo0 t ht).elim, fun t ht => (hout0 t ht).elim,
      fun v hv => (hev0 v (List.mem_of_mem_drop hv)).elim, hlt', fun m hm => (hA0 m hm).elim, fun m hm => (hA0 m hm).elim,
      fun m hm => (hA0 m hm).elim, fun t ht => (htodo0 t ht).elim, fun t ht => (hout0 t ht).elim,
      fun v hv => (hev0 v (List.mem_of_mem_drop hv)).elim⟩
  have hT : s.init.op = false := by simpa using hT
  -- descriptors other than the new one
  have hinj : ∀ {a b}, a ∈ A → b ∈ A → opOf a = opOf b → a = b := fun ha hb' he => map_count_inj h.le ha hb' he
  have hnew : drdAccept s i = true → ∀ m ∈ A, opOf m ≠ s.opTag := by
    intro ha m hm he
    have h0 : 0 < (A.map opOf).count s.opTag := List.count_pos_iff.2 (List.mem_map.2 ⟨m, hm, he⟩)
    have := h.cnt s.opTag
    cases hre with
    | issue _ _ _ _ ha' => rw [ha'] at ha; simp at ha
    | accept _ _ _ hs _ hv =>
      rw [hs, hv] at this
      simp only [Bool.not_false, Bool.and_self, beq_self_eq_true, Bool.toNat_true] at this
      split at this <;> omega
    | none _ ha' => rw [ha'] at ha; simp at ha
  have hcur : drdPop c s = true → ∃ v l, f.evs.drop n = v :: l ∧ EntryRel c opOf s.cur v ∧ v.num ∈ A := by
    intro hp
    obtain ⟨v, l, h1, h2, -⟩ := hpop hp
    exact ⟨v, l, h1, h2, h.aev v (by rw [h1]; simp)⟩
  -- one descriptor in a cycle
  have hone : ∀ m ∈ A, ∃ iss pop : Bool, OpAt c s i (opOf m) iss pop ∧
      outN f3.out m + finN (f3.evs.drop (n + (drdPop c s).toNat)) m + (pop && s.cur.finish).toNat =
        outN f.out m + finN (f.evs.drop n) m + iss.toNat ∧
      ((∃ t ∈ f3.todo, t.num = m ∧ t.off = 0) ↔ (∃ t ∈ f.todo, t.num = m ∧ t.off = 0) ∧ iss = false) ∧
      todoN f3 m = (if iss then !(drdReqSize c s).last else todoN f m) ∧
      rdError (f3.evs.take (n + (drdPop c s).toNat)) m = (if pop && s.cur.error != 0 then s.cur.error else rdError (f.evs.take n) m) ∧
      (pop = true → ∃ v ∈ f.evs, v.num = m) := by
    intro m hm
    have hmlt := h.alt m hm
    -- popped
    have hP : ∃ pop : Bool, (drdPop c s && opOf m == s.cur.op) = pop ∧
        finN (f.evs.drop n) m = finN (f.evs.drop (n + (drdPop c s).toNat)) m + (pop && s.cur.finish).toNat ∧
        rdError (f.evs.take (n + (drdPop c s).toNat)) m = (if pop && s.cur.error != 0 then s.cur.error else rdError (f.evs.take n) m) ∧
        (pop = true → ∃ v ∈ f.evs, v.num = m) := by
      by_cases hp : drdPop c s = true
      · obtain ⟨v, l, h1, h2, h3⟩ := hcur hp
        have hev' : f.evs = f.evs.take n ++ v :: l := by rw [← h1, List.take_append_drop]
        have hdr : f.evs.drop (n + 1) = l := by
          rw [Nat.add_comm, ← List.drop_drop, List.drop_drop, Nat.add_comm, ← List.drop_drop, h1]; rfl
        have htk : f.evs.take (n + 1) = f.evs.take n ++ [v] := by
          have hlt : n < f.evs.length := by
            have := congrArg List.length h1
            rw [List.length_drop, List.length_cons] at this; omega
          rw [List.take_add_one]
          congr 1
          have : f.evs[n]? = some v := by
            have := congrArg List.head? h1
            rw [List.head?_drop] at this; exact this
          rw [this]; rfl
        have hk : (opOf m == s.cur.op) = (v.num == m) := by
          rw [h2.op, Bool.eq_iff_iff, beq_iff_eq, beq_iff_eq]
          exact ⟨fun he => hinj h3 hm he.symm, fun he => by rw [he]⟩
        refine ⟨v.num == m, by rw [hp, hk]; rfl, ?_, ?_, fun he => ⟨v, by rw [hev']; simp, by simpa using he⟩⟩
        · rw [hp, Bool.toNat_true, h1, hdr, finN_cons, h2.fin, Bool.and_comm]; omega
        · rw [hp, Bool.toNat_true, htk, rdError_snoc, h2.err]
          by_cases hvm : v.num = m <;> simp [hvm]
      · have hp : drdPop c s = false := by simpa using hp
        exact ⟨false, by rw [hp]; rfl, by rw [hp]; rfl, by rw [hp]; rfl, by simp⟩
    obtain ⟨pop, p1, p2, p3, p4⟩ := hP
    have hac : (drdAccept s i && opOf m == s.opTag) = false := by
      rw [Bool.eq_false_iff]; intro h'; simp only [Bool.and_eq_true, beq_iff_eq] at h'; exact hnew h'.1 m hm h'.2
    have hO1 := e2 m
    have hsum : finN (f3.evs.drop (n + (drdPop c s).toNat)) m = finN (f.evs.drop (n + (drdPop c s).toNat)) m + finN E m := by
      rw [hdrop, finN_append]
    rw [htake]
    cases hre with
    | issue d off z hi ha hr hs hs' hz hc0 ho h1 h2 h3 h4 =>
      have hmem : f.count - 1 ∈ A := h.atodo ⟨f.count - 1, d, off⟩ (by rw [h1]; simp)
      have hk : (opOf m == s.opTag) = (f.count - 1 == m) := by
        rw [← ho, Bool.eq_iff_iff, beq_iff_eq, beq_iff_eq]
        exact ⟨fun he => hinj hmem hm he.symm, fun he => by rw [he]⟩
      refine ⟨f.count - 1 == m, pop, op_at hT hac (by rw [hi, hk]; rfl) p1, ?_, ?_, ?_, p3, p4⟩
      · rw [h2, outN_append, outN_cons, hsum]
        have : outN [] m = 0 := rfl
        simp only
        omega
      · rw [h3, h1]
        cases (drdReqSize c s).last <;> simp <;> omega
      · unfold todoN
        rw [h3, h1]
        cases (drdReqSize c s).last <;> cases hh : (f.count - 1 == m) <;> simp [hh] <;> simpa using hh
    | accept hi ha hr hs hs' hv ho h1 h2 h3 h4 =>
      refine ⟨false, pop, op_at hT hac (by rw [hi]; rfl) p1, ?_, ?_, ?_, p3, p4⟩
      · rw [h2, hsum]
        simp only [Bool.toNat_false]
        omega
      · rw [h3, h1]; simp; omega
      · unfold todoN; rw [h3, h1]; simp; omega
    | none hi ha hr hs' h1 h2 h3 =>
      refine ⟨false, pop, op_at hT hac (by rw [hi]; rfl) p1, ?_, ?_, ?_, p3, p4⟩
      · rw [h2, hsum]
        simp only [Bool.toNat_false]
        omega
      · rw [h1]; simp
      · unfold todoN; rw [h1]; simp
  -- completed descriptors are no longer referred to
  have hgone : ∀ m, (drdOpDone c s = true ∧ ∃ v l, f.evs.drop n = v :: l ∧ v.num = m) →
      todoN f3 m = false ∧ outN f3.out m = 0 ∧ ∀ v ∈ f3.evs.drop (n + (drdPop c s).toNat), v.num ≠ m := by
    rintro m ⟨hd, v, l, h1, h2⟩
    have hp : drdPop c s = true := by unfold drdOpDone at hd; simp only [Bool.and_eq_true] at hd; exact hd.1.1.1
    obtain ⟨v', l', h1', h2', h3'⟩ := hpop hp
    rw [h1] at h1'
    injection h1' with q1 q2
    subst q1; subst q2
    rw [hd] at h3'
    have hsplit : f3.evs = f.evs.take n ++ v :: (l ++ E) := by
      rw [hE]
      conv => lhs; rw [← List.take_append_drop n f.evs, h1]
      simp
    obtain ⟨_, g2, g3, _⟩ := (hev.dec _ _ _ hsplit).1 h3'.symm
    have g4 := hev.later _ _ _ hsplit h3'.symm
    rw [h2] at g2 g3 g4
    refine ⟨g2, g3, fun w hw => g4 w ?_⟩
    have : f3.evs.drop (n + (drdPop c s).toNat) = l ++ E := by
      rw [hdrop, hp, Bool.toNat_true, ← List.drop_drop, h1]; rfl
    rw [this] at hw; exact hw
  have htodom : ∀ t ∈ f3.todo, t.num ∈ A ∨ (drdAccept s i = true ∧ t.num = f.count) := by
    intro t htm
    cases hre with
    | issue d off z hi ha hr hs hs' hz hc0 ho h1 h2 h3 h4 =>
      left
      have hmem : f.count - 1 ∈ A := h.atodo ⟨f.count - 1, d, off⟩ (by rw [h1]; simp)
      rw [h3] at htm
      simp at htm
      rw [htm.2]; exact hmem
    | accept hi ha hr hs hs' hv ho h1 h2 h3 h4 =>
      right; rw [h3] at htm; simp at htm; rw [htm]; exact ⟨ha, rfl⟩
    | none hi ha hr hs' h1 h2 h3 => left; rw [h1] at htm; exact h.atodo t htm
  have hadv : ∀ r' ∈ f1.out, ∃ r ∈ f.out, r'.num = r.num ∧ r'.d = r.d := by
    intro r' hr'
    obtain ⟨r, q1, q2⟩ := beat_mem hb hI.wf hr'
    exact ⟨r, q1, q2.num, q2.d⟩
  have houtm : ∀ r ∈ f3.out, r.num ∈ A := by
    intro r hr
    have hold : ∀ r ∈ f1.out, r.num ∈ A := by
      intro r hr
      obtain ⟨r0, q1, q2, -⟩ := hadv r hr
      rw [q2]; exact h.aout r0 q1
    cases hre with
    | issue d off z hi ha hr' hs hs' hz hc0 ho h1 h2 h3 h4 =>
      have hmem : f.count - 1 ∈ A := h.atodo ⟨f.count - 1, d, off⟩ (by rw [h1]; simp)
      rw [h2, List.mem_append, List.mem_singleton] at hr
      rcases hr with hr | hr
      · exact hold r hr
      · rw [hr]; exact hmem
    | accept hi ha hr' hs hs' hv ho h1 h2 h3 h4 => rw [h2] at hr; exact hold r hr
    | none hi ha hr' hs' h1 h2 h3 => rw [h2] at hr; exact hold r hr
  have hEv : ∀ v ∈ E, ∃ r ∈ f.out, v.num = r.num ∧ ∀ x, v.status = some x → x.1 = r.d.tag := by
    intro v hv
    rcases hb with ⟨-, -, hb3⟩ | ⟨l1, l2, r, w, hb⟩
    · rw [hb3] at e1
      have := List.append_cancel_left (as := f.evs) (bs := []) (cs := E) (by simpa using e1)
      rw [← this] at hv; simp at hv
    · have e1' := hb.evs
      rw [e1] at e1'
      have := List.append_cancel_left e1'
      rw [this, List.mem_singleton] at hv
      subst hv
      refine ⟨r, by rw [hb.out]; simp, hb.num, fun x hx => ?_⟩
      rw [hb.status] at hx
      split at hx
      · simp only [Option.some.injEq] at hx; rw [← hx]
      · simp at hx
  have hevm : ∀ v ∈ f3.evs.drop (n + (drdPop c s).toNat), v.num ∈ A := by
    intro v hv
    rw [hdrop, List.mem_append] at hv
    rcases hv with hv | hv
    · refine h.aev v ?_
      rw [← List.drop_drop] at hv
      exact List.mem_of_mem_drop hv
    · obtain ⟨r, q1, q2, -⟩ := hEv v hv
      rw [q2]; exact h.aout r q1
  have htodo_t : ∀ t ∈ f3.todo, todoN f3 t.num = true := by
    intro t htm; unfold todoN; rw [List.any_eq_true]; exact ⟨t, htm, by simp⟩
  have hout_t : ∀ r ∈ f3.out, outN f3.out r.num ≠ 0 := by
    intro r hr h0; exact outN_zero.1 h0 r hr rfl
  -- the new descriptor
  have hnewop : drdAccept s i = true → opOf f.count = s.opTag ∧ f3.todo = [⟨f.count, rdDescOf c i, 0⟩] ∧ drdIssue c s i = false := by
    intro ha
    cases hre with
    | issue _ _ _ _ ha' => rw [ha'] at ha; simp at ha
    | accept hi ha' hr hs hs' hv ho h1 h2 h3 h4 => exact ⟨ho, h3, hi⟩
    | none _ ha' => rw [ha'] at ha; simp at ha
  have htagsame : ∀ m ∈ A, (drdNext c s i).ops.tag (opOf m) = s.ops.tag (opOf m) := by
    intro m hm; obtain ⟨_, _, q, _⟩ := hone m hm; exact q.tag
  have hO : (drdNext c s i).ops = drdOpsStep c s i := rfl
  have hcurne : drdAccept s i = true → (drdPop c s && opOf f.count == s.cur.op) = false := by
    intro ha
    rw [Bool.eq_false_iff]; intro h'; simp only [Bool.and_eq_true, beq_iff_eq] at h'
    obtain ⟨v, l, -, q2, q3⟩ := hcur h'.1
    rw [q2.op, (hnewop ha).1] at h'
    exact hnew ha v.num q3 h'.2.symm
  refine ⟨A', hev, hzero, r1, r2, ?_, ?_, ?_, ?_, hlt', ?_, ?_, ?_, ?_, ?_, ?_⟩
  · intro m hm
    rw [hc3]
    rcases (a3 m).1 hm with ⟨h1, -⟩ | ⟨h1, h2⟩
    · have := h.alt m h1; omega
    · rw [h1, h2, Bool.toNat_true]; omega
  · intro t htm
    rw [a3]
    rcases htodom t htm with h1 | h1
    · left
      refine ⟨h1, fun hg => ?_⟩
      have := (hgone _ hg).1
      rw [htodo_t t htm] at this; simp at this
    · exact .inr h1
  · intro r hr
    rw [a3]
    left
    exact ⟨houtm r hr, fun hg => hout_t r hr (hgone _ hg).2.1⟩
  · intro v hv
    rw [a3]
    left
    exact ⟨hevm v hv, fun hg => (hgone _ hg).2.2 v hv rfl⟩
  · intro m hm
    rcases (a3 m).1 hm with ⟨h1, -⟩ | ⟨h1, h2⟩
    · obtain ⟨iss, pop, q, -, q2, -⟩ := hone m h1
      have := h.first m h1
      rw [q2, q.initA, q.initB, ← this]
      cases iss <;> simp
    · obtain ⟨n1, n2, n3⟩ := hnewop h1
      rw [h2, n2]
      have eA : (drdNext c s i).ops.initA (opOf f.count) = !s.ops.initB (opOf f.count) := by
        rw [hO]; unfold drdOpsStep; dsimp only; rw [hT, h1, n1]; simp
      have eB : (drdNext c s i).ops.initB (opOf f.count) = s.ops.initB (opOf f.count) := by
        rw [hO]; unfold drdOpsStep; dsimp only; rw [hT, n3]; simp
      rw [eA, eB]
      cases s.ops.initB (opOf f.count) <;> simp
  · intro m hm hAB
    rcases (a3 m).1 hm with ⟨h1, -⟩ | ⟨h1, h2⟩
    · obtain ⟨iss, pop, q, q1, q2, q3, q4, q5⟩ := hone m h1
      have hlt := h.lt _ (h.op_lt h1)
      have hM := Nat.two_pow_pos (c.tagW + 1)
      have hF : (drdNext c s i).ops.cntF (opOf m) % 2 ^ (c.tagW + 1) =
          (s.ops.cntF (opOf m) + (pop && s.cur.finish).toNat) % 2 ^ (c.tagW + 1) := by
        rw [q.cntF]; cases pop && s.cur.finish <;> simp
      by_cases hfr : s.ops.initA (opOf m) = s.ops.initB (opOf m)
      · obtain ⟨g1, g2⟩ := h.num m h1 hfr
        constructor
        · refine num_arith g1 q1 ?_ hF
          rw [q.cntS, hfr]
          cases iss <;> simp
        · rw [q.commit, q3, g2]; cases iss <;> simp
      · have hiss : iss = true := by
          rw [q.initA, q.initB] at hAB
          cases iss
          · exact absurd hAB hfr
          · rfl
        obtain ⟨t, t1, t2, t3⟩ := (h.first m h1).1 hfr
        obtain ⟨g1, g2⟩ := h.ev.fresh t t1 t3
        rw [t2] at g1 g2
        have hpf : pop = false := by
          rw [Bool.eq_false_iff]; intro hpt
          obtain ⟨v, v1, v2⟩ := q5 hpt
          exact g2 v v1 v2
        have hfin : finN (f.evs.drop n) m = 0 := by
          unfold finN; rw [List.countP_eq_zero]
          intro v hv; have := g2 v (List.mem_of_mem_drop hv); simp [this]
        rw [hiss, hpf, g1, hfin] at q1
        constructor
        · rw [q.cntS, q.cntF, hiss, hpf]
          simp only [if_true, Bool.false_and, Bool.false_eq_true, if_false, Bool.toNat_false, Bool.toNat_true] at q1 ⊢
          rw [if_pos (fun h' => hfr h'.symm)]
          congr 2
          omega
        · rw [q.commit, q3, hiss]; simp
    · obtain ⟨n1, n2, n3⟩ := hnewop h1
      rw [h2] at hAB
      have eA : (drdNext c s i).ops.initA (opOf f.count) = !s.ops.initB (opOf f.count) := by
        rw [hO]; unfold drdOpsStep; dsimp only; rw [hT, h1, n1]; simp
      have eB : (drdNext c s i).ops.initB (opOf f.count) = s.ops.initB (opOf f.count) := by
        rw [hO]; unfold drdOpsStep; dsimp only; rw [hT, n3]; simp
      rw [eA, eB] at hAB
      cases hh : s.ops.initB (opOf f.count) <;> rw [hh] at hAB <;> simp at hAB
  · intro m hm
    rcases (a3 m).1 hm with ⟨h1, -⟩ | ⟨h1, h2⟩
    · obtain ⟨iss, pop, q, q1, q2, q3, q4, q5⟩ := hone m h1
      have := h.err m h1
      rw [q4, q.errA, q.errB, q.errCode, ← this]
      cases hx : (pop && s.cur.error != 0) with
      | false => simp
      | true => cases s.ops.errA (opOf m) <;> simp
    · obtain ⟨n1, n2, n3⟩ := hnewop h1
      have hc := hcurne h1
      rw [h2, htake]
      have eA : (drdNext c s i).ops.errA (opOf f.count) = s.ops.errB (opOf f.count) := by
        rw [hO]; unfold drdOpsStep; dsimp only; rw [hT, h1, n1]; simp
      have eB : (drdNext c s i).ops.errB (opOf f.count) = s.ops.errB (opOf f.count) := by
        rw [hO]; unfold drdOpsStep; dsimp only; rw [hT]
        have : (drdPop c s && s.cur.error != 0 && opOf f.count == s.cur.op) = false := by
          cases h1 : drdPop c s <;> cases h2 : s.cur.error != 0 <;> rw [h1] at hc <;> simp at hc ⊢; exact hc
        rw [this]; simp
      rw [eA, eB]
      simp only [ne_eq, not_true_eq_false, if_false]
      have hz : ∀ l : List RdEvent, (∀ v ∈ l, v.num ≠ f.count) → rdError l f.count = 0 := by
        intro l hl
        unfold rdError
        have : ∀ a, l.foldl (fun a v => if v.num = f.count ∧ v.error ≠ 0 then v.error else a) a = a := by
          induction l with
          | nil => intro a; rfl
          | cons v l ih =>
            intro a
            rw [List.foldl_cons, if_neg (fun h' => hl v (by simp) h'.1)]
            exact ih (fun w hw => hl w (by simp [hw])) a
        exact this 0
      refine (hz _ fun v hv => ?_).symm
      have := h.ev.evlt v (List.mem_of_mem_take hv)
      omega
  · intro t htm
    by_cases ha : drdAccept s i = true
    · obtain ⟨n1, n2, n3⟩ := hnewop ha
      rw [n2, List.mem_singleton] at htm
      rw [htm]
      simp only
      rw [hO]; unfold drdOpsStep; dsimp only; rw [hT, ha, n1]; simp [rdDescOf]
    · cases hre with
      | issue d off z hi ha' hr hs hs' hz hc0 ho h1 h2 h3 h4 =>
        have hmem : (⟨f.count - 1, d, off⟩ : RdTodo) ∈ f.todo := by rw [h1]; simp
        rw [h3] at htm
        simp at htm
        rw [htm.2]
        simp only
        rw [htagsame _ (h.atodo _ hmem)]
        exact h.tagT _ hmem
      | accept _ ha' => exact absurd ha' ha
      | none hi ha' hr hs' h1 h2 h3 =>
        rw [h1] at htm
        rw [htagsame _ (h.atodo _ htm)]
        exact h.tagT _ htm
  · intro r hr
    rw [htagsame _ (houtm r hr)]
    have hold : ∀ r ∈ f1.out, s.ops.tag (opOf r.num) = r.d.tag := by
      intro r hr
      obtain ⟨r0, q1, q2, q3⟩ := hadv r hr
      rw [q2, q3]; exact h.tagO r0 q1
    cases hre with
    | issue d off z hi ha hr' hs hs' hz hc0 ho h1 h2 h3 h4 =>
      have hmem : (⟨f.count - 1, d, off⟩ : RdTodo) ∈ f.todo := by rw [h1]; simp
      rw [h2, List.mem_append, List.mem_singleton] at hr
      rcases hr with hr | hr
      · exact hold r hr
      · rw [hr]; exact h.tagT _ hmem
    | accept hi ha hr' hs hs' hv ho h1 h2 h3 h4 => rw [h2] at hr; exact hold r hr
    | none hi ha hr' hs' h1 h2 h3 => rw [h2] at hr; exact hold r hr
  · intro v hv x hx
    rw [htagsame _ (hevm v hv)]
    rw [hdrop, List.mem_append] at hv
    rcases hv with hv | hv
    · refine h.tagE v ?_ x hx
      rw [← List.drop_drop] at hv
      exact List.mem_of_mem_drop hv
    · obtain ⟨r, q1, q2, q3⟩ := hEv v hv
      rw [q2, q3 x hx]; exact h.tagO r q1

end Verif.Proofs
