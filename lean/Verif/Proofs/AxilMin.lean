import Verif.Spec.AxilMin
import Verif.Proofs.Ring
/-! The minimal AXI lite master: invariant. -/
namespace Verif.Proofs
open Verif Verif.Model Verif.Spec

/-- The address for a write. -/
def axmAwOf (c : AxmCfg) (i : AxmIn) : Option Nat :=
  if axmKind i.rxHdr = .write then some (axmAddr c i.rxHdr % 2 ^ c.addrW) else none

/-- Data and strobe for a write. -/
def axmWOf (i : AxmIn) : Option (Nat × Nat) := if axmKind i.rxHdr = .write then some (i.rxData, axmBe i.rxHdr) else none

/-- The address for a read. -/
def axmArOf (c : AxmCfg) (i : AxmIn) : Option Nat :=
  if axmKind i.rxHdr = .read then some (axmAddr c i.rxHdr % 2 ^ c.addrW) else none

/-- The response of a request. -/
def axmRsp (c : AxmCfg) (i : AxmIn) : Option AxmResp := if axmHasResp i.rxHdr then some (axmRespOf c i.rxHdr) else none

/-- The completion of a response with data and completer ID. -/
def axmOutOf (x : AxmResp × Nat × Nat) : Option (TlpHdr × Nat × Nat) :=
  if x.1.read then some (axmHdr x.1 x.2.2, 1, x.2.1) else if x.1.write then none else some (axmHdr x.1 x.2.2, 0, 0)

/-- Invariant. -/
structure AxmInv (c : AxmCfg) (P : Nat → Prop) (s : Axm) (reqs : List AxmIn) (aws : List Nat) (ws : List (Nat × Nat)) (ars rs : List Nat)
    (nb : Nat) (sent : List (TlpHdr × Nat × Nat)) (done : List (AxmResp × Nat × Nat)) : Prop where
  idle : s.wait = false → s.rxReady = true → s.awV = false ∧ s.wV = false ∧ s.arV = false
  excl : s.arV = true → s.awV = false ∧ s.wV = false
  aw : aws ++ (if s.awV then [s.addr] else []) = reqs.filterMap (axmAwOf c)
  w : ws ++ (if s.wV then [(s.wdata, s.wstrb)] else []) = reqs.filterMap axmWOf
  ar : ars ++ (if s.arV then [s.addr] else []) = reqs.filterMap (axmArOf c)
  ring : RingOk 5 s.fifo
  cnt : ringCount 5 s.fifo ≤ 18
  half : s.half = false → ringCount 5 s.fifo ≤ 16
  space : s.wait = false → s.rxReady = true → ringCount 5 s.fifo ≤ 17
  resp : done.map (·.1) ++ (if s.rdV then [s.rd] else []) ++ ringList 5 s.fifo = reqs.filterMap (axmRsp c)
  out : sent ++ (if s.txV then [(s.tx, s.txStrb, s.txData)] else []) = done.filterMap axmOutOf
  rs : rs = (done.filter (·.1.read)).map (·.2.1)
  cids : ∀ x ∈ done, P x.2.2
  nb : nb = done.countP (fun x => !x.1.read && x.1.write)
  st : s.st ≠ .idle → s.rdV = true
  stR : s.st = .read → s.rd.read = true
  stW : s.st = .write → s.rd.read = false ∧ s.rd.write = true
  stC : s.st = .cpl → s.rd.read = false ∧ s.rd.write = false
  rr : s.rReady = true → s.st = .read ∧ s.txV = false
  br : s.bReady = true → s.st = .write

theorem axmReset_inv (c : AxmCfg) (P : Nat → Prop) (s : Axm) (r : AxmIn) (hr : r.rst = true) :
    AxmInv c P (axmStep c s r) [] [] [] [] [] 0 [] [] := by
  have hf : (axmStep c s r).fifo = ringReset (axmNext c s r).fifo := by unfold axmStep; rw [hr]; rfl
  have h0 : ringCount 5 (axmStep c s r).fifo = 0 := by rw [hf]; simp [ringCount, ringReset]
  have hl : ringList 5 (axmStep c s r).fifo = [] := List.eq_nil_of_length_eq_zero (by rw [ringList_length, h0])
  have hk : RingOk 5 (axmStep c s r).fifo := by
    rw [hf] at h0 ⊢
    exact ⟨by simp [ringReset], by simp [ringReset], by omega⟩
  have f1 : (axmStep c s r).awV = false := by unfold axmStep; rw [hr]; rfl
  have f2 : (axmStep c s r).wV = false := by unfold axmStep; rw [hr]; rfl
  have f3 : (axmStep c s r).arV = false := by unfold axmStep; rw [hr]; rfl
  have f4 : (axmStep c s r).rdV = false := by unfold axmStep; rw [hr]; rfl
  have f5 : (axmStep c s r).txV = false := by unfold axmStep; rw [hr]; rfl
  have f6 : (axmStep c s r).st = .idle := by unfold axmStep; rw [hr]; rfl
  have f7 : (axmStep c s r).rReady = false := by unfold axmStep; rw [hr]; rfl
  have f8 : (axmStep c s r).bReady = false := by unfold axmStep; rw [hr]; rfl
  refine ⟨fun _ _ => ⟨f1, f2, f3⟩, fun h => ?_, ?_, ?_, ?_, hk, by omega, fun _ => by omega, fun _ _ => by omega, ?_, ?_, rfl, by simp, rfl, ?_, ?_, ?_, ?_, ?_, ?_⟩
  · rw [f3] at h; cases h
  all_goals simp [f1, f2, f3, f4, f5, f6, f7, f8, hl]

/-- A FIFO with a write and a read. -/
theorem ringMove_ok {α : Type} (aw : Nat) (r : Ring α) (we : Bool) (x : α) (rd : Bool) (h : RingOk aw r)
    (hw : we = true → ringCount aw r < 2 ^ aw) (hr : rd = true → 0 < ringCount aw r) :
    RingOk aw (ringMove aw r we x rd) ∧ ringCount aw (ringMove aw r we x rd) = ringCount aw r + we.toNat - rd.toNat ∧
    (if rd then [ringHead aw r] else []) ++ ringList aw (ringMove aw r we x rd) = ringList aw r ++ if we then [x] else [] := by
  cases we with
  | false =>
    cases rd with
    | false => exact ⟨h, rfl, by simp [ringMove]⟩
    | true =>
      obtain ⟨h1, h2, h3⟩ := ring_pop aw r h (hr rfl)
      refine ⟨h1, ?_, ?_⟩
      · show ringCount aw (ringPop aw r) = _
        simp; omega
      · show [ringHead aw r] ++ ringList aw (ringPop aw r) = _
        simp [h3]
  | true =>
    obtain ⟨g1, g2, g3⟩ := ring_push aw r x h (hw rfl)
    cases rd with
    | false => exact ⟨g1, by simpa [ringMove] using g2, by simpa [ringMove] using g3⟩
    | true =>
      obtain ⟨h1, h2, h3⟩ := ring_pop aw _ g1 (by omega)
      have h0 := (ring_pop aw r h (hr rfl)).2.2
      have hh : ringHead aw (ringPush aw r x) = ringHead aw r := by
        have := g3.symm.trans h3
        rw [h0] at this
        simp at this
        exact this.1.symm
      refine ⟨h1, ?_, ?_⟩
      · show ringCount aw (ringPop aw (ringPush aw r x)) = _
        simp; omega
      · show [ringHead aw r] ++ ringList aw (ringPop aw (ringPush aw r x)) = _
        rw [← hh]
        simp only [if_true, ← g3, h3, List.singleton_append]

theorem axm_inv_step {c : AxmCfg} {P : Nat → Prop} {s : Axm} {reqs : List AxmIn} {aws : List Nat} {ws : List (Nat × Nat)} {ars rs : List Nat}
    {nb : Nat} {sent : List (TlpHdr × Nat × Nat)} {done : List (AxmResp × Nat × Nat)} (h : AxmInv c P s reqs aws ws ars rs nb sent done)
    (i : AxmIn) (hi : i.rst = false) (hcid : P i.cid) :
    AxmInv c P (axmStep c s i) (reqs ++ if axmHead s i then [i] else []) (aws ++ if s.awV && i.awReady then [s.addr] else [])
      (ws ++ if s.wV && i.wReady then [(s.wdata, s.wstrb)] else []) (ars ++ if s.arV && i.arReady then [s.addr] else [])
      (rs ++ if s.rReady && i.rValid then [i.rData] else []) (nb + (s.bReady && i.bValid).toNat)
      (sent ++ if s.txV && i.txReady then [(s.tx, s.txStrb, s.txData)] else [])
      (done ++ if axmDone s i then [(s.rd, i.rData, i.cid)] else []) := by
  have hs : axmStep c s i = axmNext c s i := by unfold axmStep; rw [hi]; rfl
  rw [hs]
  -- the request side
  have hidle : axmHead s i = true → s.awV = false ∧ s.wV = false ∧ s.arV = false ∧ s.wait = false ∧ s.rxReady = true := by
    intro hh
    simp only [axmHead, Bool.and_eq_true, Bool.not_eq_true'] at hh
    obtain ⟨h1, h2, h3⟩ := h.idle hh.1.1.1 hh.1.1.2
    exact ⟨h1, h2, h3, hh.1.1.1, hh.1.1.2⟩
  have hR : axmRTake s i = (s.rReady && i.rValid) := by
    unfold axmRTake
    cases hr : s.rReady with
    | false => simp
    | true => simp [(h.rr hr).1]
  have hB : axmBTake s i = (s.bReady && i.bValid) := by
    unfold axmBTake
    cases hr : s.bReady with
    | false => simp
    | true => simp [h.br hr]
  -- the FIFO
  have hfe : axmFetch s i = true → 0 < ringCount 5 s.fifo := by
    intro hh
    simp only [axmFetch, Bool.and_eq_true, Bool.not_eq_true', ring_empty 5 _ h.ring, decide_eq_false_iff_not] at hh
    omega
  have hpu : (axmHead s i && axmHasResp i.rxHdr) = true → ringCount 5 s.fifo < 2 ^ 5 := by
    intro _; have := h.cnt; omega
  obtain ⟨r1, r2, r3⟩ := ringMove_ok 5 s.fifo (axmHead s i && axmHasResp i.rxHdr) (axmRespOf c i.rxHdr) (axmFetch s i) h.ring hpu hfe
  have hF : (axmNext c s i).fifo = ringMove 5 s.fifo (axmHead s i && axmHasResp i.rxHdr) (axmRespOf c i.rxHdr) (axmFetch s i) := rfl
  have hle : ringCount 5 (axmNext c s i).fifo ≤ ringCount 5 s.fifo + (axmHead s i && axmHasResp i.rxHdr).toNat := by rw [hF, r2]; omega
  have hb1 : (axmHead s i && axmHasResp i.rxHdr).toNat ≤ 1 := Bool.toNat_le _
  have hdv : axmDone s i = true → s.rdV = true := by
    intro hd
    apply h.st
    intro e
    simp [axmDone, axmRTake, axmBTake, axmCTake, e] at hd
  have hsp : axmSpace s i = true → (axmHead s i = true → axmKind i.rxHdr ≠ .read ∧ axmKind i.rxHdr ≠ .write) →
      (axmNext c s i).awV = false ∧ (axmNext c s i).wV = false ∧ (axmNext c s i).arV = false := by
    intro h1 h2
    simp only [axmSpace, Bool.and_eq_true, Bool.or_eq_true, Bool.not_eq_true'] at h1
    simp only [axmNext, Bool.or_eq_false_iff, Bool.and_eq_false_iff, beq_eq_false_iff_ne, Bool.not_eq_false']
    cases hh : axmHead s i with
    | false => simp; grind
    | true =>
      obtain ⟨a, b⟩ := h2 hh
      simp [a, b]; grind
  have hrn : (axmNext c s i).wait = false → (axmNext c s i).rxReady = true →
      axmSpace s i = true ∧ (axmHead s i = true → axmKind i.rxHdr ≠ .read ∧ axmKind i.rxHdr ≠ .write) := by
    intro h1 h2
    have e1 : (axmNext c s i).wait = if s.wait then !(s.rxReady && i.rxValid && i.rxEop) else axmHead s i && !i.rxEop := rfl
    have e2 : (axmNext c s i).rxReady = axmReadyNext s i := rfl
    rw [e1] at h1
    rw [e2, axmReadyNext] at h2
    cases hw : s.wait with
    | true =>
      simp only [hw, if_true, Bool.not_eq_false'] at h1 h2
      rw [h1] at h2
      simp at h2
      refine ⟨h2, fun hh => ?_⟩
      rw [(hidle hh).2.2.2.1] at hw; cases hw
    | false =>
      simp only [hw, Bool.false_eq_true, if_false] at h1 h2
      cases hh : axmHead s i with
      | false => simp [hh] at h2; exact ⟨h2, by simp⟩
      | true =>
        simp only [hh, Bool.true_and, Bool.not_eq_false', if_true] at h1 h2
        rw [h1] at h2
        simp at h2
        exact ⟨h2.1.1, fun _ => ⟨h2.1.2, h2.2⟩⟩
  have haw : (axmNext c s i).awV = ((axmHead s i && axmKind i.rxHdr == .write) || (s.awV && !i.awReady)) := rfl
  have hwv : (axmNext c s i).wV = ((axmHead s i && axmKind i.rxHdr == .write) || (s.wV && !i.wReady)) := rfl
  have har : (axmNext c s i).arV = ((axmHead s i && axmKind i.rxHdr == .read) || (s.arV && !i.arReady)) := rfl
  have had : (axmNext c s i).addr = if axmHead s i then axmAddr c i.rxHdr % 2 ^ c.addrW else s.addr := rfl
  have hwd : (axmNext c s i).wdata = if axmHead s i then i.rxData else s.wdata := rfl
  have hws : (axmNext c s i).wstrb = if axmHead s i then axmBe i.rxHdr else s.wstrb := rfl
  have hrd : (axmNext c s i).rd = if axmFetch s i then ringHead 5 s.fifo else s.rd := rfl
  have hrv : (axmNext c s i).rdV = (axmFetch s i || (s.rdV && !axmDone s i)) := rfl
  have hst : (axmNext c s i).st = axmStNext s i := rfl
  have htv : (axmNext c s i).txV = (axmRTake s i || axmCTake s i || (s.txV && !i.txReady)) := rfl
  have hfd : axmFetch s i = true → (s.rdV && !axmDone s i) = false := by
    intro hh
    simp only [axmFetch, Bool.and_eq_true, Bool.not_eq_true'] at hh
    exact hh.1
  have hsi : axmStNext s i ≠ .idle → (s.rdV = true ∧ axmDone s i = false) := by
    intro hn
    unfold axmStNext at hn
    cases hc : s.st with
    | idle =>
      rw [hc] at hn
      have hd : axmDone s i = false := by simp [axmDone, axmRTake, axmBTake, axmCTake, hc]
      refine ⟨?_, hd⟩
      cases hv : s.rdV with
      | true => rfl
      | false => simp [hv] at hn
    | _ =>
      rw [hc] at hn
      refine ⟨h.st (by rw [hc]; decide), ?_⟩
      cases hd : axmDone s i with
      | false => rfl
      | true => simp [hd] at hn
  have hkeep : axmStNext s i ≠ .idle → (axmNext c s i).rd = s.rd := by
    intro hn
    obtain ⟨h1, h2⟩ := hsi hn
    rw [hrd, if_neg]
    intro hf
    have := hfd hf
    rw [h1, h2] at this
    cases this
  refine ⟨fun h1 h2 => ?_, ?_, ?_, ?_, ?_, hF ▸ r1, ?_, ?_, ?_, ?_, ?_, ?_, ?_, ?_, ?_, ?_, ?_, ?_, ?_, ?_⟩
  · obtain ⟨a, b⟩ := hrn h1 h2
    exact hsp a b
  · -- excl
    intro h1
    rw [har] at h1
    rw [haw, hwv]
    cases hh : axmHead s i with
    | true =>
      obtain ⟨a, b, d, -⟩ := hidle hh
      simp only [hh, d, Bool.true_and, Bool.false_and, Bool.or_false, beq_iff_eq] at h1
      simp [a, b, h1]
    | false =>
      simp only [hh, Bool.false_and, Bool.false_or, Bool.and_eq_true] at h1
      obtain ⟨a, b⟩ := h.excl h1.1
      simp [a, b]
  · -- aw
    rw [haw, had, List.filterMap_append, ← h.aw]
    cases hh : axmHead s i with
    | true =>
      obtain ⟨a, b, d, -⟩ := hidle hh
      simp only [a, axmAwOf, Bool.true_and, Bool.false_and, Bool.or_false, if_true, Bool.false_eq_true, if_false, List.append_nil,
        List.filterMap_cons, List.filterMap_nil]
      by_cases hk : axmKind i.rxHdr = .write <;> simp [hk]
    | false => cases ha : s.awV <;> cases hb : i.awReady <;> simp
  · rw [hwv, hwd, hws, List.filterMap_append, ← h.w]
    cases hh : axmHead s i with
    | true =>
      obtain ⟨a, b, d, -⟩ := hidle hh
      simp only [b, axmWOf, Bool.true_and, Bool.false_and, Bool.or_false, if_true, Bool.false_eq_true, if_false, List.append_nil,
        List.filterMap_cons, List.filterMap_nil]
      by_cases hk : axmKind i.rxHdr = .write <;> simp [hk]
    | false => cases ha : s.wV <;> cases hb : i.wReady <;> simp
  · rw [har, had, List.filterMap_append, ← h.ar]
    cases hh : axmHead s i with
    | true =>
      obtain ⟨a, b, d, -⟩ := hidle hh
      simp only [d, axmArOf, Bool.true_and, Bool.false_and, Bool.or_false, if_true, Bool.false_eq_true, if_false, List.append_nil,
        List.filterMap_cons, List.filterMap_nil]
      by_cases hk : axmKind i.rxHdr = .read <;> simp [hk]
    | false => cases ha : s.arV <;> cases hb : i.arReady <;> simp
  · -- counts
    cases hh : axmHead s i with
    | true =>
      have := h.space (hidle hh).2.2.2.1 (hidle hh).2.2.2.2
      omega
    | false =>
      rw [hh] at hle
      have := h.cnt
      simp at hle; omega
  · intro h1
    have e : (axmNext c s i).half = decide (ringCount 5 s.fifo ≥ 2 ^ 4) := rfl
    rw [e, decide_eq_false_iff_not] at h1
    omega
  · intro h1 h2
    obtain ⟨a, -⟩ := hrn h1 h2
    simp only [axmSpace, Bool.and_eq_true, Bool.not_eq_true'] at a
    have := h.half a.2
    omega
  · -- responses
    rw [List.filterMap_append, ← h.resp, hF, hrv, hrd]
    have hpush : (if axmHead s i && axmHasResp i.rxHdr then [axmRespOf c i.rxHdr] else []) =
        (if axmHead s i then [i] else []).filterMap (axmRsp c) := by
      cases axmHead s i
      · rfl
      · simp only [axmRsp, Bool.true_and, if_true, List.filterMap_cons, List.filterMap_nil]
        cases axmHasResp i.rxHdr <;> rfl
    rw [← hpush]
    simp only [List.append_assoc]
    rw [← r3]
    cases hf : axmFetch s i with
    | true =>
      have := hfd hf
      cases hd : axmDone s i with
      | true => simp [hdv hd]
      | false =>
        rw [hd] at this
        have hv : s.rdV = false := by simpa using this
        simp [hv]
    | false =>
      cases hd : axmDone s i with
      | true => simp [hdv hd]
      | false => simp
  · -- completions
    rw [List.filterMap_append, ← h.out, htv]
    have e1 : (axmNext c s i).tx = if axmRTake s i || axmCTake s i then axmHdr s.rd i.cid else s.tx := rfl
    have e2 : (axmNext c s i).txData = if axmRTake s i then i.rData else if axmCTake s i then 0 else s.txData := rfl
    have e3 : (axmNext c s i).txStrb = if axmRTake s i then 1 else if axmCTake s i then 0 else s.txStrb := rfl
    rw [e1, e2, e3]
    cases hc : s.st with
    | idle => simp [axmDone, axmRTake, axmBTake, axmCTake, hc]; cases s.txV <;> cases i.txReady <;> simp
    | read =>
      have k1 := h.stR hc
      cases hr : s.rReady with
      | false => simp [axmDone, axmRTake, axmBTake, axmCTake, hc, hr]; cases s.txV <;> cases i.txReady <;> simp
      | true =>
        have k2 := (h.rr hr).2
        cases hv : i.rValid <;> simp [axmDone, axmRTake, axmBTake, axmCTake, hc, hr, hv, k1, k2, axmOutOf]
    | write =>
      obtain ⟨k1, k2⟩ := h.stW hc
      cases hr : s.bReady <;> cases hv : i.bValid <;>
        simp [axmDone, axmRTake, axmBTake, axmCTake, hc, hr, hv, k1, k2, axmOutOf] <;> cases s.txV <;> cases i.txReady <;> simp
    | cpl =>
      obtain ⟨k1, k2⟩ := h.stC hc
      cases hr : s.txV <;> cases hv : i.txReady <;> simp [axmDone, axmRTake, axmBTake, axmCTake, hc, hr, hv, k1, k2, axmOutOf]
  · -- read responses
    rw [List.filter_append, List.map_append, ← h.rs, ← hR]
    congr 1
    cases hd : axmDone s i with
    | false =>
      simp only [axmDone, Bool.or_eq_false_iff] at hd
      simp [hd.1.1]
    | true =>
      cases hr : axmRTake s i with
      | true =>
        have k : s.st = .read := by simp only [axmRTake, Bool.and_eq_true, beq_iff_eq] at hr; exact hr.1.1
        simp [h.stR k]
      | false =>
        have k : s.rd.read = false := by
          simp only [axmDone, hr, Bool.false_or, Bool.or_eq_true] at hd
          cases hd with
          | inl hd => simp only [axmBTake, Bool.and_eq_true, beq_iff_eq] at hd; exact (h.stW hd.1.1).1
          | inr hd => simp only [axmCTake, Bool.and_eq_true, beq_iff_eq] at hd; exact (h.stC hd.1).1
        simp [k]
  · intro x hx
    rcases List.mem_append.mp hx with hx | hx
    · exact h.cids x hx
    · cases hd : axmDone s i with
      | false => rw [hd] at hx; simp at hx
      | true => rw [hd] at hx; simp only [if_true, List.mem_singleton] at hx; rw [hx]; exact hcid
  · rw [List.countP_append, ← h.nb, ← hB]
    congr 1
    cases hd : axmDone s i with
    | false =>
      simp only [axmDone, Bool.or_eq_false_iff] at hd
      simp [hd.1.2]
    | true =>
      cases hr : axmBTake s i with
      | true =>
        have k : s.st = .write := by simp only [axmBTake, Bool.and_eq_true, beq_iff_eq] at hr; exact hr.1.1
        simp [h.stW k]
      | false =>
        simp only [axmDone, hr, Bool.or_false, Bool.or_eq_true] at hd
        cases hd with
        | inl hd => simp only [axmRTake, Bool.and_eq_true, beq_iff_eq] at hd; simp [h.stR hd.1.1]
        | inr hd => simp only [axmCTake, Bool.and_eq_true, beq_iff_eq] at hd; simp [h.stC hd.1]
  · intro hn
    rw [hst] at hn
    obtain ⟨h1, h2⟩ := hsi hn
    rw [hrv, h1, h2]; simp
  · intro hn
    rw [hst] at hn
    rw [hkeep (by rw [hn]; decide)]
    unfold axmStNext at hn
    cases hc : s.st <;> rw [hc] at hn <;> simp only at hn
    · grind
    · exact h.stR hc
    · grind
    · grind
  · intro hn
    rw [hst] at hn
    rw [hkeep (by rw [hn]; decide)]
    unfold axmStNext at hn
    cases hc : s.st <;> rw [hc] at hn <;> simp only at hn
    · grind
    · grind
    · exact h.stW hc
    · grind
  · intro hn
    rw [hst] at hn
    rw [hkeep (by rw [hn]; decide)]
    unfold axmStNext at hn
    cases hc : s.st <;> rw [hc] at hn <;> simp only at hn
    · grind
    · grind
    · grind
    · exact h.stC hc
  · intro hn
    have e : (axmNext c s i).rReady =
      (((s.st == .idle && s.rdV && s.rd.read) || (s.st == .read && !(s.rReady && i.rValid))) && (!s.txV || i.txReady)) := rfl
    rw [e] at hn
    rw [hst, htv]
    simp only [Bool.and_eq_true, Bool.or_eq_true, beq_iff_eq, Bool.not_eq_true'] at hn
    cases hc : s.st <;> simp [axmStNext, axmDone, axmRTake, axmBTake, axmCTake, hc] at hn ⊢ <;> grind
  · intro hn
    have e : (axmNext c s i).bReady =
      ((s.st == .idle && s.rdV && !s.rd.read && s.rd.write) || (s.st == .write && !(s.bReady && i.bValid))) := rfl
    rw [e] at hn
    rw [hst]
    simp only [Bool.and_eq_true, Bool.or_eq_true, beq_iff_eq, Bool.not_eq_true'] at hn
    cases hc : s.st <;> simp [axmStNext, axmDone, axmRTake, axmBTake, axmCTake, hc] at hn ⊢ <;> grind

/-- The requests taken from a state. -/
def axmHeadsFrom (c : AxmCfg) (s : Axm) (is : List AxmIn) : List AxmIn :=
  (axmTrace c s is).filterMap fun x => if axmHead x.1 x.2 then some x.2 else none

theorem axmHeadsFrom_eq (c : AxmCfg) (is : List AxmIn) : ∀ s : Axm, (∀ i ∈ is, i.rst = false) →
    axmHeadsFrom c s is =
      axmHeads s.wait ((axmTrace c s is).filterMap fun x => if x.1.rxReady && x.2.rxValid then some x.2 else none) := by
  induction is with
  | nil => intro s _; rfl
  | cons i is ih =>
    intro s hr
    have hr := List.forall_mem_cons.mp hr
    have hs : axmStep c s i = axmNext c s i := by unfold axmStep; rw [hr.1]; rfl
    have hw : (axmStep c s i).wait = if s.wait then !(s.rxReady && i.rxValid && i.rxEop) else axmHead s i && !i.rxEop := by rw [hs]; rfl
    have h0 := ih (axmStep c s i) hr.2
    rw [hw] at h0
    unfold axmHeadsFrom at h0 ⊢
    have e1 : (axmTrace c s (i :: is)).filterMap (fun x => if axmHead x.1 x.2 then some x.2 else none) =
        (if axmHead s i then [i] else []) ++ (axmTrace c (axmStep c s i) is).filterMap (fun x => if axmHead x.1 x.2 then some x.2 else none) := by
      simp only [axmTrace, List.filterMap_cons]; cases axmHead s i <;> rfl
    have e2 : (axmTrace c s (i :: is)).filterMap (fun x => if x.1.rxReady && x.2.rxValid then some x.2 else none) =
        (if s.rxReady && i.rxValid then [i] else []) ++
          (axmTrace c (axmStep c s i) is).filterMap (fun x => if x.1.rxReady && x.2.rxValid then some x.2 else none) := by
      simp only [axmTrace, List.filterMap_cons]; cases s.rxReady && i.rxValid <;> rfl
    rw [e1, e2, h0]
    generalize List.filterMap (fun x : Axm × AxmIn => if x.1.rxReady && x.2.rxValid then some x.2 else none) _ = U
    simp only [axmHead]
    rcases Bool.eq_false_or_eq_true s.wait with hW | hW <;> rcases Bool.eq_false_or_eq_true s.rxReady with hR | hR <;>
      rcases Bool.eq_false_or_eq_true i.rxValid with hV | hV <;> rcases Bool.eq_false_or_eq_true i.rxSop with hs | hs <;>
      rcases Bool.eq_false_or_eq_true i.rxEop with he | he <;> simp [axmHeads, hs, he, hW, hR, hV]

theorem axm_inv_run {c : AxmCfg} {P : Nat → Prop} (is : List AxmIn) : ∀ {s : Axm} {reqs : List AxmIn} {aws : List Nat} {ws : List (Nat × Nat)}
    {ars rs : List Nat} {nb : Nat} {sent : List (TlpHdr × Nat × Nat)} {done : List (AxmResp × Nat × Nat)},
    AxmInv c P s reqs aws ws ars rs nb sent done → (∀ i ∈ is, i.rst = false) → (∀ i ∈ is, P i.cid) →
    ∃ done', AxmInv c P (axmRun c s is) (reqs ++ axmHeadsFrom c s is) (aws ++ axmAws c s is) (ws ++ axmWs c s is)
      (ars ++ axmArs c s is) (rs ++ axmRs c s is) (nb + axmBs c s is) (sent ++ axmSent c s is) done' := by
  induction is with
  | nil => intro s reqs aws ws ars rs nb sent done h _ _; exact ⟨done, by simpa [axmRun, axmHeadsFrom, axmAws, axmWs, axmArs, axmRs, axmBs, axmSent, axmTrace] using h⟩
  | cons i is ih =>
    intro s reqs aws ws ars rs nb sent done h h1 h2
    have h1 := List.forall_mem_cons.mp h1
    have h2 := List.forall_mem_cons.mp h2
    obtain ⟨done', h'⟩ := ih (axm_inv_step h i h1.1 h2.1) h1.2 h2.2
    refine ⟨done', ?_⟩
    have e1 : axmHeadsFrom c s (i :: is) = (if axmHead s i then [i] else []) ++ axmHeadsFrom c (axmStep c s i) is := by
      simp only [axmHeadsFrom, axmTrace, List.filterMap_cons]; cases axmHead s i <;> rfl
    have e2 : axmAws c s (i :: is) = (if s.awV && i.awReady then [s.addr] else []) ++ axmAws c (axmStep c s i) is := by
      simp only [axmAws, axmTrace, List.filterMap_cons]; cases s.awV && i.awReady <;> rfl
    have e3 : axmWs c s (i :: is) = (if s.wV && i.wReady then [(s.wdata, s.wstrb)] else []) ++ axmWs c (axmStep c s i) is := by
      simp only [axmWs, axmTrace, List.filterMap_cons]; cases s.wV && i.wReady <;> rfl
    have e4 : axmArs c s (i :: is) = (if s.arV && i.arReady then [s.addr] else []) ++ axmArs c (axmStep c s i) is := by
      simp only [axmArs, axmTrace, List.filterMap_cons]; cases s.arV && i.arReady <;> rfl
    have e5 : axmRs c s (i :: is) = (if s.rReady && i.rValid then [i.rData] else []) ++ axmRs c (axmStep c s i) is := by
      simp only [axmRs, axmTrace, List.filterMap_cons]; cases s.rReady && i.rValid <;> rfl
    have e6 : axmBs c s (i :: is) = (s.bReady && i.bValid).toNat + axmBs c (axmStep c s i) is := by
      simp only [axmBs, axmTrace, List.countP_cons]; cases s.bReady && i.bValid <;> simp <;> omega
    have e7 : axmSent c s (i :: is) = (if s.txV && i.txReady then [(s.tx, s.txStrb, s.txData)] else []) ++ axmSent c (axmStep c s i) is := by
      simp only [axmSent, axmTrace, List.filterMap_cons]; cases s.txV && i.txReady <;> rfl
    rw [e1, e2, e3, e4, e5, e6, e7]
    simp only [← List.append_assoc, ← Nat.add_assoc]
    exact h'

/-- The invariant after a history that begins with a reset. -/
theorem axm_inv {c : AxmCfg} {P : Nat → Prop} (s : Axm) (r : AxmIn) (is : List AxmIn) (hr : r.rst = true) (h1 : ∀ i ∈ is, i.rst = false)
    (h2 : ∀ i ∈ is, P i.cid) :
    ∃ done, AxmInv c P (axmRun c (axmStep c s r) is) (axmReqs c (axmStep c s r) is) (axmAws c (axmStep c s r) is)
      (axmWs c (axmStep c s r) is) (axmArs c (axmStep c s r) is) (axmRs c (axmStep c s r) is) (axmBs c (axmStep c s r) is)
      (axmSent c (axmStep c s r) is) done := by
  obtain ⟨done, h⟩ := axm_inv_run is (axmReset_inv c P s r hr) h1 h2
  have hw : (axmStep c s r).wait = false := by unfold axmStep; rw [hr]; rfl
  rw [axmHeadsFrom_eq c is _ h1, hw] at h
  simp only [List.nil_append, Nat.zero_add] at h
  exact ⟨done, h⟩

/-! ### Headers -/

theorem axmKind_need (h : TlpHdr) (hp : tlpIsPrefix h = false) :
    (tlpIsRead h = true ↔ axmKind h = .read ∨ axmKind h = .badRead) ∧ (tlpIsWrite h = true ↔ axmKind h = .write ∨ axmKind h = .badWrite) ∧
    (axmKind h = .read ∨ axmKind h = .write → hdrLen h = 1) ∧ (axmKind h = .badRead ∨ axmKind h = .badWrite → hdrLen h ≠ 1) ∧
    (tlpIsCpl h = true ↔ axmKind h = .cpl) := by
  have hl : axmLen h = hdrLen h := by simp [axmLen, hdrLen, bits]
  have hf : axmFmt h = bits h.dw0 31 29 := rfl
  have ht : axmType h = bits h.dw0 28 24 := rfl
  simp only [tlpIsPrefix, decide_eq_false_iff_not] at hp
  simp only [axmKind, tlpIsRead, tlpIsWrite, tlpIsCpl, hl, hf, ht, Bool.and_eq_true, Bool.or_eq_true, beq_iff_eq]
  generalize bits h.dw0 31 29 = f at *
  generalize bits h.dw0 28 24 = t at *
  generalize hdrLen h = l at *
  have hf4 : f = 0 ∨ f = 1 ∨ f = 2 ∨ f = 3 := by omega
  rcases hf4 with rfl | rfl | rfl | rfl <;> by_cases h0 : t = 0 <;> by_cases h1 : l = 1 <;> simp [h0, h1] <;> grind

theorem axNeed_kind (h : TlpHdr) (hk : AxReqOk h) :
    axNeed h = match axmKind h with
      | .read => .read | .badRead => .cpl 4 | .write => .write | .badWrite => .nothing | .cpl => .nothing | .other => .cpl 1 := by
  obtain ⟨h1, h2, h3, h4, h5⟩ := axmKind_need h hk.2
  have hm := hk.1
  unfold axNeed
  cases hx : axmKind h <;> simp only [hx] at h1 h2 h3 h4 h5 <;> simp_all

theorem axmBe_count (be : Nat) (hb : be < 16) : axmCount be = beSpan be ∧ axmLow be = beFirst be := by
  have : ∀ b < 16, axmCount b = beSpan b ∧ axmLow b = beFirst b := by decide
  exact this be hb

theorem axmAddr_spec (c : AxmCfg) (h : TlpHdr) : axmAddr c h = tlpAddr c.force64 h := by
  unfold axmAddr tlpAddr
  have e : axmFmt h % 2 = bits h.dw0 29 29 := by simp only [axmFmt, bits]; omega
  rw [e]
  have e2 : bits h.dw2 31 0 = h.dw2 % 2 ^ 32 := by simp [bits]
  have e3 : bits h.dw3 31 2 = h.dw3 % 2 ^ 32 / 4 := by simp only [bits]; omega
  have e4 : bits h.dw2 31 2 = h.dw2 % 2 ^ 32 / 4 := by simp only [bits]; omega
  rw [e2, e3, e4]

/-- Packing and unpacking of the fields of a completion header. -/
theorem cpl_pack (f t9 tc t8 a2 a l cid st n rid t lo : Nat) (hf : f < 8) (h9 : t9 < 2) (htc : tc < 8) (h8 : t8 < 2) (ha2 : a2 < 2)
    (ha : a < 4) (hl : l < 2) (hcid : cid < 2 ^ 16) (hst : st < 8) (hn : n < 8) (hrid : rid < 2 ^ 16) (ht : t < 2 ^ 8) (hlo : lo < 128) :
    cplRec ⟨f * 2 ^ 29 + 10 * 2 ^ 24 + t9 * 2 ^ 23 + tc * 2 ^ 20 + t8 * 2 ^ 19 + a2 * 2 ^ 18 + a * 2 ^ 12 + l,
        cid * 2 ^ 16 + st * 2 ^ 13 + n, rid * 2 ^ 16 + t * 2 ^ 8 + lo, 0⟩ =
      { fmt := f, type := 10, tag := t9 * 512 + t8 * 256 + t, tc := tc, attr := a2 * 4 + a, len := l, completer := cid, status := st
        count := n, requester := rid, lower := lo, zero := [0, 0, 0, 0, 0] } := by
  unfold cplRec
  simp only [bits, Nat.reduceAdd, Nat.reduceSub, Nat.reducePow, CplRec.mk.injEq, List.cons.injEq, and_true] at *
  refine ⟨?_, ?_, ?_, ?_, ?_, ?_, ?_, ?_, ?_, ?_, ?_, ?_, ?_, ?_, ?_⟩ <;> omega

/-- The header of a completion, decoded. -/
theorem axmHdr_dec (c : AxmCfg) (h : TlpHdr) (cid : Nat) (hcid : cid < 2 ^ 16) :
    cplRec (axmHdr (axmRespOf c h) cid) = cplFor c.force64 cid h (axmRespOf c h).status (axmRespOf c h).read := by
  have hb : axmBe h = tlpFirstBe h := by simp [axmBe, tlpFirstBe, bits]
  have hlt : tlpFirstBe h < 16 := by rw [← hb]; exact Nat.mod_lt _ (by decide)
  obtain ⟨b1, b2⟩ := axmBe_count _ hlt
  have hc4 : beSpan (tlpFirstBe h) < 8 := by
    rw [← b1]; unfold axmCount; split; · decide
    split; · decide
    split <;> decide
  have hl4 : beFirst (tlpFirstBe h) < 4 := by
    rw [← b2]; unfold axmLow; split; · decide
    split; · decide
    split <;> decide
  have hst : (axmRespOf c h).status < 8 := by
    simp only [axmRespOf]; split <;> decide
  have ha4 : tlpAddr c.force64 h % 4 = 0 := by
    unfold tlpAddr; split <;> omega
  have hlow : axmAddr c h / 4 % 32 * 4 + axmLow (axmBe h) = (tlpAddr c.force64 h + beFirst (tlpFirstBe h)) % 128 := by
    rw [axmAddr_spec, hb, b2]; omega
  have hlc : (axmRespOf c h).lower = if (axmRespOf c h).read then (tlpAddr c.force64 h + beFirst (tlpFirstBe h)) % 128 else 0 := by
    rw [← hlow]; simp [axmRespOf]
  have hcc : (axmRespOf c h).count = if (axmRespOf c h).read then beSpan (tlpFirstBe h) else 0 := by
    rw [← b1, ← hb]; simp [axmRespOf]
  have htag : (axmRespOf c h).tag = h.dw0 / 2 ^ 23 % 2 * 512 + h.dw0 / 2 ^ 19 % 2 * 256 + h.dw1 / 2 ^ 8 % 2 ^ 8 := rfl
  have hrid : (axmRespOf c h).rid = h.dw1 / 2 ^ 16 % 2 ^ 16 := rfl
  have htc : (axmRespOf c h).tc = h.dw0 / 2 ^ 20 % 8 := rfl
  have hat : (axmRespOf c h).attr = h.dw0 / 2 ^ 18 % 2 * 4 + h.dw0 / 2 ^ 12 % 4 := rfl
  have hb2 : ∀ x k, bits x k k < 2 := fun x k => by unfold bits; rw [show k + 1 - k = 1 by omega]; exact Nat.mod_lt _ (by decide)
  have htag' : (axmRespOf c h).tag = bits h.dw0 23 23 * 512 + bits h.dw0 19 19 * 256 + bits h.dw1 15 8 := htag
  have hat' : (axmRespOf c h).attr = bits h.dw0 18 18 * 4 + bits h.dw0 13 12 := hat
  have h78 : bits h.dw1 15 8 < 256 := by unfold bits; exact Nat.mod_lt _ (by decide)
  have h12 : bits h.dw0 13 12 < 4 := by unfold bits; exact Nat.mod_lt _ (by decide)
  have h23 := hb2 h.dw0 23
  have h19 := hb2 h.dw0 19
  have h18 := hb2 h.dw0 18
  have r9 : (axmRespOf c h).tag / 512 % 2 = bits h.dw0 23 23 := by rw [htag']; clear hlow hlc hcc htag hrid htc hat; omega
  have r8 : (axmRespOf c h).tag / 256 % 2 = bits h.dw0 19 19 := by rw [htag']; clear hlow hlc hcc htag hrid htc hat; omega
  have r7 : (axmRespOf c h).tag % 2 ^ 8 = bits h.dw1 15 8 := by rw [htag']; clear hlow hlc hcc htag hrid htc hat; omega
  have ra : (axmRespOf c h).attr / 4 % 2 = bits h.dw0 18 18 := by rw [hat']; clear hlow hlc hcc htag hrid htc hat; omega
  have rb : (axmRespOf c h).attr % 4 = bits h.dw0 13 12 := by rw [hat']; clear hlow hlc hcc htag hrid htc hat; omega
  have rt : (axmRespOf c h).tc = bits h.dw0 22 20 := by rw [htc]; simp only [bits]
  have rr : (axmRespOf c h).rid = bits h.dw1 31 16 := by rw [hrid]; simp only [bits]
  unfold axmHdr cplFor
  rw [hlc, hcc, r9, r8, r7, ra, rb, rt, rr, Nat.mod_eq_of_lt hcid]
  refine (cpl_pack _ _ _ _ _ _ _ _ _ _ _ _ _ ?_ (hb2 _ _) ?_ (hb2 _ _) (hb2 _ _) ?_ ?_ hcid hst ?_ ?_ ?_ ?_)
  · split <;> decide
  · unfold bits; exact Nat.mod_lt _ (by decide)
  · unfold bits; exact Nat.mod_lt _ (by decide)
  · split <;> decide
  · split; · exact hc4
    decide
  · unfold bits; exact Nat.mod_lt _ (by decide)
  · unfold bits; exact Nat.mod_lt _ (by decide)
  · split; · exact Nat.mod_lt _ (by decide)
    decide

/-- Completions for finished requests are completions for all requests. -/
theorem axCpls_done {c : AxmCfg} {cid : Nat} (hcid : cid < 2 ^ 16) (reqs : List AxmIn) : ∀ (done : List (AxmResp × Nat × Nat)) (rest : List AxmResp),
    (∀ i ∈ reqs, AxReqOk i.rxHdr) → (∀ x ∈ done, x.2.2 = cid) → done.map (·.1) ++ rest = reqs.filterMap (axmRsp c) →
    (done.filterMap axmOutOf).map cplDec <+:
      axCpls c.force64 cid (reqs.map (·.rxHdr)) ((done.filter (·.1.read)).map (·.2.1)) (done.countP (fun x => !x.1.read && x.1.write)) := by
  induction reqs with
  | nil =>
    intro done rest _ _ h
    have : done = [] := by cases done with | nil => rfl | cons a l => simp at h
    rw [this]; exact List.nil_prefix
  | cons i is ih =>
    intro done rest hk hx0 h
    have hk := List.forall_mem_cons.mp hk
    have hn := axNeed_kind i.rxHdr hk.1
    cases done with
    | nil => exact List.nil_prefix
    | cons x xs =>
      have hdec := axmHdr_dec c i.rxHdr cid hcid
      simp only [List.map_cons, axCpls]
      cases hx : axmKind i.rxHdr <;> rw [hx] at hn <;> simp only at hn <;> rw [hn]
      case badWrite | cpl =>
        have he : axmRsp c i = none := by simp [axmRsp, axmHasResp, hx]
        rw [List.filterMap_cons, he] at h
        exact ih (x :: xs) rest hk.2 hx0 h
      all_goals
        have he : axmRsp c i = some (axmRespOf c i.rxHdr) := by simp [axmRsp, axmHasResp, hx]
        rw [List.filterMap_cons, he] at h
        simp only [List.map_cons, List.cons_append, List.cons.injEq] at h
        have hx9 := List.forall_mem_cons.mp hx0
        have h0 := ih xs rest hk.2 hx9.2 h.2
        clear hx0
        obtain ⟨x1, x2, x3⟩ := x
        obtain ⟨hx9, -⟩ := hx9
        simp only at h
        obtain ⟨h1, -⟩ := h
        simp only at hx9
        subst h1 hx9
      · have e1 : (axmRespOf c i.rxHdr).read = true := by simp [axmRespOf, hx]
        have e2 : (axmRespOf c i.rxHdr).status = 0 := by simp [axmRespOf, hx]
        rw [e1, e2] at hdec
        simp only [List.filterMap_cons, axmOutOf, e1, if_true, List.map_cons, List.filter_cons, List.countP_cons]
        simp only [Bool.not_true, Bool.false_and, Bool.false_eq_true, if_false, Nat.add_zero]
        exact (List.cons_prefix_cons).mpr ⟨by simp only [cplDec, hdec], h0⟩
      · have e1 : (axmRespOf c i.rxHdr).read = false := by simp [axmRespOf, hx]
        have e2 : (axmRespOf c i.rxHdr).status = 4 := by simp [axmRespOf, hx]
        have e3 : (axmRespOf c i.rxHdr).write = false := by simp [axmRespOf, hx]
        rw [e1, e2] at hdec
        simp only [List.filterMap_cons, axmOutOf, e1, e3, List.filter_cons, List.countP_cons]
        simp only [Bool.not_false, Bool.true_and, Bool.false_eq_true, if_false, Nat.add_zero, List.map_cons]
        exact (List.cons_prefix_cons).mpr ⟨by simp only [cplDec, hdec], h0⟩
      · have e1 : (axmRespOf c i.rxHdr).read = false := by simp [axmRespOf, hx]
        have e3 : (axmRespOf c i.rxHdr).write = true := by simp [axmRespOf, hx]
        simp only [List.filterMap_cons, axmOutOf, e1, e3, List.filter_cons, List.countP_cons]
        simp only [Bool.not_false, Bool.true_and, Bool.false_eq_true, if_false, if_true]
        exact h0
      · have e1 : (axmRespOf c i.rxHdr).read = false := by simp [axmRespOf, hx]
        have e2 : (axmRespOf c i.rxHdr).status = 1 := by simp [axmRespOf, hx]
        have e3 : (axmRespOf c i.rxHdr).write = false := by simp [axmRespOf, hx]
        rw [e1, e2] at hdec
        simp only [List.filterMap_cons, axmOutOf, e1, e3, List.filter_cons, List.countP_cons]
        simp only [Bool.not_false, Bool.true_and, Bool.false_eq_true, if_false, Nat.add_zero, List.map_cons]
        exact (List.cons_prefix_cons).mpr ⟨by simp only [cplDec, hdec], h0⟩

/-! ### The AXI transfers in terms of requests -/

theorem axmKind_write (h : TlpHdr) (hp : tlpIsPrefix h = false) : axmKind h = .write ↔ tlpIsWrite h = true ∧ hdrLen h = 1 := by
  obtain ⟨-, h2, h3, h4, -⟩ := axmKind_need h hp
  rw [h2]
  constructor
  · intro h; exact ⟨.inl h, h3 (.inr h)⟩
  · rintro ⟨h | h, hl⟩
    · exact h
    · exact absurd hl (h4 (.inr h))

theorem axmKind_read (h : TlpHdr) (hp : tlpIsPrefix h = false) : axmKind h = .read ↔ tlpIsRead h = true ∧ hdrLen h = 1 := by
  obtain ⟨h2, -, h3, h4, -⟩ := axmKind_need h hp
  rw [h2]
  constructor
  · intro h; exact ⟨.inl h, h3 (.inl h)⟩
  · rintro ⟨h | h, hl⟩
    · exact h
    · exact absurd hl (h4 (.inl h))

theorem axm_filterMap_congr {α β : Type} {f g : α → Option β} {l : List α} (h : ∀ x ∈ l, f x = g x) : l.filterMap f = l.filterMap g := by
  induction l with
  | nil => rfl
  | cons a l ih =>
    have h := List.forall_mem_cons.mp h
    rw [List.filterMap_cons, List.filterMap_cons, h.1, ih h.2]

theorem axmTrace_append (c : AxmCfg) (is js : List AxmIn) : ∀ s, axmTrace c s (is ++ js) = axmTrace c s is ++ axmTrace c (axmRun c s is) js := by
  induction is with
  | nil => intro s; rfl
  | cons i is ih => intro s; simp only [List.cons_append, axmTrace, axmRun, ih]

theorem axmRun_append (c : AxmCfg) (is js : List AxmIn) : ∀ s, axmRun c s (is ++ js) = axmRun c (axmRun c s is) js := by
  induction is with
  | nil => intro s; rfl
  | cons i is ih => intro s; simp only [List.cons_append, axmRun, ih]

theorem axmHeadsFrom_append (c : AxmCfg) (s : Axm) (is js : List AxmIn) :
    axmHeadsFrom c s (is ++ js) = axmHeadsFrom c s is ++ axmHeadsFrom c (axmRun c s is) js := by
  unfold axmHeadsFrom; rw [axmTrace_append, List.filterMap_append]

theorem axmReqs_heads (c : AxmCfg) (s : Axm) (r : AxmIn) (is : List AxmIn) (hr : r.rst = true) (h1 : ∀ i ∈ is, i.rst = false) :
    axmReqs c (axmStep c s r) is = axmHeadsFrom c (axmStep c s r) is := by
  have hw : (axmStep c s r).wait = false := by unfold axmStep; rw [hr]; rfl
  rw [axmHeadsFrom_eq c is _ h1, hw]; rfl

/-! ### Facts for the properties -/

theorem axm_transfers (c : AxmCfg) (s : Axm) (r : AxmIn) (is : List AxmIn) (hr : r.rst = true) (h1 : ∀ i ∈ is, i.rst = false) :
    axmAws c (axmStep c s r) is ++ (if (axmRun c (axmStep c s r) is).awV then [(axmRun c (axmStep c s r) is).addr] else []) =
      (axmReqs c (axmStep c s r) is).filterMap (axmAwOf c) ∧
    axmWs c (axmStep c s r) is ++ (if (axmRun c (axmStep c s r) is).wV then
      [((axmRun c (axmStep c s r) is).wdata, (axmRun c (axmStep c s r) is).wstrb)] else []) =
      (axmReqs c (axmStep c s r) is).filterMap axmWOf ∧
    axmArs c (axmStep c s r) is ++ (if (axmRun c (axmStep c s r) is).arV then [(axmRun c (axmStep c s r) is).addr] else []) =
      (axmReqs c (axmStep c s r) is).filterMap (axmArOf c) := by
  obtain ⟨done, h⟩ := axm_inv (P := fun _ => True) s r is hr h1 (fun _ _ => trivial)
  exact ⟨h.aw, h.w, h.ar⟩

theorem axm_excl (c : AxmCfg) (s : Axm) (r : AxmIn) (is : List AxmIn) (hr : r.rst = true) (h1 : ∀ i ∈ is, i.rst = false) :
    (axmRun c (axmStep c s r) is).arV = true → (axmRun c (axmStep c s r) is).awV = false ∧ (axmRun c (axmStep c s r) is).wV = false := by
  obtain ⟨done, h⟩ := axm_inv (P := fun _ => True) s r is hr h1 (fun _ _ => trivial)
  exact h.excl

theorem axm_stable (c : AxmCfg) (s : Axm) (r : AxmIn) (is : List AxmIn) (i : AxmIn) (hr : r.rst = true) (h1 : ∀ j ∈ is ++ [i], j.rst = false) :
    let e := axmRun c (axmStep c s r) is
    let f := axmRun c (axmStep c s r) (is ++ [i])
    (e.awV = true → i.awReady = false → f.awV = true ∧ f.addr = e.addr) ∧
    (e.wV = true → i.wReady = false → f.wV = true ∧ f.wdata = e.wdata ∧ f.wstrb = e.wstrb) ∧
    (e.arV = true → i.arReady = false → f.arV = true ∧ f.addr = e.addr) ∧
    (e.txV = true → i.txReady = false → f.txV = true ∧ f.tx = e.tx ∧ f.txStrb = e.txStrb ∧ f.txData = e.txData) := by
  intro e f
  have hi : i.rst = false := h1 i (by simp)
  obtain ⟨done, h⟩ := axm_inv (c := c) (P := fun _ => True) s r is hr (fun j hj => h1 j (by simp [hj])) (fun _ _ => trivial)
  have hf : f = axmNext c e i := by
    show axmRun c _ (is ++ [i]) = _
    rw [axmRun_append]
    show axmStep c e i = _
    unfold axmStep; rw [hi]; rfl
  have hh : ∀ x : Axm → Bool, (x = (·.awV) ∨ x = (·.wV) ∨ x = (·.arV)) → x e = true → axmHead e i = false := by
    intro x hx hv
    cases hd : axmHead e i with
    | false => rfl
    | true =>
      simp only [axmHead, Bool.and_eq_true, Bool.not_eq_true'] at hd
      obtain ⟨g1, g2, g3⟩ := h.idle hd.1.1.1 hd.1.1.2
      rcases hx with rfl | rfl | rfl
      · exact absurd hv (by simp only [e, g1]; decide)
      · exact absurd hv (by simp only [e, g2]; decide)
      · exact absurd hv (by simp only [e, g3]; decide)
  have a1 : (axmNext c e i).addr = if axmHead e i then axmAddr c i.rxHdr % 2 ^ c.addrW else e.addr := rfl
  have a2 : (axmNext c e i).awV = ((axmHead e i && axmKind i.rxHdr == .write) || (e.awV && !i.awReady)) := rfl
  have a3 : (axmNext c e i).wV = ((axmHead e i && axmKind i.rxHdr == .write) || (e.wV && !i.wReady)) := rfl
  have a4 : (axmNext c e i).arV = ((axmHead e i && axmKind i.rxHdr == .read) || (e.arV && !i.arReady)) := rfl
  have a5 : (axmNext c e i).wdata = if axmHead e i then i.rxData else e.wdata := rfl
  have a6 : (axmNext c e i).wstrb = if axmHead e i then axmBe i.rxHdr else e.wstrb := rfl
  have b1 : (axmNext c e i).txV = (axmRTake e i || axmCTake e i || (e.txV && !i.txReady)) := rfl
  have b2 : (axmNext c e i).tx = if axmRTake e i || axmCTake e i then axmHdr e.rd i.cid else e.tx := rfl
  have b3 : (axmNext c e i).txData = if axmRTake e i then i.rData else if axmCTake e i then 0 else e.txData := rfl
  have b4 : (axmNext c e i).txStrb = if axmRTake e i then 1 else if axmCTake e i then 0 else e.txStrb := rfl
  rw [hf, a1, a2, a3, a4, a5, a6, b1, b2, b3, b4]
  refine ⟨fun hv hn => ?_, fun hv hn => ?_, fun hv hn => ?_, fun hv hn => ?_⟩
  · rw [hh (·.awV) (.inl rfl) hv, hv, hn]; exact ⟨rfl, rfl⟩
  · rw [hh (·.wV) (.inr (.inl rfl)) hv, hv, hn]; exact ⟨rfl, rfl, rfl⟩
  · rw [hh (·.arV) (.inr (.inr rfl)) hv, hv, hn]; exact ⟨rfl, rfl⟩
  · have t1 : axmRTake e i = false := by
      cases ht : axmRTake e i with
      | false => rfl
      | true =>
        simp only [axmRTake, Bool.and_eq_true] at ht
        exact absurd (hv.symm.trans (h.rr ht.1.2).2) (by decide)
    have t2 : axmCTake e i = false := by
      unfold axmCTake; rw [hv, hn]; simp
    rw [t1, t2, hv, hn]; exact ⟨rfl, rfl, rfl, rfl⟩

theorem axm_errors (c : AxmCfg) (s : Axm) (r : AxmIn) (is : List AxmIn) (i : AxmIn) (hr : r.rst = true)
    (h1 : ∀ j ∈ is ++ [i], j.rst = false) (hk : ∀ j ∈ axmReqs c (axmStep c s r) (is ++ [i]), AxReqOk j.rxHdr) :
    ∃ q, axmReqs c (axmStep c s r) (is ++ [i]) = axmReqs c (axmStep c s r) is ++ q ∧ (q = [] ∨ q = [i]) ∧
      ((axmRun c (axmStep c s r) (is ++ [i])).errCor, (axmRun c (axmStep c s r) (is ++ [i])).errUncor) =
        match q with | [] => (false, false) | j :: _ => axPulse j.rxHdr := by
  have hi : i.rst = false := h1 i (by simp)
  have h2 : ∀ j ∈ is, j.rst = false := fun j hj => h1 j (by simp [hj])
  rw [axmReqs_heads c s r _ hr h1, axmHeadsFrom_append] at hk ⊢
  rw [axmReqs_heads c s r is hr h2, axmRun_append]
  generalize axmRun c (axmStep c s r) is = e at *
  have hq : axmHeadsFrom c e [i] = if axmHead e i then [i] else [] := by
    unfold axmHeadsFrom; simp only [axmTrace, List.filterMap_cons, List.filterMap_nil]; cases axmHead e i <;> rfl
  have hf : axmRun c e [i] = axmNext c e i := by
    show axmStep c e i = _
    unfold axmStep; rw [hi]; rfl
  rw [hq] at hk ⊢
  have b1 : (axmNext c e i).errCor = (axmHead e i && (axmKind i.rxHdr == .badRead || axmKind i.rxHdr == .cpl || axmKind i.rxHdr == .other)) := rfl
  have b2 : (axmNext c e i).errUncor = (axmHead e i && axmKind i.rxHdr == .badWrite) := rfl
  rw [hf, b1, b2]
  refine ⟨_, rfl, by cases axmHead e i <;> simp, ?_⟩
  cases hd : axmHead e i with
  | false => rfl
  | true =>
    rw [hd] at hk
    have ho := hk i (by simp)
    obtain ⟨g1, g2, g3, g4, -⟩ := axmKind_need i.rxHdr ho.2
    have hm := ho.1
    simp only [if_true, Bool.true_and, axPulse]
    cases hx : axmKind i.rxHdr <;> simp only [hx] at g1 g2 g3 g4 <;> simp_all

end Verif.Proofs
