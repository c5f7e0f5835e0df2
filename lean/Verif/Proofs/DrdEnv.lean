import Verif.Spec.DmaIfPcieRd
/-! The specification of completions, with requests counted from the cycle in which they are issued. -/
namespace Verif.Proofs
open Verif Verif.Model Verif.Spec

/-- The request on the interface is counted as sent. -/
def pendEnv (s : Drd) (e : RdEnv) : RdEnv := if s.txV then e.send s.tx else e

/-- The transfer of a cycle. -/
def envBeat (c : DrdCfg) (s : Drd) (i : DrdIn) (e : RdEnv) : RdEnv :=
  if drdTransfer s i then ({ e with last := none }).beat c i else { e with last := none }

/-- One cycle, with requests counted when issued. -/
def pendStep (c : DrdCfg) (s : Drd) (i : DrdIn) (f : RdEnv) : RdEnv :=
  let f := envBeat c s i f
  let f := if drdIssue c s i then f.send (drdHdr c s i.requesterId) else f
  if s.req.ready && i.valid then f.accept (rdDescOf c i) else f

/-- The request of a header. -/
def sendReq (t : RdTodo) (h : TlpHdr) : RdReq := ⟨t.num, t.d, rdHdrTag h, t.off, t.off + max 1 (rdHdrBytes h).length⟩

theorem send_cons {e : RdEnv} {t : RdTodo} {ts : List RdTodo} (he : e.todo = t :: ts) (h : TlpHdr) :
    e.send h = { e with
      out := e.out ++ [sendReq t h]
      todo := if (sendReq t h).stop < rdSpan t.d then { t with off := (sendReq t h).stop } :: ts else ts } := by
  unfold RdEnv.send
  rw [he]
  rfl

theorem send_todo {e : RdEnv} {t : RdTodo} {ts : List RdTodo} (he : e.todo = t :: ts) (h : TlpHdr) (n : Nat) :
    ((e.send h).todo.any (·.num == n) || (t.num == n)) = e.todo.any (·.num == n) := by
  rw [send_cons he, he]
  simp only
  split
  · simp only [List.any_cons]; cases t.num == n <;> simp
  · simp only [List.any_cons]; rw [Bool.or_comm]

theorem emit_send {e : RdEnv} {t : RdTodo} {ts : List RdTodo} (he : e.todo = t :: ts) (h : TlpHdr) (r : RdReq) (out : List RdReq)
    (w : List (Nat × Nat × UInt8)) (fin : Bool) (err : Nat) :
    (e.send h).emit r (out ++ [sendReq t h]) w fin err = (e.emit r out w fin err).send h := by
  have h1 := send_todo he h r.num
  have h3 : (out ++ [sendReq t h]).any (·.num == r.num) = (out.any (·.num == r.num) || (t.num == r.num)) := by
    simp [sendReq]
  have h4 : (!(e.send h).todo.any (·.num == r.num) && !(out ++ [sendReq t h]).any (·.num == r.num)) =
      (!e.todo.any (·.num == r.num) && !out.any (·.num == r.num)) := by
    rw [h3, ← h1]
    cases (e.send h).todo.any (·.num == r.num) <;> cases out.any (·.num == r.num) <;> cases t.num == r.num <;> rfl
  have he' : (e.emit r out w fin err).todo = t :: ts := he
  rw [send_cons he' h]
  unfold RdEnv.emit
  simp only
  rw [Bool.and_assoc, Bool.and_assoc, h4, send_cons he h]

theorem find_append_ne {l : List RdReq} {x : RdReq} {t : Nat} (h : x.tag ≠ t) :
    (l ++ [x]).find? (·.tag == t) = l.find? (·.tag == t) := by
  rw [List.find?_append]
  have : ([x].find? (·.tag == t)) = none := by simp [h]
  rw [this]; simp

theorem advance_append_ne {l : List RdReq} {x : RdReq} {t k : Nat} (h : x.tag ≠ t) :
    rdAdvance t k (l ++ [x]) = rdAdvance t k l ++ [x] := by
  unfold rdAdvance
  rw [List.filterMap_append]
  simp [h]

theorem data_send {c : DrdCfg} {e : RdEnv} {t : RdTodo} {ts : List RdTodo} (he : e.todo = t :: ts) (h : TlpHdr) (r : RdReq)
    (k lane : Nat) (data : Nat → UInt8) (hr : rdHdrTag h ≠ r.tag) :
    (e.send h).data c r k lane data = (e.data c r k lane data).send h := by
  unfold RdEnv.data
  rw [← emit_send he]
  congr 1
  rw [send_cons he]
  exact advance_append_ne hr

theorem cur_send (e : RdEnv) (h : TlpHdr) (cur : RdCur) : { e.send h with cur := cur } = ({ e with cur := cur }).send h := by
  unfold RdEnv.send
  split <;> rename_i hh <;> simp [hh]

theorem last_send (e : RdEnv) (h : TlpHdr) (l : Option Nat) : { e.send h with last := l } = ({ e with last := l }).send h := by
  unfold RdEnv.send
  split <;> rename_i hh <;> simp [hh]

theorem rdKind_find {c : DrdCfg} {out out' : List RdReq} {i : DrdIn}
    (h : out'.find? (·.tag == cplHdrTag i.rxHdr) = out.find? (·.tag == cplHdrTag i.rxHdr)) : rdKind c out' i = rdKind c out i := by
  unfold rdKind
  dsimp only
  rw [h]

/-- The request that a completion is for. -/
theorem rdKind_mem {c : DrdCfg} {out : List RdReq} {i : DrdIn} {r : RdReq}
    (h : (∃ n, rdKind c out i = .error r n) ∨ rdKind c out i = .data r) :
    out.find? (·.tag == cplHdrTag i.rxHdr) = some r ∧ r ∈ out ∧ r.tag = cplHdrTag i.rxHdr := by
  have : out.find? (·.tag == cplHdrTag i.rxHdr) = some r := by
    unfold rdKind at h
    dsimp only at h
    cases hf : out.find? (·.tag == cplHdrTag i.rxHdr) with
    | none => rw [hf] at h; simp at h
    | some r' =>
      rw [hf] at h
      simp only at h
      rcases h with ⟨n, h⟩ | h
      all_goals
        repeat' split at h
        all_goals first | (simp only [RdKind.error.injEq] at h; rw [h.1]) | (simp only [RdKind.data.injEq] at h; rw [h]) | (simp at h)
  exact ⟨this, List.mem_of_find?_eq_some this, by simpa using List.find?_some this⟩

theorem beat_send {c : DrdCfg} {i : DrdIn} {e : RdEnv} {t : RdTodo} {ts : List RdTodo} (he : e.todo = t :: ts) (h : TlpHdr)
    (h1 : ∀ u left, e.cur = .data u left → rdHdrTag h ≠ u)
    (h2 : e.cur = .none → i.rxSop = true → rdHdrTag h ≠ cplHdrTag i.rxHdr) : (e.send h).beat c i = (e.beat c i).send h := by
  have hs := send_cons he h
  have hcur : (e.send h).cur = e.cur := by rw [hs]
  have hout : (e.send h).out = e.out ++ [sendReq t h] := by rw [hs]
  unfold RdEnv.beat
  rw [hcur]
  match hc : e.cur with
  | .skip => simp only; rw [cur_send]
  | .data u left =>
    have hne := h1 u left hc
    simp only
    rw [hout, find_append_ne (x := sendReq t h) hne]
    cases hf : e.out.find? (·.tag == u) with
    | none => rfl
    | some r =>
      have hr : r.tag = u := by simpa using List.find?_some hf
      simp only
      rw [data_send he h r _ _ _ (by rw [hr]; exact hne), cur_send]
  | .none =>
    simp only
    by_cases hsop : i.rxSop = true
    · have hne := h2 hc hsop
      have hkk : rdKind c (e.send h).out i = rdKind c e.out i := by
        rw [hout]; exact rdKind_find (find_append_ne (x := sendReq t h) hne)
      rw [if_pos hsop, if_pos hsop, hkk]
      match hk : rdKind c e.out i with
      | .unexpected => simp only; rw [cur_send]
      | .malformed => simp only; rw [cur_send]
      | .error r n =>
        have hr := (rdKind_mem (Or.inl ⟨n, hk⟩)).2.2
        have hne' : (sendReq t h).tag ≠ r.tag := by rw [hr]; exact hne
        have hf : (e.send h).out.filter (·.tag != r.tag) = e.out.filter (·.tag != r.tag) ++ [sendReq t h] := by
          rw [hout, List.filter_append]
          simp [hne']
        simp only
        rw [hf, emit_send he, cur_send]
      | .data r =>
        have hr := (rdKind_mem (Or.inr hk)).2.2
        simp only
        rw [data_send he h r _ _ _ (by rw [hr]; exact hne), cur_send]
    · rw [if_neg hsop, if_neg hsop]

/-- Transfers do not change these. -/
theorem emit_same (e : RdEnv) (r : RdReq) (out : List RdReq) (w : List (Nat × Nat × UInt8)) (fin : Bool) (err : Nat) :
    (e.emit r out w fin err).todo = e.todo ∧ (e.emit r out w fin err).count = e.count := ⟨rfl, rfl⟩

theorem beat_same (c : DrdCfg) (i : DrdIn) (e : RdEnv) : (e.beat c i).todo = e.todo ∧ (e.beat c i).count = e.count := by
  unfold RdEnv.beat
  repeat' split
  all_goals exact ⟨rfl, rfl⟩

theorem envBeat_same (c : DrdCfg) (s : Drd) (i : DrdIn) (e : RdEnv) :
    (envBeat c s i e).todo = e.todo ∧ (envBeat c s i e).count = e.count := by
  unfold envBeat; split
  · exact beat_same c i _
  · exact ⟨rfl, rfl⟩

theorem accept_send {e : RdEnv} (he : e.todo ≠ []) (h : TlpHdr) (d : RdDesc) : (e.accept d).send h = (e.send h).accept d := by
  obtain ⟨t, ts, he⟩ := List.exists_cons_of_ne_nil he
  have ha : (e.accept d).todo = t :: (ts ++ [⟨e.count, d, 0⟩]) := by unfold RdEnv.accept; rw [he]; rfl
  rw [send_cons ha, send_cons he]
  unfold RdEnv.accept
  simp only
  congr 1
  split <;> simp

/-- The relation between the specification and the one with requests counted when issued. -/
theorem pend_step {c : DrdCfg} {s : Drd} {i : DrdIn} (hr : i.rst = false) {e : RdEnv} (he : s.txV = true → e.todo ≠ [])
    (hna : drdIssue c s i = true → (s.req.ready && i.valid) = false)
    (hst : s.req.start = true → (pendEnv s e).todo ≠ [])
    (h1 : s.txV = true → ∀ u left, e.cur = .data u left → rdHdrTag s.tx ≠ u)
    (h2 : s.txV = true → drdTransfer s i = true → e.cur = .none → i.rxSop = true → rdHdrTag s.tx ≠ cplHdrTag i.rxHdr) :
    pendEnv (drdStep c s i) (e.step c s i) = pendStep c s i (pendEnv s e) ∧
    ((drdStep c s i).txV = true → (e.step c s i).todo ≠ []) := by
  have hstep : drdStep c s i = drdNext c s i := by unfold drdStep; simp [hr]
  have htxV : (drdStep c s i).txV = (drdIssue c s i || (s.txV && !i.txReady)) := by rw [hstep]; rfl
  have htx : (drdStep c s i).tx = if s.req.start && (!s.txV || i.txReady) then drdHdr c s i.requesterId else s.tx := by
    rw [hstep]; rfl
  have hes : e.step c s i = if s.req.ready && i.valid then
      (if s.txV && i.txReady then (envBeat c s i e).send s.tx else envBeat c s i e).accept (rdDescOf c i)
      else (if s.txV && i.txReady then (envBeat c s i e).send s.tx else envBeat c s i e) := rfl
  -- transfers and requests
  have hcomm : s.txV = true → envBeat c s i (e.send s.tx) = (envBeat c s i e).send s.tx := by
    intro hv
    obtain ⟨t, ts, het⟩ := List.exists_cons_of_ne_nil (he hv)
    unfold envBeat
    split
    · rename_i ht
      rw [last_send]
      exact beat_send (e := { e with last := none }) het s.tx (h1 hv) (h2 hv ht)
    · exact last_send _ _ _
  obtain ⟨b1, b2⟩ := envBeat_same c s i e
  cases hi : drdIssue c s i with
  | true =>
    have hiss : s.req.start = true ∧ (!s.txV || i.txReady) = true := by
      unfold drdIssue at hi; simp only [Bool.and_eq_true] at hi; exact ⟨hi.1.1.1.1.1, hi.1.1.1.1.2⟩
    have hna := hna hi
    rw [hna] at hes
    simp only [Bool.false_eq_true, if_false] at hes
    have e1 : e.step c s i = envBeat c s i (pendEnv s e) := by
      rw [hes]
      unfold pendEnv
      cases hv : s.txV with
      | false => rfl
      | true =>
        have : i.txReady = true := by have := hiss.2; rw [hv] at this; simpa using this
        rw [this]
        simp only [Bool.and_self, if_true]
        exact (hcomm hv).symm
    refine ⟨?_, ?_⟩
    · have e2 : pendEnv (drdStep c s i) (e.step c s i) = (e.step c s i).send (drdHdr c s i.requesterId) := by
        unfold pendEnv
        rw [htxV, hi, htx, hiss.1, hiss.2]; rfl
      rw [e2, e1]
      unfold pendStep
      rw [hi, hna]
      rfl
    · intro _
      rw [e1, (envBeat_same c s i _).1]
      exact hst hiss.1
  | false =>
    rw [hi, Bool.false_or] at htxV
    have hps : pendStep c s i (pendEnv s e) = if s.req.ready && i.valid then (envBeat c s i (pendEnv s e)).accept (rdDescOf c i)
        else envBeat c s i (pendEnv s e) := by
      unfold pendStep; rw [hi]; rfl
    cases hv : s.txV with
    | false =>
      rw [hv] at htxV hes
      simp only [Bool.false_and, Bool.false_eq_true, if_false] at hes htxV
      have ep : pendEnv s e = e := by unfold pendEnv; rw [hv]; rfl
      refine ⟨?_, by rw [htxV]; simp⟩
      rw [hps, ep, hes]
      unfold pendEnv; rw [htxV]; rfl
    | true =>
      have ep : pendEnv s e = e.send s.tx := by unfold pendEnv; rw [hv]; rfl
      rw [hps, ep, hcomm hv]
      cases hrd : i.txReady with
      | true =>
        rw [hv, hrd] at htxV hes
        simp only [Bool.not_true, Bool.and_false, Bool.and_self, if_true] at htxV hes
        refine ⟨?_, by rw [htxV]; simp⟩
        rw [hes]; unfold pendEnv; rw [htxV]; rfl
      | false =>
        rw [hv, hrd] at htxV htx hes
        simp only [Bool.not_false, Bool.and_true, Bool.and_false, Bool.false_eq_true, if_false, Bool.not_true, Bool.or_false] at htxV htx hes
        have hb : (envBeat c s i e).todo ≠ [] := by rw [b1]; exact he hv
        refine ⟨?_, fun _ => ?_⟩
        · rw [hes]; unfold pendEnv; rw [htxV, htx]
          simp only [if_true]
          cases s.req.ready && i.valid with
          | false => rfl
          | true => exact accept_send hb _ _
        · rw [hes]
          split
          · unfold RdEnv.accept; simp
          · exact hb

end Verif.Proofs
