import Verif.Proofs.DrdOnce
import Verif.Proofs.DrdStatus
/-! What is written for a descriptor. -/
namespace Verif.Proofs
open Verif Verif.Model Verif.Spec

/-- The writes for the bytes from `lo` up to `hi`. -/
def copyPart (c : DrdCfg) (d : RdDesc) (data : Nat → UInt8) (lo hi : Nat) : List (Nat × Nat × UInt8) :=
  if d.len = 0 then [] else (List.range' lo (hi - lo)).map fun q => (d.sel, (d.ram + q) % 2 ^ c.ramW, data q)

theorem copyPart_split (c : DrdCfg) (d : RdDesc) (data : Nat → UInt8) {lo mid hi : Nat} (h1 : lo ≤ mid) (h2 : mid ≤ hi) :
    copyPart c d data lo hi = copyPart c d data lo mid ++ copyPart c d data mid hi := by
  unfold copyPart
  split
  · rfl
  · rw [← List.map_append]
    congr 1
    have := List.range'_append_1 (s := lo) (m := mid - lo) (n := hi - mid)
    rw [show lo + (mid - lo) = mid by omega, show mid - lo + (hi - mid) = hi - lo by omega] at this
    exact this.symm

theorem copyPart_self (c : DrdCfg) (d : RdDesc) (data : Nat → UInt8) (lo : Nat) : copyPart c d data lo lo = [] := by
  unfold copyPart; split <;> simp

theorem copyPart_all (c : DrdCfg) (d : RdDesc) (data : Nat → UInt8) : copyPart c d data 0 (rdSpan d) = drdCopy c d data := by
  unfold copyPart drdCopy rdSpan
  split
  · rename_i h; rw [h]; rfl
  · rw [List.range_eq_range']; rfl

/-- The effect of a transfer with its writes. -/
inductive BeatW (c : DrdCfg) (data : Nat → RdDesc → Nat → UInt8) (H : Prop) (f f1 : RdEnv) : Prop
  | none (h1 : f1.out = f.out) (h2 : f1.evs = f.evs)
  | error (l1 l2 : List RdReq) (r : RdReq) (v : RdEvent) (h1 : f.out = l1 ++ r :: l2) (h2 : f1.out = l1 ++ l2) (h3 : f1.evs = f.evs ++ [v])
    (h4 : v.num = r.num) (h5 : v.writes = []) (h6 : v.error ≠ 0) (h7 : ∀ x, v.status = some x → x.1 = r.d.tag)
  | data (l1 l2 : List RdReq) (r : RdReq) (v : RdEvent) (k : Nat) (g : Nat → UInt8) (h1 : f.out = l1 ++ r :: l2) (hk : r.off + k ≤ r.stop)
    (h2 : f1.out = l1 ++ (if r.off + k = r.stop then [] else [{ r with off := r.off + k }]) ++ l2) (h3 : f1.evs = f.evs ++ [v])
    (h4 : v.num = r.num)
    (h5 : v.writes = if r.d.len = 0 then [] else
      (List.range k).map fun q => (r.d.sel, (r.d.ram + (r.off + q)) % 2 ^ c.ramW, g q))
    (h6 : v.error = 0) (h7 : ∀ x, v.status = some x → x.1 = r.d.tag) (h8 : H → ∀ q < k, g q = data r.num r.d (r.off + q))

theorem emit_status {e : RdEnv} {r : RdReq} {out : List RdReq} {w : List (Nat × Nat × UInt8)} {fin : Bool} {err : Nat} :
    ∃ v, (e.emit r out w fin err).evs = e.evs ++ [v] ∧ v.num = r.num ∧ v.writes = w ∧ v.error = err ∧
      ∀ x, v.status = some x → x.1 = r.d.tag := by
  refine ⟨_, rfl, rfl, rfl, rfl, ?_⟩
  intro x hx
  simp only at hx
  split at hx
  · simp only [Option.some.injEq] at hx; rw [← hx]
  · simp at hx

theorem data_w {c : DrdCfg} {data : Nat → RdDesc → Nat → UInt8} {H : Prop} {f : RdEnv} {r : RdReq} {t k lane : Nat} {dat : Nat → UInt8} {cur : RdCur}
    (hf : f.out.find? (·.tag == t) = some r) (h1 : (f.out.map (·.tag)).count t ≤ 1) (hk : r.off + k ≤ r.stop)
    (hd : H → ∀ q < k, dat (lane + q) = data r.num r.d (r.off + q)) :
    BeatW c data H f { ({ f with last := none } : RdEnv).data c r k lane dat with cur := cur } := by
  obtain ⟨ht, l1, l2, e, q1, q2⟩ := out_split hf h1
  subst ht
  have hadv := advance_split (k := k) q1 q2
  obtain ⟨v, g1, g2, g3, g4, g5⟩ := emit_status (e := { f with last := none }) (r := r) (out := rdAdvance r.tag k f.out)
    (w := if r.d.len = 0 then [] else
      (List.range k).map fun q => (r.d.sel, (r.d.ram + (r.off + q)) % 2 ^ c.ramW, dat (lane + q)))
    (fin := decide (r.off + k = r.stop)) (err := 0)
  refine .data l1 l2 r v k (fun q => dat (lane + q)) e hk ?_ g1 g2 g3 g4 g5 hd
  show rdAdvance r.tag k f.out = _
  rw [e, hadv]

theorem rdKind_code {c : DrdCfg} {out : List RdReq} {i : DrdIn} {r : RdReq} {n : Nat} (h : rdKind c out i = .error r n) : n ≠ 0 := by
  unfold rdKind at h
  dsimp only at h
  cases hf : out.find? (·.tag == cplHdrTag i.rxHdr) with
  | none => rw [hf] at h; simp at h
  | some r' =>
    rw [hf] at h
    simp only at h
    repeat' split at h
    all_goals first | (simp only [RdKind.error.injEq] at h; omega) | (simp at h)

theorem beat_w {c : DrdCfg} (data : Nat → RdDesc → Nat → UInt8) {opOf : Nat → Nat} {s : Drd} {i : DrdIn} {f : RdEnv} {x : DrdRx}
    (hrel : RxRel c opOf x f) (hwf : ∀ r ∈ f.out, RdReqWf r) (hcnt : ∀ t, (f.out.map (·.tag)).count t ≤ 1) :
    BeatW c data (drdTransfer s i = true → CplBytesOk c data f i) f (envBeat c s i f) := by
  unfold envBeat
  by_cases ht : drdTransfer s i = true
  · rw [if_pos ht]
    have hcases : f.cur = .skip ∨ (∃ t left, f.cur = .data t left) ∨ f.cur = .none := by
      cases f.cur with
      | none => exact .inr (.inr rfl)
      | skip => exact .inl rfl
      | data t left => exact .inr (.inl ⟨t, left, rfl⟩)
    unfold RdEnv.beat
    rcases hcases with hcur | ⟨t, left, hcur⟩ | hcur
    · simp only [hcur]
      exact .none rfl rfl
    · unfold RxRel at hrel
      rw [hcur] at hrel
      obtain ⟨_, r, hf, hat⟩ := hrel
      simp only [hcur, hf]
      have hrt : r.tag = t := by have := List.find?_some hf; simpa using this
      refine data_w hf (hcnt t) (by have := hat.le; have := (hwf r (List.mem_of_find?_eq_some hf)).lt; omega) ?_
      intro H q hq
      have := H ht
      unfold CplBytesOk at this
      rw [hcur] at this
      rw [Nat.zero_add]
      exact this r (List.mem_of_find?_eq_some hf) hrt q hq
    · simp only [hcur]
      split
      · rename_i hsop
        split
        · exact .none rfl rfl
        · exact .none rfl rfl
        · rename_i r code hk
          have hf := (rdKind_mem (.inl ⟨code, hk⟩)).1
          obtain ⟨ht', l1, l2, e, q1, q2⟩ := out_split hf (hcnt _)
          rw [← ht'] at q1 q2
          obtain ⟨v, g1, g2, g3, g4, g5⟩ := emit_status (e := { f with last := none }) (r := r) (out := f.out.filter (·.tag != r.tag)) (w := [])
            (fin := true) (err := code)
          refine .error l1 l2 r v e ?_ g1 g2 g3 (by rw [g4]; exact rdKind_code hk) g5
          show f.out.filter (·.tag != r.tag) = _
          rw [e]; exact filter_split q1 q2
        · rename_i r hk
          have hf := (rdKind_mem (.inr hk)).1
          refine data_w hf (hcnt _) (by have := (hwf r (List.mem_of_find?_eq_some hf)).lt; unfold cplFirst cplCount; omega) ?_
          intro H q hq
          have := H ht
          unfold CplBytesOk at this
          rw [hcur] at this
          exact this hsop r hk q hq
      · exact .none rfl rfl
  · rw [if_neg ht]
    exact .none rfl rfl

/-- What has been written for a descriptor. -/
def evW (f : RdEnv) (m : Nat) : List (Nat × Nat × UInt8) := (f.evs.filter (·.num == m)).flatMap (·.writes)

/-- What is to come for requests. -/
def outW (c : DrdCfg) (data : Nat → RdDesc → Nat → UInt8) (l : List RdReq) (m : Nat) : List (Nat × Nat × UInt8) :=
  (l.filter (·.num == m)).flatMap fun r => copyPart c r.d (data m r.d) r.off r.stop

/-- What is to come for a descriptor that is being requested. -/
def todoW (c : DrdCfg) (data : Nat → RdDesc → Nat → UInt8) (l : List RdTodo) (m : Nat) : List (Nat × Nat × UInt8) :=
  (l.filter (·.num == m)).flatMap fun t => copyPart c t.d (data m t.d) t.off (rdSpan t.d)

theorem outW_append (c : DrdCfg) (data : Nat → RdDesc → Nat → UInt8) (a b : List RdReq) (m : Nat) :
    outW c data (a ++ b) m = outW c data a m ++ outW c data b m := by unfold outW; simp

theorem outW_one (c : DrdCfg) (data : Nat → RdDesc → Nat → UInt8) (r : RdReq) (m : Nat) :
    outW c data [r] m = if r.num = m then copyPart c r.d (data m r.d) r.off r.stop else [] := by
  unfold outW
  by_cases h : r.num = m <;> simp [h]

/-- Descriptors, requests and writes belong together. -/
structure CopyInv (c : DrdCfg) (acc : List RdDesc) (f : RdEnv) : Prop where
  len : f.count = acc.length
  todo : ∀ t ∈ f.todo, acc[t.num]? = some t.d ∧ t.off ≤ rdSpan t.d
  out : ∀ r ∈ f.out, acc[r.num]? = some r.d ∧ r.stop ≤ rdSpan r.d
  ev : ∀ v ∈ f.evs, ∃ d, acc[v.num]? = some d ∧ (∀ x, v.status = some x → x.1 = d.tag) ∧
    ∀ w ∈ v.writes, ∃ q < d.len, w.1 = d.sel ∧ w.2.1 = (d.ram + q) % 2 ^ c.ramW

/-- What has been written and what is to come is what is to be written. -/
def CovInv (c : DrdCfg) (data : Nat → RdDesc → Nat → UInt8) (acc : List RdDesc) (f : RdEnv) : Prop :=
  ∀ m d, acc[m]? = some d → (∀ v ∈ f.evs, v.num = m → v.error = 0) →
    (evW f m ++ (outW c data f.out m ++ todoW c data f.todo m)).Perm (drdCopy c d (data m d))

theorem copy_beat {c : DrdCfg} {data : Nat → RdDesc → Nat → UInt8} {H : Prop} {acc : List RdDesc} {f f1 : RdEnv} (h : CopyInv c acc f)
    (hb : BeatW c data H f f1) (hwf : ∀ r ∈ f.out, RdReqWf r) (ht : f1.todo = f.todo) (hc : f1.count = f.count) :
    CopyInv c acc f1 ∧ (H → CovInv c data acc f → CovInv c data acc f1) := by
  cases hb with
  | none h1 h2 =>
    refine ⟨⟨by rw [hc]; exact h.len, by rw [ht]; exact h.todo, by rw [h1]; exact h.out, by rw [h2]; exact h.ev⟩, fun _ hv m d hm he => ?_⟩
    have := hv m d hm (by rw [h2] at he; exact he)
    unfold evW at *
    rw [h1, h2, ht]; exact this
  | error l1 l2 r v h1 h2 h3 h4 h5 h6 h7 =>
    have hr := h.out r (by rw [h1]; simp)
    refine ⟨⟨by rw [hc]; exact h.len, by rw [ht]; exact h.todo, ?_, ?_⟩, fun _ hv m d hm he => ?_⟩
    · intro x hx
      refine h.out x ?_
      rw [h2] at hx; rw [h1]
      simp only [List.mem_append, List.mem_cons] at hx ⊢
      rcases hx with hx | hx <;> simp [hx]
    · rw [h3]
      intro x hx
      rw [List.mem_append, List.mem_singleton] at hx
      rcases hx with hx | hx
      · exact h.ev x hx
      · rw [hx, h4]
        exact ⟨r.d, hr.1, h7, by rw [h5]; simp⟩
    · have hne : r.num ≠ m := by
        intro heq
        exact h6 (he v (by rw [h3]; simp) (by rw [h4, heq]))
      have := hv m d hm (fun x hx => he x (by rw [h3]; simp [hx]))
      have e1 : evW f1 m = evW f m := by
        unfold evW; rw [h3, List.filter_append]; simp [h4, hne]
      have e2 : outW c data f1.out m = outW c data f.out m := by
        rw [h2, h1, outW_append, outW_append, show r :: l2 = [r] ++ l2 from rfl, outW_append, outW_one, if_neg hne]; simp
      rw [e1, e2, ht]; exact this
  | data l1 l2 r v k g h1 hk h2 h3 h4 h5 h6 h7 h8 =>
    have hr := h.out r (by rw [h1]; simp)
    have hw := hwf r (by rw [h1]; simp)
    refine ⟨⟨by rw [hc]; exact h.len, by rw [ht]; exact h.todo, ?_, ?_⟩, fun hH hv m d hm he => ?_⟩
    · intro x hx
      rw [h2] at hx
      simp only [List.mem_append] at hx
      rcases hx with (hx | hx) | hx
      · exact h.out x (by rw [h1]; simp [hx])
      · split at hx
        · simp at hx
        · simp only [List.mem_singleton] at hx
          rw [hx]; exact hr
      · exact h.out x (by rw [h1]; simp [hx])
    · rw [h3]
      intro x hx
      rw [List.mem_append, List.mem_singleton] at hx
      rcases hx with hx | hx
      · exact h.ev x hx
      · rw [hx, h4]
        refine ⟨r.d, hr.1, h7, ?_⟩
        rw [h5]
        by_cases hl : r.d.len = 0
        · rw [if_pos hl]; simp
        · rw [if_neg hl]
          intro w hw'
          obtain ⟨q, hq, rfl⟩ := List.mem_map.1 hw'
          have := List.mem_range.1 hq
          have h9 := hr.2
          unfold rdSpan at h9
          rw [if_neg hl] at h9
          exact ⟨r.off + q, by omega, rfl, rfl⟩
    · have hh := hv m d hm (fun x hx => he x (by rw [h3]; simp [hx]))
      by_cases hne : r.num = m
      · have e1 : evW f1 m = evW f m ++ copyPart c r.d (data m r.d) r.off (r.off + k) := by
          have : copyPart c r.d (data m r.d) r.off (r.off + k) = v.writes := by
            rw [h5]; unfold copyPart
            split
            · rfl
            · rw [show r.off + k - r.off = k by omega, List.range'_eq_map_range, List.map_map]
              apply List.map_congr_left
              intro q hq
              have := h8 hH q (List.mem_range.1 hq)
              simp only [Function.comp]
              rw [this, hne]
          unfold evW; rw [h3, List.filter_append, List.flatMap_append]
          simp [h4, hne, this]
        have e2 : outW c data f.out m = outW c data l1 m ++ (copyPart c r.d (data m r.d) r.off (r.off + k) ++
            (copyPart c r.d (data m r.d) (r.off + k) r.stop ++ outW c data l2 m)) := by
          rw [h1, outW_append, show r :: l2 = [r] ++ l2 from rfl, outW_append, outW_one, if_pos hne,
            copyPart_split c r.d (data m r.d) (Nat.le_add_right r.off k) hk, List.append_assoc]
        have e3 : outW c data f1.out m = outW c data l1 m ++ (copyPart c r.d (data m r.d) (r.off + k) r.stop ++ outW c data l2 m) := by
          rw [h2, outW_append, outW_append, List.append_assoc]
          congr 2
          split
          · rename_i heq; rw [heq, copyPart_self]; rfl
          · rw [outW_one, if_pos hne]
        rw [e1, e3, ht]
        rw [e2] at hh
        refine List.Perm.trans ?_ hh
        simp only [List.append_assoc]
        refine List.Perm.append_left _ ?_
        rw [← List.append_assoc, ← List.append_assoc (outW c data l1 m)]
        exact List.Perm.append_right _ List.perm_append_comm
      · have e1 : evW f1 m = evW f m := by
          unfold evW; rw [h3, List.filter_append]; simp [h4, hne]
        have e2 : outW c data f1.out m = outW c data f.out m := by
          rw [h2, h1, outW_append, outW_append, outW_append, show r :: l2 = [r] ++ l2 from rfl, outW_append, outW_one, if_neg hne]
          split
          · unfold outW; simp
          · rw [outW_one, if_neg (by exact hne)]; simp
        rw [e1, e2, ht]; exact hh

theorem copy_req {c : DrdCfg} {data : Nat → RdDesc → Nat → UInt8} {opOf : Nat → Nat} {s : Drd} {i : DrdIn} {acc : List RdDesc} {f f1 f3 : RdEnv}
    (hre : ReqEv c opOf s i f f1 f3) (ht : f1.todo = f.todo) (hc : f1.count = f.count) (he : f3.evs = f1.evs) (h : CopyInv c acc f1) :
    CopyInv c (acc ++ if s.req.ready && i.valid then [rdDescOf c i] else []) f3 ∧
    (CovInv c data acc f1 → CovInv c data (acc ++ if s.req.ready && i.valid then [rdDescOf c i] else []) f3) := by
  cases hre with
  | issue d off z _ _ hr _ _ _ _ _ h1 h2 h3 h4 hsp hsl =>
    rw [hr]
    simp only [Bool.false_eq_true, if_false, List.append_nil]
    have hd := h.todo ⟨f.count - 1, d, off⟩ (by rw [ht, h1]; simp)
    simp only at hd
    refine ⟨⟨by rw [h4, ← hc]; exact h.len, ?_, ?_, by rw [he]; exact h.ev⟩, fun hv m d' hm hev => ?_⟩
    · rw [h3]
      intro t htm
      split at htm
      · simp at htm
      · simp only [List.mem_singleton] at htm
        rw [htm]; exact ⟨hd.1, hsp⟩
    · rw [h2]
      intro r hrm
      rw [List.mem_append, List.mem_singleton] at hrm
      rcases hrm with hrm | hrm
      · exact h.out r hrm
      · rw [hrm]; exact ⟨hd.1, hsp⟩
    · rw [he] at hev
      have hh := hv m d' hm hev
      have e0 : evW f3 m = evW f1 m := by unfold evW; rw [he]
      rw [e0, h2, outW_append, outW_one]
      refine List.Perm.trans ?_ hh
      refine List.Perm.append_left _ ?_
      rw [List.append_assoc]
      refine List.Perm.append_left _ ?_
      apply List.Perm.of_eq
      rw [ht, h1, h3]
      by_cases hm' : f.count - 1 = m
      · have e1 : todoW c data [⟨f.count - 1, d, off⟩] m = copyPart c d (data m d) off (rdSpan d) := by
          unfold todoW; simp [hm']
        rw [e1, if_pos hm', copyPart_split c d (data m d) (Nat.le_add_right off z) hsp]
        congr 1
        split
        · rename_i hl; rw [hsl hl, copyPart_self]; rfl
        · unfold todoW; simp [hm']
      · have e1 : ∀ o, todoW c data [⟨f.count - 1, d, o⟩] m = [] := by intro o; unfold todoW; simp [hm']
        rw [e1, if_neg hm']
        split
        · rfl
        · rw [e1]; rfl
  | accept _ _ hr _ _ _ _ h1 h2 h3 h4 =>
    rw [hr]
    simp only [if_true]
    have hlen : acc.length = f.count := by rw [← hc]; exact h.len.symm
    have hmono : ∀ {m : Nat} {d : RdDesc}, acc[m]? = some d → (acc ++ [rdDescOf c i])[m]? = some d := by
      intro m d hm
      rw [List.getElem?_append_left (List.getElem?_eq_some_iff.1 hm).1]; exact hm
    refine ⟨⟨by rw [h4]; simp [hlen], ?_, ?_, ?_⟩, fun hv m d' hm hev => ?_⟩
    · rw [h3]
      intro t htm
      simp only [List.mem_singleton] at htm
      rw [htm]
      exact ⟨by simp [← hlen], Nat.zero_le _⟩
    · rw [h2]
      intro r hrm
      exact ⟨hmono (h.out r hrm).1, (h.out r hrm).2⟩
    · rw [he]
      intro v hvm
      obtain ⟨d, g1, g2⟩ := h.ev v hvm
      exact ⟨d, hmono g1, g2⟩
    · rw [he] at hev
      have e0 : evW f3 m = evW f1 m := by unfold evW; rw [he]
      by_cases hm' : m < acc.length
      · rw [List.getElem?_append_left hm'] at hm
        have hh := hv m d' hm hev
        have e1 : todoW c data f3.todo m = todoW c data f1.todo m := by
          rw [h3, ht, h1]
          unfold todoW
          have : f.count ≠ m := by omega
          simp [this]
        rw [e0, h2, e1]; exact hh
      · have hme : m = f.count := by
          have := (List.getElem?_eq_some_iff.1 hm).1
          simp at this; omega
        have hd' : d' = rdDescOf c i := by
          rw [List.getElem?_append_right (by omega), show m - acc.length = 0 by omega] at hm
          simpa using hm.symm
        have hn1 : evW f1 m = [] := by
          unfold evW
          rw [List.filter_eq_nil_iff.2]; · rfl
          intro v hvm
          obtain ⟨d, g1, _⟩ := h.ev v hvm
          have := (List.getElem?_eq_some_iff.1 g1).1
          simp; omega
        have hn2 : outW c data f1.out m = [] := by
          unfold outW
          rw [List.filter_eq_nil_iff.2]; · rfl
          intro r hrm
          have := (List.getElem?_eq_some_iff.1 (h.out r hrm).1).1
          simp; omega
        rw [e0, h2, hn1, hn2, h3, hd', ← copyPart_all]
        have : todoW c data [⟨f.count, rdDescOf c i, 0⟩] m = copyPart c (rdDescOf c i) (data m (rdDescOf c i)) 0 (rdSpan (rdDescOf c i)) := by
          unfold todoW; simp [hme]
        rw [this]; exact List.Perm.refl _
  | none _ _ hr _ h1 h2 h3 =>
    rw [hr]
    simp only [Bool.false_eq_true, if_false, List.append_nil]
    refine ⟨⟨by rw [h3, ← hc]; exact h.len, by rw [h1, ← ht]; exact h.todo, by rw [h2]; exact h.out, by rw [he]; exact h.ev⟩,
      fun hv m d hm hev => ?_⟩
    have hh := hv m d hm (by rw [he] at hev; exact hev)
    unfold evW at *
    rw [he, h2, h1, ← ht]; exact hh

/-- The data of a completion, with requests counted when issued. -/
theorem bytes_pend {c : DrdCfg} {data : Nat → RdDesc → Nat → UInt8} {m rid : Nat} {opOf : Nat → Nat} {s : Drd} {i : DrdIn} {e : RdEnv}
    (h : EnvInv c m rid opOf s e)
    (hne : s.txV = true → drdTransfer s i = true → e.cur = .none → i.rxSop = true → rdHdrTag s.tx ≠ cplHdrTag i.rxHdr)
    (hb : drdTransfer s i = true → CplBytesOk c data e i) : drdTransfer s i = true → CplBytesOk c data (pendEnv s e) i := by
  intro ht
  have hb := hb ht
  obtain ⟨p1, -, -, -, p5⟩ := pendEnv_same s e
  have hcases : e.cur = .skip ∨ (∃ t left, e.cur = .data t left) ∨ e.cur = .none := by
    cases e.cur with
    | none => exact .inr (.inr rfl)
    | skip => exact .inl rfl
    | data t left => exact .inr (.inl ⟨t, left, rfl⟩)
  unfold CplBytesOk at *
  rw [p1]
  rcases hcases with hcur | ⟨t, left, hcur⟩ | hcur
  · rw [hcur]; trivial
  · rw [hcur] at hb ⊢
    intro r hr hrt
    rw [p5, List.mem_append] at hr
    rcases hr with hr | hr
    · exact hb r hr hrt
    · by_cases hv : s.txV = true
      · obtain ⟨x, g1, g2⟩ := h.pend hv
        rw [g1, List.mem_singleton] at hr
        exact absurd (by rw [← g2, ← hr, hrt]) (h.cur hv t left hcur)
      · unfold pendReq at hr; rw [if_neg hv] at hr; simp at hr
  · rw [hcur] at hb ⊢
    intro hsop r hk
    refine hb hsop r ?_
    rw [← hk]
    refine (rdKind_find ?_).symm
    rw [p5]
    by_cases htv : s.txV = true
    · obtain ⟨x, q1, q2⟩ := h.pend htv
      rw [q1]
      exact find_append_ne (by rw [q2]; exact hne htv ht hcur hsop)
    · unfold pendReq; rw [if_neg htv, List.append_nil]

/-- Descriptors and writes in a history. -/
theorem drd_copy {c : DrdCfg} (hc : DrdCfgOk c) {rid mrrs : Nat} (hmm : mrrs ≤ 4) (hrid : rid < 2 ^ 16) (data : Nat → RdDesc → Nat → UInt8) (is : List DrdIn) (s : Drd)
    (r : DrdIn) (hr : r.rst = true) (hi : r.mrrs = mrrs) (hh : DrdHist c mrrs rid rdEnv0 (drdStep c s r) is) :
    ∃ f, f.evs = (rdEnv0.run c (drdStep c s r) is).evs ∧ f = pendEnv (drdRun c (drdStep c s r) is) (rdEnv0.run c (drdStep c s r) is) ∧
      CopyInv c (drdAccepted c (drdStep c s r) is) f ∧
      (CplsBytes c data rdEnv0 (drdStep c s r) is → CovInv c data (drdAccepted c (drdStep c s r) is) f) := by
  have key := env_history (P := fun opOf s e is => (∀ i ∈ is, i.requesterId = rid) → ∀ acc : List RdDesc, CopyInv c acc (pendEnv s e) →
      CopyInv c (acc ++ drdAccepted c s is) (pendEnv (drdRun c s is) (e.run c s is)) ∧
      (CplsBytes c data e s is → CovInv c data acc (pendEnv s e) →
        CovInv c data (acc ++ drdAccepted c s is) (pendEnv (drdRun c s is) (e.run c s is))))
    hc hmm hrid is s r hr hi hh
    (fun opOf s e h _ acc ho => by
      simp only [drdAccepted, drdTrace, List.filterMap_nil, List.append_nil, drdRun, RdEnv.run]
      exact ⟨ho, fun _ hv => hv⟩)
    (fun opOf s e i is h h' hs hr' hk hacc ih hq acc ho => by
      have hm : 32 ≤ 32 * 2 ^ mrrs ∧ 32 * 2 ^ mrrs ≤ 512 := by
        obtain ⟨m1, m2, _⟩ := mrrs_vals hmm
        have h5 : (if mrrs > 5 then 5 else mrrs) = mrrs := if_neg (by omega)
        rw [h5] at m1 m2
        exact ⟨m1, m2⟩
      obtain ⟨-, hne⟩ := env_beat hc h hk
      obtain ⟨-, -, -, p4, -⟩ := pendEnv_same s e
      obtain ⟨r1, r2⟩ := req_ev hc h.inv (reqFacts hm h.req (by rw [hq i (by simp)]; exact hrid)) (by rw [p4]; exact hacc)
      obtain ⟨b1, b2⟩ := envBeat_same c s i (pendEnv s e)
      have hw := beat_w data (s := s) (i := i) h.inv.rx h.inv.wf h.inv.nodup
      obtain ⟨c1, c2⟩ := copy_beat ho hw h.inv.wf b1 b2
      obtain ⟨d1, d2⟩ := copy_req (data := data) r1 b1 b2 r2 c1
      rw [← hs.pend] at d1 d2
      obtain ⟨g1, g2⟩ := ih (fun x hx => hq x (by simp [hx])) _ d1
      rw [drdAccepted_cons]
      simp only [drdRun, RdEnv.run]
      rw [List.append_assoc] at g1 g2
      refine ⟨g1, fun hbytes hv => g2 hbytes.2 (d2 (c2 (bytes_pend h hne hbytes.1) hv))⟩)
  obtain ⟨opOf, h0, hp⟩ := key
  have h3 : (drdStep c s r).txV = false := by unfold drdStep; rw [hr]; rfl
  have hp0 : pendEnv (drdStep c s r) rdEnv0 = rdEnv0 := by unfold pendEnv; rw [h3]; rfl
  have hc0 : CopyInv c [] rdEnv0 := ⟨rfl, by simp [rdEnv0], by simp [rdEnv0], by simp [rdEnv0]⟩
  have hv0 : CovInv c data [] rdEnv0 := by intro m d hm; simp at hm
  obtain ⟨g1, g2⟩ := hp (fun i hi => (hh.inp i hi).2) [] (by rw [hp0]; exact hc0)
  rw [List.nil_append] at g1 g2
  exact ⟨_, (pendEnv_same _ _).2.2.1, rfl, g1, fun hb => g2 hb (by rw [hp0]; exact hv0)⟩

theorem rdError_fold {evs : List RdEvent} {m a : Nat} (h : ∀ v ∈ evs, v.num = m → v.error = 0) :
    evs.foldl (fun a v => if v.num = m ∧ v.error ≠ 0 then v.error else a) a = a := by
  induction evs generalizing a with
  | nil => rfl
  | cons v l ih =>
    rw [List.foldl_cons, if_neg (fun hh => hh.2 (h v (by simp) hh.1))]
    exact ih fun x hx => h x (by simp [hx])

theorem rdError_zero {evs : List RdEvent} {m : Nat} (h : rdError evs m = 0) : ∀ v ∈ evs, v.num = m → v.error = 0 := by
  have key : ∀ a, evs.foldl (fun a v => if v.num = m ∧ v.error ≠ 0 then v.error else a) a = 0 → ∀ v ∈ evs, v.num = m → v.error = 0 := by
    clear h
    induction evs with
    | nil => simp
    | cons v l ih =>
      intro a h
      rw [List.foldl_cons] at h
      have hl := ih _ h
      rw [rdError_fold hl] at h
      intro x hx hn
      rcases List.mem_cons.1 hx with hx | hx
      · subst hx
        split at h
        · exact h
        · rename_i h'
          simp only [hn, true_and, Decidable.not_not, ne_eq] at h'
          exact h'
      · exact hl x hx hn
  exact key 0 h

/-- What has been written for a descriptor whose status has no error. -/
theorem copy_done {c : DrdCfg} {data : Nat → RdDesc → Nat → UInt8} {acc : List RdDesc} {f : RdEnv} (h : CopyInv c acc f) (hv : CovInv c data acc f)
    (he : EvInv f) {v : RdEvent} (hm : v ∈ f.evs) {tag : Nat} (hs : v.status = some (tag, 0)) :
    ∃ d, acc[v.num]? = some d ∧ tag = d.tag ∧ (evW f v.num).Perm (drdCopy c d (data v.num d)) := by
  obtain ⟨d, g1, g2, -⟩ := h.ev v hm
  refine ⟨d, g1, g2 _ hs, ?_⟩
  obtain ⟨a, b, hab⟩ := List.append_of_mem hm
  have hsome : v.status.isSome = true := by rw [hs]; rfl
  obtain ⟨-, k2, k3, -⟩ := (he.dec a v b hab).1 hsome
  have k4 := he.later a v b hab hsome
  have k5 := he.err a v b _ hab hs
  have hz := rdError_zero k5.symm
  have := hv v.num d g1 (fun w hw hn => by
    rw [hab, show a ++ v :: b = (a ++ [v]) ++ b by simp, List.mem_append] at hw
    rcases hw with hw | hw
    · exact hz w hw hn
    · exact absurd hn (k4 w hw))
  have e1 : outW c data f.out v.num = [] := by
    unfold outW
    rw [List.filter_eq_nil_iff.2]; · rfl
    intro r hr
    have := outN_zero.1 k3 r hr
    simpa using this
  have e2 : todoW c data f.todo v.num = [] := by
    unfold todoW
    rw [List.filter_eq_nil_iff.2]; · rfl
    intro t ht
    unfold todoN at k2
    rw [List.any_eq_false] at k2
    exact k2 t ht
  rw [e1, e2] at this
  simpa using this

/-- Writes in a segment. -/
theorem segParts_mem {c : DrdCfg} {k : Nat} {evs : List RdEvent} {w : Nat × Nat × UInt8} :
    w ∈ (drdSegParts c k evs).flatten ↔ drdInSeg c k w = true ∧ ∃ v ∈ evs, w ∈ v.writes := by
  unfold drdSegParts
  simp only [List.mem_flatten, List.mem_filter, List.mem_map]
  constructor
  · rintro ⟨l, ⟨⟨v, hv, rfl⟩, -⟩, hw⟩
    rw [List.mem_filter] at hw
    exact ⟨hw.2, v, hv, hw.1⟩
  · rintro ⟨h1, v, hv, hw⟩
    have : w ∈ v.writes.filter (drdInSeg c k) := List.mem_filter.2 ⟨hw, h1⟩
    exact ⟨_, ⟨⟨v, hv, rfl⟩, by cases hh : v.writes.filter (drdInSeg c k) with
      | nil => rw [hh] at this; simp at this
      | cons a l => rfl⟩, this⟩

theorem status_length (l : List RdEvent) : (l.filter (·.status.isSome)).length = (l.filterMap (·.status)).length := by
  induction l with
  | nil => rfl
  | cons v l ih => cases h : v.status <;> simp [h, ih]

theorem status_zip {l : List RdEvent} {p : Nat × Nat × Nat}
    (h : p ∈ ((l.filter (·.status.isSome)).map (·.num)).zip (l.filterMap (·.status))) : ∃ v ∈ l, p.1 = v.num ∧ v.status = some p.2 := by
  induction l with
  | nil => simp at h
  | cons v l ih =>
    cases hs : v.status with
    | none =>
      rw [List.filter_cons_of_neg (by simp [hs]), List.filterMap_cons_none hs] at h
      obtain ⟨u, h1, h2⟩ := ih h
      exact ⟨u, by simp [h1], h2⟩
    | some x =>
      rw [List.filter_cons_of_pos (by simp [hs]), List.filterMap_cons_some hs, List.map_cons, List.zip_cons_cons, List.mem_cons] at h
      rcases h with h | h
      · exact ⟨v, by simp, by rw [h], by rw [h, hs]⟩
      · obtain ⟨u, h1, h2⟩ := ih h
        exact ⟨u, by simp [h1], h2⟩

theorem inSeg_exists {c : DrdCfg} (hc : DrdCfgOk c) (w : Nat × Nat × UInt8) : ∃ k < c.segs, drdInSeg c k w = true := by
  refine ⟨w.2.1 % c.rowBytes / c.segBytes, ?_, by unfold drdInSeg; simp⟩
  have h1 : c.rowBytes = c.segs * c.segBytes := by
    unfold DrdCfg.rowBytes DrdCfg.segs DrdCfg.segBytes
    rw [← Nat.pow_add]
    congr 1
    have := hc.sc
    omega
  have h2 : 0 < c.rowBytes := Nat.two_pow_pos _
  rw [Nat.div_lt_iff_lt_mul (show 0 < c.segBytes from Nat.two_pow_pos _), ← h1]
  exact Nat.mod_lt _ h2

theorem done_mem {c : DrdCfg} {k n done : Nat} {evs : List RdEvent} {taken path : List DrdCmd} {w : Nat × Nat × UInt8}
    (hw : (taken ++ path).map (drdCmdWrites c k) = drdSegParts c k evs) (ht : done ≤ taken.length)
    (hL : (drdSegParts c k (evs.take n)).length ≤ done) (hm : w ∈ (drdSegParts c k (evs.take n)).flatten) :
    ∃ x ∈ taken.take done, w ∈ drdCmdWrites c k x := by
  have h2 : drdSegParts c k evs = drdSegParts c k (evs.take n) ++ drdSegParts c k (evs.drop n) := by
    rw [← segParts_append, List.take_append_drop]
  have h3 : (taken.take done).map (drdCmdWrites c k) = (drdSegParts c k evs).take done := by
    rw [← hw, ← List.map_take, List.take_append_of_le_length ht]
  have h4 : w ∈ ((taken.take done).map (drdCmdWrites c k)).flatten := by
    rw [h3, h2, List.take_append, List.take_of_length_le hL, List.flatten_append]
    exact List.mem_append_left _ hm
  obtain ⟨l, h5, h6⟩ := List.mem_flatten.1 h4
  obtain ⟨x, h7, rfl⟩ := List.mem_map.1 h5
  exact ⟨x, h7, h6⟩

end Verif.Proofs
