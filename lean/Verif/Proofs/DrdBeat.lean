import Verif.Proofs.DrdRx
/-! What a transfer on the completion interface does to the outstanding requests. -/
namespace Verif.Proofs
open Verif Verif.Model Verif.Spec

/-- The request with this tag, and the others. -/
theorem out_split {out : List RdReq} {t : Nat} {r : RdReq} (hf : out.find? (·.tag == t) = some r)
    (h1 : (out.map (·.tag)).count t ≤ 1) :
    r.tag = t ∧ ∃ l1 l2, out = l1 ++ r :: l2 ∧ (∀ a ∈ l1, a.tag ≠ t) ∧ ∀ a ∈ l2, a.tag ≠ t := by
  obtain ⟨ht, l1, l2, e, h2⟩ := List.find?_eq_some_iff_append.1 hf
  have ht : r.tag = t := by simpa using ht
  refine ⟨ht, l1, l2, e, fun a ha => by have := h2 a ha; simpa using this, fun a ha h => ?_⟩
  rw [e] at h1
  simp only [List.map_append, List.map_cons, List.count_append, List.count_cons, ht, beq_self_eq_true, if_true] at h1
  have : 0 < (l2.map (·.tag)).count t := List.count_pos_iff.2 (List.mem_map.2 ⟨a, ha, h⟩)
  omega

theorem advance_other {l : List RdReq} {t k : Nat} (h : ∀ a ∈ l, a.tag ≠ t) : rdAdvance t k l = l := by
  unfold rdAdvance
  induction l with
  | nil => rfl
  | cons a l ih =>
    rw [List.filterMap_cons]
    simp only [h a (by simp), if_false]
    rw [ih fun b hb => h b (by simp [hb])]

theorem advance_split {l1 l2 : List RdReq} {r : RdReq} {k : Nat} (h1 : ∀ a ∈ l1, a.tag ≠ r.tag) (h2 : ∀ a ∈ l2, a.tag ≠ r.tag) :
    rdAdvance r.tag k (l1 ++ r :: l2) =
      l1 ++ (if r.off + k = r.stop then [] else [{ r with off := r.off + k }]) ++ l2 := by
  have e1 := advance_other (k := k) h1
  have e2 := advance_other (k := k) h2
  unfold rdAdvance at *
  rw [List.filterMap_append, List.filterMap_cons, e1, e2]
  split <;> simp_all

theorem filter_split {l1 l2 : List RdReq} {r : RdReq} (h1 : ∀ a ∈ l1, a.tag ≠ r.tag) (h2 : ∀ a ∈ l2, a.tag ≠ r.tag) :
    (l1 ++ r :: l2).filter (·.tag != r.tag) = l1 ++ l2 := by
  rw [List.filter_append, List.filter_cons]
  simp only [bne_self_eq_false, Bool.false_eq_true, if_false]
  rw [List.filter_eq_self.2 (fun a ha => by simpa using h1 a ha), List.filter_eq_self.2 (fun a ha => by simpa using h2 a ha)]

/-- The same request with more bytes arrived. -/
structure ReqAdv (r r' : RdReq) : Prop where
  num : r'.num = r.num
  d : r'.d = r.d
  tag : r'.tag = r.tag
  stop : r'.stop = r.stop
  off : r.off ≤ r'.off
  wf : RdReqWf r'

/-- An effect `v` for request `r`. -/
structure BeatEv (f f1 : RdEnv) (l1 l2 : List RdReq) (r : RdReq) (v : RdEvent) : Prop where
  out : f.out = l1 ++ r :: l2
  evs : f1.evs = f.evs ++ [v]
  num : v.num = r.num
  ne1 : ∀ a ∈ l1, a.tag ≠ r.tag
  ne2 : ∀ a ∈ l2, a.tag ≠ r.tag
  status : v.status = if v.finish && !f.todo.any (·.num == r.num) && !f1.out.any (·.num == r.num) then
    some (r.d.tag, rdError f1.evs r.num) else none
  fin : v.finish = true → f1.out = l1 ++ l2 ∧ f1.last = some r.tag
  more : v.finish = false → f1.last = none ∧ ∃ r', f1.out = l1 ++ r' :: l2 ∧ ReqAdv r r'
  err : v.finish = false → v.error = 0

/-- The effect of a transfer. -/
def BeatOut (f f1 : RdEnv) : Prop :=
  (f1.out = f.out ∧ f1.last = none ∧ f1.evs = f.evs) ∨ ∃ l1 l2 r v, BeatEv f f1 l1 l2 r v

theorem rdError_snoc (evs : List RdEvent) (v : RdEvent) (n : Nat) :
    rdError (evs ++ [v]) n = if v.num = n ∧ v.error ≠ 0 then v.error else rdError evs n := by
  unfold rdError
  rw [List.foldl_append]; rfl

theorem emit_ev {f : RdEnv} {l1 l2 : List RdReq} {r : RdReq} {out : List RdReq} {w : List (Nat × Nat × UInt8)} {fin : Bool} {err : Nat}
    {cur : RdCur} (ho : f.out = l1 ++ r :: l2) (h1 : ∀ a ∈ l1, a.tag ≠ r.tag) (h2 : ∀ a ∈ l2, a.tag ≠ r.tag)
    (hf : fin = true → out = l1 ++ l2) (hm : fin = false → ∃ r', out = l1 ++ r' :: l2 ∧ ReqAdv r r') (he : fin = false → err = 0) :
    BeatOut f { ({ f with last := none } : RdEnv).emit r out w fin err with cur := cur } := by
  refine .inr ⟨l1, l2, r, _, ho, rfl, rfl, h1, h2, ?_, ?_, ?_, ?_⟩
  · unfold RdEnv.emit
    simp only
    rw [rdError_snoc, rdError_snoc]
  · intro h
    have h : fin = true := h
    exact ⟨hf h, by unfold RdEnv.emit; simp [h]⟩
  · intro h
    have h : fin = false := h
    exact ⟨by unfold RdEnv.emit; simp [h], hm h⟩
  · exact he

theorem data_ev {c : DrdCfg} {f : RdEnv} {r : RdReq} {t k lane : Nat} {data : Nat → UInt8} {cur : RdCur}
    (hf : f.out.find? (·.tag == t) = some r) (h1 : (f.out.map (·.tag)).count t ≤ 1) (hw : RdReqWf r) (hk : k ≤ r.stop - r.off) :
    BeatOut f { ({ f with last := none } : RdEnv).data c r k lane data with cur := cur } := by
  obtain ⟨ht, l1, l2, e, q1, q2⟩ := out_split hf h1
  subst ht
  have hadv := advance_split (k := k) q1 q2
  have := hw.lt
  have := hw.le
  have hz := hw.zero
  refine emit_ev e q1 q2 ?_ ?_ (fun _ => rfl)
  · intro h
    have h : r.off + k = r.stop := of_decide_eq_true h
    show rdAdvance r.tag k f.out = _
    rw [e, hadv, if_pos h]; simp
  · intro h
    have h : r.off + k ≠ r.stop := of_decide_eq_false h
    refine ⟨{ r with off := r.off + k }, ?_, rfl, rfl, rfl, rfl, by simp, ?_, ?_, ?_⟩
    · show rdAdvance r.tag k f.out = _
      rw [e, hadv, if_neg h]; simp
    · simp only; omega
    · simp only; omega
    · intro h0
      have := hz h0
      simp only; omega

theorem beat_out {c : DrdCfg} {opOf : Nat → Nat} {s : Drd} {i : DrdIn} {f : RdEnv} {x : DrdRx}
    (hrel : RxRel c opOf x f) (hwf : ∀ r ∈ f.out, RdReqWf r) (hcnt : ∀ t, (f.out.map (·.tag)).count t ≤ 1) :
    BeatOut f (envBeat c s i f) := by
  unfold envBeat
  by_cases ht : drdTransfer s i = true
  · rw [if_pos ht]
    have hcases : f.cur = .skip ∨ (∃ t left, f.cur = .data t left) ∨ f.cur = .none := by
      cases f.cur with
      | none => exact .inr (.inr rfl)
      | skip => exact .inl rfl
      | data t left => exact .inr (.inl ⟨t, left, rfl⟩)
    unfold RdEnv.beat
    rcases hcases with hcur | ⟨t, left, hcur⟩ | hcur
    · simp only [hcur]
      exact .inl ⟨rfl, rfl, rfl⟩
    · unfold RxRel at hrel
      rw [hcur] at hrel
      obtain ⟨_, r, hf, hat⟩ := hrel
      simp only [hcur, hf]
      exact data_ev hf (hcnt t) (hwf r (List.mem_of_find?_eq_some hf)) (by have := hat.le; omega)
    · simp only [hcur]
      split
      · split
        · exact .inl ⟨rfl, rfl, rfl⟩
        · exact .inl ⟨rfl, rfl, rfl⟩
        · rename_i r code hk
          have hf := (rdKind_mem (.inl ⟨code, hk⟩)).1
          obtain ⟨ht', l1, l2, e, q1, q2⟩ := out_split hf (hcnt _)
          rw [← ht'] at q1 q2
          refine emit_ev e q1 q2 (fun _ => ?_) (fun h => by simp at h) (fun h => by simp at h)
          rw [e]; exact filter_split q1 q2
        · rename_i r hk
          have hf := (rdKind_mem (.inr hk)).1
          exact data_ev hf (hcnt _) (hwf r (List.mem_of_find?_eq_some hf)) (by unfold cplFirst cplCount; omega)
      · exact .inl ⟨rfl, rfl, rfl⟩
  · rw [if_neg ht]
    exact .inl ⟨rfl, rfl, rfl⟩

/-- Where the completion in progress comes from. -/
theorem beat_cur {c : DrdCfg} {s : Drd} {i : DrdIn} {f : RdEnv} {u l : Nat} (h : (envBeat c s i f).cur = .data u l) :
    (∃ l', f.cur = .data u l') ∨
      (drdTransfer s i = true ∧ f.cur = .none ∧ i.rxSop = true ∧ u = cplHdrTag i.rxHdr ∧ ∃ r ∈ f.out, r.tag = u) := by
  unfold envBeat at h
  by_cases ht : drdTransfer s i = true
  · rw [if_pos ht] at h
    have hcases : f.cur = .skip ∨ (∃ t left, f.cur = .data t left) ∨ f.cur = .none := by
      cases f.cur with
      | none => exact .inr (.inr rfl)
      | skip => exact .inl rfl
      | data t left => exact .inr (.inl ⟨t, left, rfl⟩)
    unfold RdEnv.beat at h
    rcases hcases with hcur | ⟨t, left, hcur⟩ | hcur
    · simp only [hcur] at h
      split at h <;> simp at h
    · simp only [hcur] at h
      left
      refine ⟨left, ?_⟩
      rw [hcur]
      cases hf : f.out.find? (·.tag == t) with
      | none => rw [hf] at h; simp only at h; simp at h; rw [h.1]
      | some r =>
        rw [hf] at h
        simp only at h
        split at h
        · simp at h
        · simp at h; rw [h.1]
    · simp only [hcur] at h
      by_cases hs : i.rxSop = true
      · right
        rw [if_pos hs] at h
        refine ⟨ht, hcur, hs, ?_⟩
        cases hk : rdKind c f.out i with
        | unexpected => rw [hk] at h; simp only at h; split at h <;> simp at h
        | malformed => rw [hk] at h; simp only at h; split at h <;> simp at h
        | error r n => rw [hk] at h; simp only at h; split at h <;> simp at h
        | data r =>
          rw [hk] at h
          simp only at h
          obtain ⟨_, h2, h3⟩ := rdKind_mem (.inr hk)
          split at h
          · simp at h
          · simp at h
            exact ⟨by rw [← h.1, h3], r, h2, h.1⟩
      · rw [if_neg hs] at h
        simp at h
  · rw [if_neg ht] at h
    exact .inl ⟨l, h⟩

/-- Tags are moved from the outstanding requests to the finished one. -/
theorem beat_tags {f f1 : RdEnv} (h : BeatOut f f1) (t : Nat) :
    (f1.out.map (·.tag)).count t + (f1.last == some t).toNat = (f.out.map (·.tag)).count t := by
  rcases h with ⟨h1, h2, _⟩ | ⟨l1, l2, r, v, h⟩
  · rw [h1, h2]; rfl
  · cases hv : v.finish with
    | true =>
      obtain ⟨e1, e2⟩ := h.fin hv
      rw [e1, e2, h.out]
      simp only [List.map_append, List.map_cons, List.count_append, List.count_cons]
      have : (some r.tag == some t) = (r.tag == t) := rfl
      rw [this]
      cases r.tag == t <;> simp <;> omega
    | false =>
      obtain ⟨e2, r', e1, ha⟩ := h.more hv
      rw [e1, e2, h.out]
      simp only [List.map_append, List.map_cons, List.count_append, List.count_cons, ha.tag]
      rfl

/-- Outstanding requests come from outstanding requests. -/
theorem beat_mem {f f1 : RdEnv} (h : BeatOut f f1) (hwf : ∀ r ∈ f.out, RdReqWf r) {r' : RdReq} (hr : r' ∈ f1.out) :
    ∃ r ∈ f.out, ReqAdv r r' := by
  have same : ∀ r ∈ f.out, ReqAdv r r := fun r hr => ⟨rfl, rfl, rfl, rfl, Nat.le_refl _, hwf r hr⟩
  rcases h with ⟨h1, _, _⟩ | ⟨l1, l2, r, v, h⟩
  · rw [h1] at hr; exact ⟨r', hr, same r' hr⟩
  · cases hv : v.finish with
    | true =>
      obtain ⟨e1, _⟩ := h.fin hv
      rw [e1] at hr
      have hm : r' ∈ f.out := by
        rw [h.out]; simp only [List.mem_append, List.mem_cons] at hr ⊢
        rcases hr with hr | hr <;> simp [hr]
      exact ⟨r', hm, same r' hm⟩
    | false =>
      obtain ⟨_, r2, e1, ha⟩ := h.more hv
      rw [e1] at hr
      simp only [List.mem_append, List.mem_cons] at hr
      have hsub : ∀ a, a ∈ l1 ∨ a = r ∨ a ∈ l2 → a ∈ f.out := fun a h' => by
        rw [h.out]; simp only [List.mem_append, List.mem_cons]; exact h'
      rcases hr with hr | hr | hr
      · exact ⟨r', hsub r' (.inl hr), same r' (hsub r' (.inl hr))⟩
      · exact ⟨r, hsub r (.inr (.inl rfl)), hr ▸ ha⟩
      · exact ⟨r', hsub r' (.inr (.inr hr)), same r' (hsub r' (.inr (.inr hr)))⟩

end Verif.Proofs
