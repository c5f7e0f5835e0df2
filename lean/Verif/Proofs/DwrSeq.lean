import Verif.Proofs.DwrRun
/-! Sequence numbers of the DMA write interface. -/
namespace Verif.Proofs
open Verif Verif.Model Verif.Spec

/-- Invariant about sequence numbers. -/
structure SeqInv (c : DwrCfg) (g : DwrGhost) (q : SeqState) (s : Dwr) : Prop where
  cnt : q.sent + (s.outV && s.out.eop).toNat = g.D.length + g.A.length
  dle : g.D.length ≤ q.sent
  win : ∀ n ∈ q.out, g.D.length ≤ n ∧ n < q.sent
  nodup : q.out.Nodup
  done : c.seqEn = true → ∀ n, g.D.length ≤ n → n < g.D.length + g.A.length + (bSeg g.B).length + g.C.length →
    (s.txDone (n % 2 ^ c.opW) = true ↔ n < q.sent ∧ n ∉ q.out)

theorem seqInv_reset (c : DwrCfg) (s : Dwr) (r : DwrIn) (hr : r.rst = true) :
    SeqInv c (dwrGhost0 s) ⟨0, []⟩ (dwrStep c s r) := by
  refine ⟨?_, by simp [dwrGhost0], by simp, by simp, ?_⟩
  · simp [dwrStep, hr, dwrGhost0]
  · intro _ n h1 h2; simp [dwrGhost0, bSeg] at h2

section
variable {c : DwrCfg} {mem : Nat → Nat → UInt8} {m rid : Nat} {g : DwrGhost} {q : SeqState} {s : Dwr} {i : DwrIn}

/-- Two TLPs of the table with the same sequence number are the same. -/
theorem DwrInv.inj (h : DwrInv c mem m rid g s) {a b : Nat} (ha : g.D.length ≤ a) (hb : g.D.length ≤ b)
    (ha' : a < g.D.length + 2 ^ c.opW) (hb' : b < g.D.length + 2 ^ c.opW) (he : a % 2 ^ c.opW = b % 2 ^ c.opW) : a = b := by
  have := @mod_inj_lt g.D.length (a - g.D.length) (b - g.D.length) (2 ^ c.opW) (by omega) (by omega)
    (by rw [show g.D.length + (a - g.D.length) = a by omega, show g.D.length + (b - g.D.length) = b by omega]; exact he)
  omega

theorem DwrInv.size (h : DwrInv c mem m rid g s) : g.A.length + (bSeg g.B).length + g.C.length ≤ 2 ^ c.opW := by
  have := h.tbl.size
  simpa using this

/-- Finishing a TLP needs its sequence number when these are enabled. -/
theorem SeqInv.fin (h : DwrInv c mem m rid g s) (hq : SeqInv c g q s) (hs : c.seqEn = true) (hf : dwrFinish c s = true) :
    g.D.length < q.sent ∧ g.D.length ∉ q.out ∧ 0 < g.A.length := by
  obtain ⟨r, A', hA⟩ := h.fin hf
  simp only [dwrFinish, hs, Bool.and_eq_true, Bool.not_true, Bool.false_or] at hf
  have h1 := hf.1.2
  rw [h.tbl.fin, mod_pow_succ] at h1
  have hpos : 0 < g.A.length := by rw [hA]; simp
  have h2 := (hq.done hs g.D.length (Nat.le_refl _) (by omega)).mp h1
  exact ⟨h2.1, h2.2, hpos⟩

theorem SeqInv.step (h : DwrInv c mem m rid g s) (hq : SeqInv c g q s) (hs : c.seqEn = true)
    (ha : SeqAnswers c q i) : SeqInv c (dwrGhost c g s i) (seqNext c s i q) (dwrNext c s i) := by
  have hsize := h.size
  have hcnt := hq.cnt
  have hcat := h.cat_step (i := i)
  have hlen1 := congrArg List.length hcat.1
  have hlen2 := congrArg List.length hcat.2
  simp only [List.length_append] at hlen1 hlen2
  have eD : (dwrGhost c g s i).D = g.D ++ g.A.take (dwrFinish c s).toNat := rfl
  -- the TLPs that wait are after the finished ones
  have hD : g.D.length ≤ (dwrGhost c g s i).D.length ∧ ∀ n ∈ q.out, (dwrGhost c g s i).D.length ≤ n := by
    rw [eD, List.length_append]
    refine ⟨by omega, fun n hn => ?_⟩
    have hw := hq.win n hn
    cases hf : dwrFinish c s with
    | false => simp; exact hw.1
    | true =>
      have hf' := SeqInv.fin h hq hs hf
      have hne : n ≠ g.D.length := fun e => hf'.2.1 (e ▸ hn)
      simp only [Bool.toNat_true, List.length_take]
      omega
  have hDs : (dwrGhost c g s i).D.length ≤ q.sent := by
    rw [eD, List.length_append]
    cases hf : dwrFinish c s with
    | false =>
      simp only [Bool.toNat_false, List.take_zero, List.length_nil, Nat.add_zero]
      exact hq.dle
    | true =>
      have hf' := SeqInv.fin h hq hs hf
      simp only [Bool.toNat_true, List.length_take]
      omega
  have hcntN : (seqNext c s i q).sent = q.sent + (s.outV && i.tlpReady && s.out.eop).toNat := by
    unfold seqNext; cases (s.outV && i.tlpReady && s.out.eop) <;> simp
  have houtN : ∀ n, n ∈ (seqNext c s i q).out ↔ (n ∈ q.out ∧ n % 2 ^ c.opW ∉ i.seqs) ∨
      (n = q.sent ∧ (s.outV && i.tlpReady && s.out.eop) = true) := by
    intro n
    unfold seqNext
    cases (s.outV && i.tlpReady && s.out.eop) <;> simp
  have e2 : (dwrNext c s i).outV = (dwrBeat c s i || (s.outV && !i.tlpReady)) := rfl
  have e3 : (dwrNext c s i).out = if s.tx.transfer && (!s.outV || i.tlpReady) then dwrBeatOut c s i else s.out := rfl
  have hcnt' : (seqNext c s i q).sent + ((dwrNext c s i).outV && (dwrNext c s i).out.eop).toNat =
      (dwrGhost c g s i).D.length + (dwrGhost c g s i).A.length := by
    rw [hcntN, hlen1, ← hcnt, e2, e3]
    cases hb : dwrBeat c s i with
    | true =>
      obtain ⟨r, n, _, _, hB, _⟩ := h.beat hb
      have hb' := hb
      simp only [dwrBeat, Bool.and_eq_true, Bool.or_eq_true, Bool.not_eq_true'] at hb'
      have htr := hb'.1.1.1
      have hor := hb'.2
      have hc1 : (s.tx.transfer && (!s.outV || i.tlpReady)) = true := by
        rw [htr]; rcases hor with h1 | h1 <;> simp [h1]
      rw [hc1]
      simp only [if_true, Bool.true_or, Bool.true_and]
      have he : (dwrBeatOut c s i).eop = dwrTxFinish c s i := rfl
      rw [he]
      have hx : (s.outV && i.tlpReady && s.out.eop) = (s.outV && s.out.eop) := by
        rcases hor with h1 | h1 <;> simp [h1]
      rw [hx]
      cases dwrTxFinish c s i <;> simp [bSeg, hB]
    | false =>
      have hf : dwrTxFinish c s i = false := by simp [dwrTxFinish, hb]
      rw [hf]
      simp only [Bool.false_or, Bool.false_eq_true, if_false, List.length_nil, Nat.add_zero]
      cases hv : s.outV <;> cases hr : i.tlpReady <;> simp
  refine ⟨hcnt', by rw [hcntN]; omega, ?_, ?_, ?_⟩
  · intro n hn
    rw [hcntN]
    rcases (houtN n).mp hn with ⟨h1, _⟩ | ⟨h1, h2⟩
    · exact ⟨hD.2 n h1, by have := hq.win n h1; omega⟩
    · rw [h2, h1]; exact ⟨hDs, by simp⟩
  · unfold seqNext
    have hnd : (q.out.filter fun n => !i.seqs.contains (n % 2 ^ c.opW)).Nodup := hq.nodup.filter _
    simp only
    split
    · rw [List.nodup_append]
      refine ⟨hnd, by simp, ?_⟩
      intro a ha b hb
      simp only [List.mem_singleton] at hb
      have := hq.win a (List.mem_filter.mp ha).1
      omega
    · exact hnd
  · intro _ n hn1 hn2
    have hn1' : g.D.length ≤ n := by omega
    rw [hcntN]
    rw [houtN]
    have e4 : (dwrNext c s i).txDone (n % 2 ^ c.opW) = if i.seqs.any (fun x => x % 2 ^ c.opW == n % 2 ^ c.opW) then true
      else if dwrOpStart c s i && n % 2 ^ c.opW == s.tbl.start % 2 ^ c.opW then false
      else s.txDone (n % 2 ^ c.opW) := rfl
    rw [e4]
    -- the sequence number of `n` comes back exactly when `n` waits and is answered
    have hsz : (dwrOpStart c s i) = true → g.A.length + (bSeg g.B).length + g.C.length < 2 ^ c.opW := by
      intro ho
      simp only [dwrOpStart, Bool.and_eq_true] at ho
      have := h.tbl.free ho.1.1.2
      simpa using this
    have hwinP : n < g.D.length + 2 ^ c.opW := by
      have : (if dwrOpStart c s i then [s.req] else []).length = (dwrOpStart c s i).toNat := by
        cases dwrOpStart c s i <;> rfl
      rw [this] at hlen2
      cases ho : dwrOpStart c s i with
      | false => rw [ho] at hlen2; simp only [Bool.toNat_false] at hlen2; omega
      | true => have := hsz ho; rw [ho] at hlen2; simp only [Bool.toNat_true] at hlen2; omega
    have hret : i.seqs.any (fun x => x % 2 ^ c.opW == n % 2 ^ c.opW) = true ↔ n ∈ q.out ∧ n % 2 ^ c.opW ∈ i.seqs := by
      simp only [List.any_eq_true, beq_iff_eq]
      constructor
      · rintro ⟨x, hx, hxe⟩
        obtain ⟨k, hk, hke⟩ := ha.2 x hx
        have hk' := hq.win k hk
        have : k = n := h.inj hk'.1 hn1' (by omega) hwinP (by rw [← hxe, ← hke, Nat.mod_mod])
        subst this
        exact ⟨hk, by rw [hke]; exact hx⟩
      · rintro ⟨h1, h2⟩
        exact ⟨_, h2, Nat.mod_mod _ _⟩
    by_cases hr : n ∈ q.out ∧ n % 2 ^ c.opW ∈ i.seqs
    · rw [if_pos (hret.mpr hr)]
      have := hq.win n hr.1
      constructor
      · intro _
        refine ⟨by omega, ?_⟩
        rintro (⟨_, h2⟩ | ⟨h2, _⟩)
        · exact h2 hr.2
        · omega
      · intro _; rfl
    · rw [if_neg (fun hx => hr (hret.mp hx))]
      have hsend : (s.outV && i.tlpReady && s.out.eop) = true → (s.outV && s.out.eop).toNat = 1 := by
        simp only [Bool.and_eq_true]; rintro ⟨⟨h1, _⟩, h2⟩; simp [h1, h2]
      have hnew : n < q.sent + (s.outV && i.tlpReady && s.out.eop).toNat ∧
          ¬((n ∈ q.out ∧ n % 2 ^ c.opW ∉ i.seqs) ∨ (n = q.sent ∧ (s.outV && i.tlpReady && s.out.eop) = true)) ↔
          n < q.sent ∧ n ∉ q.out := by
        cases hx : (s.outV && i.tlpReady && s.out.eop) with
        | false => simp; intro _; constructor
                   · intro h1 h2; exact hr ⟨h2, h1 h2⟩
                   · intro h1 h2; exact absurd h2 h1
        | true =>
          simp
          constructor
          · rintro ⟨h1, h2, h3⟩
            exact ⟨by omega, fun h4 => hr ⟨h4, h2 h4⟩⟩
          · rintro ⟨h1, h2⟩
            exact ⟨by omega, fun h4 => absurd h4 h2, by omega⟩
      rw [hnew]
      by_cases hst : (dwrOpStart c s i && n % 2 ^ c.opW == s.tbl.start % 2 ^ c.opW) = true
      · rw [if_pos hst]
        simp only [Bool.and_eq_true, beq_iff_eq] at hst
        have hsz := hsz hst.1
        have he := hst.2
        rw [h.tbl.start, mod_pow_succ] at he
        simp only [List.length_map] at he
        have := h.inj hn1' (b := g.D.length + g.A.length + (bSeg g.B).length + g.C.length) (by omega) hwinP (by omega) he
        constructor
        · intro hx; cases hx
        · rintro ⟨h1, _⟩; omega
      · rw [if_neg hst]
        refine hq.done hs n hn1' ?_
        by_cases hlt : n < g.D.length + g.A.length + (bSeg g.B).length + g.C.length
        · exact hlt
        · exfalso
          cases ho : dwrOpStart c s i with
          | false => rw [ho] at hlen2; simp at hlen2; omega
          | true =>
            rw [ho] at hlen2
            simp at hlen2
            apply hst
            rw [ho, h.tbl.start, mod_pow_succ]
            simp only [List.length_map, Bool.true_and, beq_iff_eq]
            congr 1
            omega

end

end Verif.Proofs
