import Verif.Proofs.DrdReq
import Verif.Proofs.DmaClientSinkRun
/-! Histories of the request part of the PCIe DMA read interface. -/
namespace Verif.Proofs
open Verif Verif.Model Verif.Spec

theorem drdStep_eq (c : DrdCfg) (s : Drd) (i : DrdIn) (h : i.rst = false) : drdStep c s i = drdNext c s i := by
  unfold drdStep; simp [h]

/-- The bytes of a request. -/
def pieceBytes (zero : Bool) (x : Nat × Nat) : List Nat := if zero then [] else (List.range x.2).map (x.1 + ·)

/-- The requests for `count` bytes from `addr`: address and number of bytes. -/
def rdPieces (c : DrdCfg) (m : Nat) : Nat → Nat → Nat → List (Nat × Nat)
  | 0, _, _ => []
  | f + 1, addr, count =>
    let z := drdSize c m false addr count
    (addr, z.count) :: if z.last then [] else rdPieces c m f z.next (count - z.count)

theorem drdSize_rcb (c : DrdCfg) (m : Nat) (rcb : Bool) (addr count : Nat) :
    (drdSize c m rcb addr count).count = (drdSize c m false addr count).count ∧
    (drdSize c m rcb addr count).last = (drdSize c m false addr count).last ∧
    (drdSize c m rcb addr count).next = (drdSize c m false addr count).next := by
  unfold drdSize
  split
  · split <;> exact ⟨rfl, rfl, rfl⟩
  · split <;> exact ⟨rfl, rfl, rfl⟩

/-- The arguments of the sizes computed for the rest of a descriptor. -/
structure PieceOk (c : DrdCfg) (a n : Nat) : Prop where
  addr : a < 2 ^ 64
  pos : 1 ≤ n
  sum : n + a % 4 < 2 ^ max c.lenW 13

theorem PieceOk.next {c : DrdCfg} {m addr count : Nat} (hm : 32 ≤ m ∧ m ≤ 512) (h : PieceOk c addr count)
    (hl : (drdSize c m false addr count).last = false) :
    PieceOk c (drdSize c m false addr count).next (count - (drdSize c m false addr count).count) ∧
    (drdSize c m false addr count).count < count ∧
    (drdSize c m false addr count).next = (addr + (drdSize c m false addr count).count) % 2 ^ 64 := by
  have hz := drdSize_ok c false hm h.addr h.pos h.sum
  have hne : (drdSize c m false addr count).count ≠ count := by
    have := hz.last; rw [hl] at this; simpa using this.symm
  obtain ⟨n1, n2⟩ := hz.next hne
  have := hz.le
  have := h.sum
  refine ⟨⟨?_, by omega, by omega⟩, by omega, n1⟩
  rw [n1]; exact Nat.mod_lt _ (by decide)

theorem rdPieces_fuel {c : DrdCfg} {m : Nat} (hm : 32 ≤ m ∧ m ≤ 512) : ∀ (f addr count : Nat), PieceOk c addr count →
    count ≤ f → rdPieces c m f addr count = rdPieces c m count addr count := by
  intro f
  induction f using Nat.strongRecOn with
  | ind f ih =>
    intro addr count h hf
    have hp := h.pos
    match f, count, h, hf, hp with
    | 0, count, h, hf, hp => omega
    | f + 1, count + 1, h, hf, hp =>
      rw [rdPieces, rdPieces]
      congr 1
      cases hl : (drdSize c m false addr (count + 1)).last with
      | true => rfl
      | false =>
        simp only [Bool.false_eq_true, if_false]
        obtain ⟨h1, h2, -⟩ := h.next hm hl
        have hz := drdSize_ok c false hm h.addr h.pos h.sum
        have := hz.pos
        rw [ih f (by omega) _ _ h1 (by omega), ih count (by omega) _ _ h1 (by omega)]

theorem rdPieces_flatten {c : DrdCfg} {m : Nat} (hm : 32 ≤ m ∧ m ≤ 512) : ∀ (f addr count : Nat), PieceOk c addr count →
    count ≤ f → (rdPieces c m f addr count).flatMap (pieceBytes false) = (List.range count).map (fun n => (addr + n) % 2 ^ 64) ∧
    ∀ x ∈ rdPieces c m f addr count, 1 ≤ x.2 := by
  intro f
  induction f with
  | zero => intro addr count h hf; have := h.pos; omega
  | succ f ih =>
    intro addr count h hf
    rw [rdPieces]
    have hz := drdSize_ok c false hm h.addr h.pos h.sum
    have hpos := hz.pos
    have hle := hz.le
    have hpage := hz.page
    have ha := h.addr
    have hb : pieceBytes false (addr, (drdSize c m false addr count).count) =
        (List.range (drdSize c m false addr count).count).map fun n => (addr + n) % 2 ^ 64 := by
      unfold pieceBytes
      simp only [Bool.false_eq_true, if_false]
      apply List.map_congr_left
      intro n hn
      have := List.mem_range.mp hn
      simp only [Nat.reducePow] at ha ⊢
      omega
    cases hl : (drdSize c m false addr count).last with
    | true =>
      have hc : (drdSize c m false addr count).count = count := by
        have := hz.last; rw [hl] at this; simpa using this.symm
      simp only [if_true, List.flatMap_cons, List.flatMap_nil, List.append_nil]
      refine ⟨by rw [hb, hc], ?_⟩
      intro x hx
      rw [List.mem_singleton] at hx; rw [hx]; exact hpos
    | false =>
      obtain ⟨h1, h2, h3⟩ := h.next hm hl
      obtain ⟨i1, i2⟩ := ih _ _ h1 (by omega)
      simp only [Bool.false_eq_true, if_false, List.flatMap_cons]
      refine ⟨?_, ?_⟩
      · rw [hb, i1, h3]
        generalize (drdSize c m false addr count).count = z at *
        have : count = z + (count - z) := by omega
        conv => rhs; rw [this, List.range_add, List.map_append, List.map_map]
        congr 1
        apply List.map_congr_left
        intro n _
        simp only [Function.comp]
        rw [Nat.mod_add_mod, Nat.add_assoc]
      · intro x hx
        rcases List.mem_cons.mp hx with rfl | hx
        · exact hpos
        · exact i2 x hx

/-- The bytes of the requests for a descriptor. -/
def rdParts (c : DrdCfg) (m : Nat) (d : RdDesc) : List (List Nat) :=
  (rdPieces c m (rdSpan d) d.addr (rdSpan d)).map (pieceBytes (decide (d.len = 0)))

/-- The sum of length and offset does not overflow. -/
def RdDescOk (c : DrdCfg) (d : RdDesc) : Prop := d.addr % 4 + d.len < 2 ^ max c.lenW 13

theorem rdSpan_piece {c : DrdCfg} {d : RdDesc} (ha : d.addr < 2 ^ 64) (h : RdDescOk c d) : PieceOk c d.addr (rdSpan d) := by
  have h13 : 2 ^ 13 ≤ 2 ^ max c.lenW 13 := Nat.pow_le_pow_right (by omega) (by omega)
  have : (2 : Nat) ^ 13 = 8192 := rfl
  unfold RdDescOk at h
  refine ⟨ha, ?_, ?_⟩
  · unfold rdSpan; split <;> omega
  · unfold rdSpan; split <;> omega

theorem rdParts_split {c : DrdCfg} {m : Nat} (hm : 32 ≤ m ∧ m ≤ 512) {d : RdDesc} (ha : d.addr < 2 ^ 64) (h : RdDescOk c d) :
    RdSplitOf d (rdParts c m d) := by
  have hp := rdSpan_piece ha h
  obtain ⟨h1, h2⟩ := rdPieces_flatten hm (rdSpan d) d.addr (rdSpan d) hp (Nat.le_refl _)
  unfold rdParts RdSplitOf
  by_cases hz : d.len = 0
  · have hs : rdSpan d = 1 := by unfold rdSpan; rw [if_pos hz]
    have e : ∃ x, rdPieces c m 1 d.addr 1 = [x] := by
      rw [hs] at hp
      have hz' := drdSize_ok c false hm hp.addr hp.pos hp.sum
      have := hz'.pos; have := hz'.le
      have hl : (drdSize c m false d.addr 1).last = true := by
        rw [hz'.last]; simp; omega
      rw [rdPieces]
      simp only [hl, if_true]
      exact ⟨_, rfl⟩
    obtain ⟨x, e⟩ := e
    rw [hs, e]
    simp [rdDescBytes, hz, pieceBytes]
  · have hs : rdSpan d = d.len := by unfold rdSpan; rw [if_neg hz]
    rw [hs] at h1 h2 ⊢
    simp only [hz, decide_false]
    rw [← List.flatMap_def]
    refine ⟨by rw [h1]; rfl, fun h => h.elim, fun _ hmem => ?_⟩
    obtain ⟨x, hx, he⟩ := List.mem_map.mp hmem
    have := h2 x hx
    unfold pieceBytes at he
    simp only [Bool.false_eq_true, if_false, List.map_eq_nil_iff, List.range_eq_nil] at he
    omega

/-! ### Steps -/

/-- Invariant of the request part. -/
structure ReqInv (c : DrdCfg) (m rid : Nat) (s : Drd) : Prop where
  mrrs : s.mrrsDw = m
  ready : s.req.start = true → s.req.ready = false
  ok : s.req.start = true → ReqOkS c s.req
  tx : s.txV = true → ReadTlpOk c rid (4 * m) s.tx

/-- The bytes of the requests that have yet to be issued. -/
def reqRest (c : DrdCfg) (m : Nat) (s : Drd) : List (List Nat) :=
  if s.req.start then (rdPieces c m s.req.count s.req.addr s.req.count).map (pieceBytes s.req.zero) else []

/-- The request on the interface. -/
def reqNow (s : Drd) : List TlpHdr := if s.txV then [s.tx] else []

theorem drdIssue_start {c : DrdCfg} {s : Drd} {i : DrdIn} (h : drdIssue c s i = true) :
    s.req.start = true ∧ (!s.txV || i.txReady) = true := by
  unfold drdIssue at h
  simp only [Bool.and_eq_true] at h
  exact ⟨h.1.1.1.1.1, h.1.1.1.1.2⟩

/-- Cases of the request state machine. -/
theorem drdReq_cases {c : DrdCfg} {m rid : Nat} {s : Drd} (h : ReqInv c m rid s) (i : DrdIn) :
    (drdIssue c s i = true ∧ drdAccept s i = false ∧ (s.req.ready && i.valid) = false ∧ s.req.start = true) ∨
    (drdIssue c s i = false ∧ drdAccept s i = true ∧ (s.req.ready && i.valid) = true ∧ s.req.start = false) ∨
    (drdIssue c s i = false ∧ drdAccept s i = false ∧ (s.req.ready && i.valid) = false) := by
  have hr := h.ready
  cases hi : drdIssue c s i with
  | true =>
    have := (drdIssue_start hi).1
    left
    unfold drdAccept
    simp [this, hr this]
  | false =>
    right
    cases ha : drdAccept s i with
    | true =>
      left
      unfold drdAccept at ha
      simp only [Bool.and_eq_true, Bool.not_eq_true'] at ha
      simp [ha.1.1, ha.1.2, ha.2]
    | false =>
      right
      refine ⟨rfl, rfl, ?_⟩
      unfold drdAccept at ha
      cases hst : s.req.start with
      | true => simp [hr hst]
      | false => simpa [hst] using ha

/-- The request state machine after the issue of a request. -/
theorem drdReq_issue {c : DrdCfg} {m : Nat} {s : Drd} (hm : 32 ≤ m ∧ m ≤ 512) (hs : s.mrrsDw = m) (ho : ReqOkS c s.req)
    {i : DrdIn} (hi : drdIssue c s i = true) :
    (drdReqStep c s i).start = !decide ((drdReqSize c s).count = s.req.count) ∧
    (drdReqStep c s i).ready = ((drdReqSize c s).last && s.init.done && i.enable && !ringEmpty s.opFifo) ∧
    (drdReqStep c s i).sel = s.req.sel ∧ (drdReqStep c s i).zero = s.req.zero ∧
    (drdReqStep c s i).ram = (s.req.ram + (drdReqSize c s).count) % 2 ^ c.ramW ∧
    (drdReqStep c s i).count = s.req.count - (drdReqSize c s).count ∧
    ((drdReqSize c s).count ≠ s.req.count →
      (drdReqStep c s i).addr = (s.req.addr + (drdReqSize c s).count) % 2 ^ 64 ∧ ReqOkS c (drdReqStep c s i)) := by
  have hz := drdReqSize_ok hm hs ho
  have hst := (drdIssue_start hi).1
  have h1 := hz.pos
  have h2 := hz.le
  have h3 := ho.lt
  have hcnt : (s.req.count + 2 ^ c.lenW - (drdReqSize c s).count % 2 ^ c.lenW) % 2 ^ c.lenW =
      s.req.count - (drdReqSize c s).count := by
    rw [Nat.mod_eq_of_lt (Nat.lt_of_le_of_lt h2 h3),
      show s.req.count + 2 ^ c.lenW - (drdReqSize c s).count = (s.req.count - (drdReqSize c s).count) + 2 ^ c.lenW by omega,
      Nat.add_mod_right, Nat.mod_eq_of_lt (by omega)]
  have e : drdReqStep c s i =
      { s.req with
        start := !(drdReqSize c s).last
        addr := (drdReqSize c s).next
        ram := (s.req.ram + (drdReqSize c s).count) % 2 ^ c.ramW
        count := s.req.count - (drdReqSize c s).count
        ready := (drdReqSize c s).last && s.init.done && i.enable && !ringEmpty s.opFifo } := by
    unfold drdReqStep
    rw [if_pos hst, if_pos hi, hcnt]
  rw [e]
  refine ⟨by rw [hz.last], rfl, rfl, rfl, rfl, rfl, fun hne => ?_⟩
  obtain ⟨n1, n2⟩ := hz.next hne
  refine ⟨n1, ?_, ?_, ?_, ?_, ?_⟩
  · show (drdReqSize c s).next < _
    rw [n1]; exact Nat.mod_lt _ (by decide)
  · show 1 ≤ s.req.count - _; omega
  · show s.req.count - _ < _; omega
  · show s.req.count - _ + (drdReqSize c s).next % 4 < _
    have := ho.sum; omega
  · intro hzz
    have := ho.zero hzz
    omega

/-- The registers for a descriptor just accepted. -/
def reqTaken (d : RdDesc) : DrdReq :=
  { start := true
    addr := d.addr
    sel := d.sel
    ram := d.ram
    count := rdSpan d
    zero := decide (d.len = 0)
    ready := false }

/-- The request state machine after the acceptance of a descriptor. -/
theorem drdReq_accept {c : DrdCfg} {s : Drd} {i : DrdIn} (hs : s.req.start = false) (ha : drdAccept s i = true) :
    drdReqStep c s i =
      reqTaken (rdDescOf c i) := by
  unfold drdReqStep
  simp only [hs, Bool.false_eq_true, if_false, ha, if_true]
  rfl

theorem reqOk_accept {c : DrdCfg} (hc : 1 ≤ c.lenW) {i : DrdIn} (hd : RdDescOk c (rdDescOf c i)) :
    ReqOkS c (reqTaken (rdDescOf c i)) := by
  have ha : (rdDescOf c i).addr < 2 ^ 64 := Nat.mod_lt _ (by decide)
  have hp := rdSpan_piece ha hd
  have hl : (rdDescOf c i).len < 2 ^ c.lenW := Nat.mod_lt _ (Nat.two_pow_pos _)
  have h2 : 2 ^ 1 ≤ 2 ^ c.lenW := Nat.pow_le_pow_right (by omega) hc
  refine ⟨ha, hp.pos, ?_, hp.sum, ?_⟩
  · show rdSpan _ < _
    unfold rdSpan; split <;> omega
  · intro h
    have h : (rdDescOf c i).len = 0 := of_decide_eq_true h
    show rdSpan _ = _
    unfold rdSpan; rw [if_pos h]

theorem drdReq_none {c : DrdCfg} {s : Drd} {i : DrdIn} (hi : drdIssue c s i = false) (ha : drdAccept s i = false) :
    ∃ b, drdReqStep c s i = { s.req with ready := b } ∧ (s.req.start = true → b = false) := by
  unfold drdReqStep
  cases hs : s.req.start with
  | true => exact ⟨false, by simp [hi, hs], fun _ => rfl⟩
  | false =>
    refine ⟨s.init.done && i.enable && s.opTagV, ?_, fun h => by simp at h⟩
    simp only [Bool.false_eq_true, if_false, ha]

theorem reqInv_step {c : DrdCfg} {m rid mrrs : Nat} (hc : 1 ≤ c.lenW) (hm : 32 ≤ m ∧ m ≤ 512) {s : Drd} (h : ReqInv c m rid s)
    {i : DrdIn} (hr : i.rst = false) (hmr : 32 * 2 ^ (if mrrs > 5 then 5 else mrrs) = m) (hi : i.mrrs = mrrs ∧ i.requesterId = rid)
    (hrid : rid < 2 ^ 16) (hd : (s.req.ready && i.valid) = true → RdDescOk c (rdDescOf c i)) :
    ReqInv c m rid (drdStep c s i) ∧
    (reqNow s).map rdHdrBytes ++ reqRest c m s ++ (if s.req.ready && i.valid then rdParts c m (rdDescOf c i) else []) =
      (if s.txV && i.txReady then [rdHdrBytes s.tx] else []) ++
        ((reqNow (drdStep c s i)).map rdHdrBytes ++ reqRest c m (drdStep c s i)) := by
  rw [drdStep_eq c s i hr]
  have hreq : (drdNext c s i).req = drdReqStep c s i := rfl
  have htxV : (drdNext c s i).txV = (drdIssue c s i || (s.txV && !i.txReady)) := rfl
  have htx : (drdNext c s i).tx = if s.req.start && (!s.txV || i.txReady) then drdHdr c s i.requesterId else s.tx := rfl
  have hmrrs : (drdNext c s i).mrrsDw = m := by rw [← hmr, ← hi.1]; rfl
  rcases drdReq_cases h i with ⟨h1, h2, h3, h4⟩ | ⟨h1, h2, h3, h4⟩ | ⟨h1, h2, h3⟩
  · have ho := h.ok h4
    have hz := drdReqSize_ok hm h.mrrs ho
    obtain ⟨q1, q2, q3, q4, q5, q6, q7⟩ := drdReq_issue hm h.mrrs ho h1
    obtain ⟨g1, g2, g3⟩ := drdHdr_ok hm h.mrrs ho hrid
    have hv := (drdIssue_start h1).2
    have htx' : (drdNext c s i).tx = drdHdr c s rid := by rw [htx, h4, hv, hi.2]; rfl
    refine ⟨⟨hmrrs, ?_, ?_, ?_⟩, ?_⟩
    · rw [hreq, q1, q2, hz.last]
      intro hst
      simp only [Bool.not_eq_true', decide_eq_false_iff_not] at hst
      simp [hst]
    · rw [hreq, q1]
      intro hst
      simp only [Bool.not_eq_true', decide_eq_false_iff_not] at hst
      exact (q7 hst).2
    · rw [htx']; exact fun _ => g1
    · have hn : (reqNow (drdNext c s i)).map rdHdrBytes = [pieceBytes s.req.zero (s.req.addr, (drdReqSize c s).count)] := by
        unfold reqNow
        rw [htxV, htx', h1]
        simp only [Bool.true_or, if_true, List.map_cons, List.map_nil, g3]
        rfl
      have hrest : reqRest c m s = pieceBytes s.req.zero (s.req.addr, (drdReqSize c s).count) :: reqRest c m (drdNext c s i) := by
        have e1 : reqRest c m s = (rdPieces c m s.req.count s.req.addr s.req.count).map (pieceBytes s.req.zero) := by
          unfold reqRest; rw [if_pos h4]
        rw [e1]
        have hp : PieceOk c s.req.addr s.req.count := ⟨ho.addr, ho.pos, ho.sum⟩
        obtain ⟨n, hn⟩ : ∃ n, s.req.count = n + 1 := ⟨s.req.count - 1, by have := ho.pos; omega⟩
        obtain ⟨k1, k2, k3⟩ := drdSize_rcb c s.mrrsDw s.rcb s.req.addr s.req.count
        have ks : drdReqSize c s = drdSize c s.mrrsDw s.rcb s.req.addr s.req.count := rfl
        rw [← ks, h.mrrs] at k1 k2 k3
        conv => lhs; rw [hn]
        rw [rdPieces]
        rw [← hn, ← k1, ← k2, ← k3, List.map_cons]
        congr 1
        unfold reqRest
        rw [hreq, q1, q4, q6]
        cases hl : (drdReqSize c s).last with
        | true =>
          have : (drdReqSize c s).count = s.req.count := by
            have := hz.last; rw [hl] at this; simpa using this.symm
          simp [this]
        | false =>
          have hne : (drdReqSize c s).count ≠ s.req.count := by
            have := hz.last; rw [hl] at this; simpa using this.symm
          rw [(q7 hne).1]
          have hnx := hp.next hm (by rw [← k2]; exact hl)
          rw [← k1, ← k3] at hnx
          have hzp := hz.pos
          have hzle := hz.le
          simp only [Bool.false_eq_true, if_false, hne, decide_false, Bool.not_false, if_true]
          rw [hnx.2.2, rdPieces_fuel hm n _ _ (by rw [← hnx.2.2]; exact hnx.1) (by omega)]
      rw [hn, hrest, h3]
      simp only [Bool.false_eq_true, if_false, List.append_nil]
      cases htv : s.txV with
      | false => simp [reqNow, htv]
      | true =>
        have : i.txReady = true := by simpa [htv] using hv
        simp [reqNow, htv, this]
  · have hq := drdReq_accept (c := c) h4 h2
    refine ⟨⟨hmrrs, ?_, ?_, ?_⟩, ?_⟩
    · rw [hreq, hq]; exact fun _ => rfl
    · rw [hreq, hq]; exact fun _ => reqOk_accept hc (hd h3)
    · rw [htxV, htx, h1, h4]
      simp only [Bool.false_or, Bool.false_and, Bool.false_eq_true, if_false, Bool.and_eq_true]
      exact fun ht => h.tx ht.1
    · have hrest : reqRest c m s = [] := by unfold reqRest; rw [h4]; rfl
      have hrest' : reqRest c m (drdNext c s i) = rdParts c m (rdDescOf c i) := by
        unfold reqRest; rw [hreq, hq]; rfl
      rw [hrest, hrest', h3]
      simp only [List.append_nil, if_true, ← List.append_assoc]
      congr 1
      unfold reqNow
      rw [htxV, htx, h1, h4]
      cases s.txV <;> cases i.txReady <;> simp
  · obtain ⟨b, hb, hbs⟩ := drdReq_none h1 h2
    refine ⟨⟨hmrrs, ?_, ?_, ?_⟩, ?_⟩
    · rw [hreq, hb]; exact hbs
    · rw [hreq, hb]
      exact fun hst => ⟨(h.ok hst).addr, (h.ok hst).pos, (h.ok hst).lt, (h.ok hst).sum, (h.ok hst).zero⟩
    · intro ht
      rw [htxV, h1] at ht
      simp only [Bool.false_or, Bool.and_eq_true, Bool.not_eq_true'] at ht
      rw [htx, ht.1, ht.2]
      simp only [Bool.not_true, Bool.or_self, Bool.and_false, Bool.false_eq_true, if_false]
      exact h.tx ht.1
    · have hrest' : reqRest c m (drdNext c s i) = reqRest c m s := by
        unfold reqRest; rw [hreq, hb]
      rw [hrest', h3]
      simp only [Bool.false_eq_true, if_false, List.append_nil, ← List.append_assoc]
      congr 1
      unfold reqNow
      rw [htxV, htx, h1]
      cases s.txV <;> cases i.txReady <;> simp

/-! ### Histories -/

theorem drdAccepted_cons (c : DrdCfg) (s : Drd) (i : DrdIn) (is : List DrdIn) :
    drdAccepted c s (i :: is) = (if s.req.ready && i.valid then [rdDescOf c i] else []) ++ drdAccepted c (drdStep c s i) is :=
  filterMap_if (fun x : Drd × DrdIn => x.1.req.ready && x.2.valid) _ _ _

theorem drdSent_cons (c : DrdCfg) (s : Drd) (i : DrdIn) (is : List DrdIn) :
    drdSent c s (i :: is) = (if s.txV && i.txReady then [s.tx] else []) ++ drdSent c (drdStep c s i) is :=
  filterMap_if (fun x : Drd × DrdIn => x.1.txV && x.2.txReady) _ _ _

theorem reqRun {c : DrdCfg} {m rid mrrs : Nat} (hc : 1 ≤ c.lenW) (hm : 32 ≤ m ∧ m ≤ 512)
    (hmr : 32 * 2 ^ (if mrrs > 5 then 5 else mrrs) = m) (hrid : rid < 2 ^ 16) (is : List DrdIn) : ∀ (s : Drd), ReqInv c m rid s →
    (∀ i ∈ is, i.rst = false) → (∀ i ∈ is, i.mrrs = mrrs ∧ i.requesterId = rid) → (∀ d ∈ drdAccepted c s is, RdDescOk c d) →
    ReqInv c m rid (drdRun c s is) ∧ (∀ h ∈ drdSent c s is, ReadTlpOk c rid (4 * m) h) ∧
    ((reqNow s).map rdHdrBytes ++ reqRest c m s) ++ (drdAccepted c s is).flatMap (rdParts c m) =
      (drdSent c s is).map rdHdrBytes ++ ((reqNow (drdRun c s is)).map rdHdrBytes ++ reqRest c m (drdRun c s is)) := by
  induction is with
  | nil =>
    intro s h _ _ _
    exact ⟨h, by simp [drdSent, drdTrace], by simp [drdSent, drdAccepted, drdTrace, drdRun]⟩
  | cons i is ih =>
    intro s h hr hin hd
    rw [drdAccepted_cons] at hd
    obtain ⟨s1, s2⟩ := reqInv_step hc hm h (hr i List.mem_cons_self) hmr (hin i List.mem_cons_self) hrid
      (fun ha => hd _ (List.mem_append_left _ (by simp [ha])))
    obtain ⟨i1, i2, i3⟩ := ih (drdStep c s i) s1 (fun x hx => hr x (List.mem_cons_of_mem _ hx))
      (fun x hx => hin x (List.mem_cons_of_mem _ hx)) (fun d hd' => hd d (List.mem_append_right _ hd'))
    refine ⟨i1, ?_, ?_⟩
    · intro x hx
      rw [drdSent_cons, List.mem_append] at hx
      rcases hx with hx | hx
      · cases htv : s.txV <;> rw [htv] at hx
        · simp at hx
        · simp at hx
          rw [hx.2]; exact h.tx htv
      · exact i2 x hx
    · rw [drdAccepted_cons, drdSent_cons, List.flatMap_append, List.map_append, map_if]
      refine queue_flow ?_ i3
      rw [← s2]
      congr 1
      cases (s.req.ready && i.valid) <;> simp

/-- The request part after reset. -/
theorem reqInv_reset {c : DrdCfg} {m rid mrrs : Nat} (hmr : 32 * 2 ^ (if mrrs > 5 then 5 else mrrs) = m) (s : Drd) (r : DrdIn)
    (hr : r.rst = true) (hi : r.mrrs = mrrs) :
    ReqInv c m rid (drdStep c s r) ∧ reqNow (drdStep c s r) = [] ∧ reqRest c m (drdStep c s r) = [] := by
  have h1 : (drdStep c s r).req.start = false := by unfold drdStep; simp [hr]
  have h2 : (drdStep c s r).txV = false := by unfold drdStep; simp [hr]
  have h3 : (drdStep c s r).mrrsDw = m := by
    rw [← hmr, ← hi]; unfold drdStep; rw [hr]; rfl
  refine ⟨⟨h3, ?_, ?_, ?_⟩, ?_, ?_⟩
  · rw [h1]; simp
  · rw [h1]; simp
  · rw [h2]; simp
  · unfold reqNow; rw [h2]; rfl
  · unfold reqRest; rw [h1]; rfl

theorem drdAccepted_addr (c : DrdCfg) (s : Drd) (is : List DrdIn) : ∀ d ∈ drdAccepted c s is, d.addr < 2 ^ 64 := by
  intro d hd
  unfold drdAccepted at hd
  obtain ⟨x, -, hx⟩ := List.mem_filterMap.mp hd
  split at hx
  · simp only [Option.some.injEq] at hx
    rw [← hx]; exact Nat.mod_lt _ (by decide)
  · simp at hx

/-- The requests put on the interface. -/
theorem drd_requests {c : DrdCfg} (hc : DrdCfgOk c) {mrrs rid : Nat} (hm : mrrs ≤ 4) (hrid : rid < 2 ^ 16) (s : Drd) (r : DrdIn)
    (is : List DrdIn) (hr : r.rst = true) (his : ∀ i ∈ is, i.rst = false) (hin : ∀ i ∈ r :: is, i.mrrs = mrrs ∧ i.requesterId = rid)
    (hd : ∀ d ∈ drdAccepted c (drdStep c s r) is, RdDescOk c d) :
    (∀ h ∈ drdPresented c (drdStep c s r) is, ReadTlpOk c rid (128 * 2 ^ mrrs) h) ∧
    ∃ parts : RdDesc → List (List Nat),
      (∀ d ∈ drdAccepted c (drdStep c s r) is, RdSplitOf d (parts d)) ∧
      (drdPresented c (drdStep c s r) is).map rdHdrBytes <+: (drdAccepted c (drdStep c s r) is).flatMap parts := by
  obtain ⟨m1, m2, m3⟩ := mrrs_vals hm
  have hi := List.forall_mem_cons.mp hin
  obtain ⟨r1, r2, r3⟩ := reqInv_reset (c := c) (rid := rid) rfl s r hr hi.1.1
  obtain ⟨q1, q2, q3⟩ := reqRun hc.len ⟨m1, m2⟩ rfl hrid is _ r1 his hi.2 hd
  rw [← m3]
  refine ⟨?_, rdParts c (32 * 2 ^ (if mrrs > 5 then 5 else mrrs)), ?_, ?_⟩
  · intro h hh
    unfold drdPresented at hh
    rcases List.mem_append.mp hh with hh | hh
    · exact q2 h hh
    · cases htv : (drdRun c (drdStep c s r) is).txV with
      | false => rw [htv] at hh; simp at hh
      | true =>
        rw [htv] at hh
        simp only [if_true, List.mem_singleton] at hh
        rw [hh]; exact q1.tx htv
  · intro d hdm
    exact rdParts_split ⟨m1, m2⟩ (drdAccepted_addr c _ _ d hdm) (hd d hdm)
  · rw [r2, r3] at q3
    simp only [List.map_nil, List.nil_append, ← List.append_assoc] at q3
    rw [q3, ← List.map_append]
    exact List.prefix_append _ _

end Verif.Proofs
