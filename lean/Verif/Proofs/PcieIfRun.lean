import Verif.Proofs.PcieIf
/-! Helper lemmas for the segmented PCIe interface: sink, and source and sink over any history. -/
namespace Verif.Proofs
open Verif Verif.Model Verif.Spec

/-! ### Sink -/

theorem hdrCount_eq (h : Nat) : hdrCount h = announced h := by
  unfold hdrCount announced
  by_cases hb : h.testBit 126 = true
  · rw [if_pos ((and_shl_one h 126).mpr hb), if_pos hb]
    have e : (h >>> 96) &&& 0x3ff = h / 2 ^ 96 % 1024 := by
      rw [Nat.shiftRight_eq_div_pow]; exact Nat.and_two_pow_sub_one_eq_mod _ 10
    simp only [e]
  · rw [if_neg (fun hc => hb ((and_shl_one h 126).mp hc)), if_neg hb]

theorem strb_get (m k : Nat) : (packL 1 (List.replicate m 1) >>> k) &&& 1 = if k < m then 1 else 0 := by
  have := packL_get 1 (List.replicate m 1) (by intro x hx; rw [List.mem_replicate] at hx; omega) k
  rw [Nat.one_mul] at this
  rw [show (1 : Nat) = 2 ^ 1 - 1 from rfl, show (2 ^ 1 - 1 : Nat) = 1 from rfl]
  refine Eq.trans this ?_
  rw [List.getD_eq_getElem?_getD, List.getElem?_replicate]
  split <;> rfl

theorem rxDataLoop_spec (sp : Bool) (xs ps : List Nat) (m : Nat) (hx : xs.length = m) (hp : ps.length = m)
    (hxl : ∀ x ∈ xs, x < 2 ^ 32) (hpl : ∀ p ∈ ps, p < 2 ^ 4) (n k : Nat) (f : TxFrame) (c : Nat)
    (hc : if c > 0 then m = k + min n c else m ≤ k) :
    rxDataLoop sp (packL 32 xs) (packL 4 ps) (packL 1 (List.replicate m 1)) n k f c =
      some ({ f with data := f.data ++ xs.drop k, parity := f.parity ++ ps.drop k }, c - min n c) := by
  induction n generalizing k f c with
  | zero =>
    have : m ≤ k := by split at hc <;> omega
    simp [rxDataLoop, List.drop_eq_nil_of_le (show xs.length ≤ k by omega),
      List.drop_eq_nil_of_le (show ps.length ≤ k by omega)]
  | succ n ih =>
    unfold rxDataLoop
    rw [strb_get]
    by_cases h0 : c > 0
    · rw [if_pos h0] at hc
      have hk : k < m := by omega
      rw [if_pos h0, if_pos hk]
      simp only [Nat.reduceBEq, Bool.and_false, Bool.false_eq_true, if_false]
      have e1 := packL_get 32 xs hxl k
      have e2 := packL_get 4 ps hpl k
      rw [show (2 ^ 32 - 1 : Nat) = 0xffffffff from rfl] at e1
      rw [show (2 ^ 4 - 1 : Nat) = 0xf from rfl] at e2
      rw [e1, e2, ih (k + 1) _ (c - 1) (by split <;> omega)]
      have d1 : xs.drop k = xs.getD k 0 :: xs.drop (k + 1) := by
        rw [← List.getElem_cons_drop (by omega : k < xs.length), List.getD_eq_getElem?_getD,
          List.getElem?_eq_getElem (by omega)]; rfl
      have d2 : ps.drop k = ps.getD k 0 :: ps.drop (k + 1) := by
        rw [← List.getElem_cons_drop (by omega : k < ps.length), List.getD_eq_getElem?_getD,
          List.getElem?_eq_getElem (by omega)]; rfl
      rw [d1, d2]
      simp only [List.append_assoc, List.singleton_append, Option.some.injEq, Prod.mk.injEq, true_and]
      omega
    · rw [if_neg h0] at hc
      rw [if_neg h0, if_neg (show ¬ k < m by omega)]
      simp only [bne_self_eq_false, Bool.and_false, Bool.false_eq_true, if_false]
      rw [ih (k + 1) f c (by rw [if_neg h0]; omega),
        List.drop_eq_nil_of_le (show xs.length ≤ k by omega),
        List.drop_eq_nil_of_le (show ps.length ≤ k by omega),
        List.drop_eq_nil_of_le (show xs.length ≤ k + 1 by omega),
        List.drop_eq_nil_of_le (show ps.length ≤ k + 1 by omega)]
      simp; omega

/-- The part of a frame received so far. -/
def received (f : TxFrame) (off : Nat) : TxFrame :=
  { delivered f with data := f.data.take off, parity := f.parity.take off }

/-- The sink's state matches the frame in progress at the source. -/
def RxOk : TxCur → RxState → Prop
  | none, r => r = ⟨none, 0⟩
  | some (_, _, true), r => r = ⟨none, 0⟩
  | some (f, off, false), r => r = ⟨some (received f off), f.data.length - off⟩

theorem rxStart_eq (g : IfGeo) (f : TxFrame) (off : Nat) (s : Txn) (seg : Nat)
    (hv : viewSeg g seg s = segInfo g f off true) : rxStart g s seg = received f 0 := by
  simp only [viewSeg, segInfo, SegInfo.mk.injEq, if_true] at hv
  obtain ⟨v1, v2, v3, v4, v5, v6, v7, v8, v9, v10, v11, v12, v13, v14, v15, v16⟩ := hv
  unfold rxStart
  have hvf : (if s.vf_active &&& (1 <<< seg) ≠ 0 then some (getLane 11 seg s.vf_num) else none) = f.vf_num := by
    rw [v12]
    cases hf : f.vf_num with
    | none =>
      rw [hf] at v10
      rw [if_neg (fun h => by rw [(and_shl_one _ _).mp h] at v10; simp at v10)]
    | some v =>
      rw [hf] at v10
      rw [if_pos ((and_shl_one _ _).mpr (by simpa using v10))]
      rfl
  rw [hvf, v6, v7, v8, v9, v11, v13, v15, v16]
  simp [received, delivered]

theorem rxSeg_spec (g : IfGeo) (sp : Bool) (f : TxFrame) (off : Nat) (first : Bool) (s : Txn) (seg : Nat)
    (r : RxState) (hc : CurOk g (some (f, off, first))) (hr : RxOk (some (f, off, first)) r)
    (hv : viewSeg g seg s = segInfo g f off first) (hL : 0 < g.lanes) :
    ∃ r' out, rxSeg g sp s seg r = some (r', out) ∧ RxOk (curAfter g f off) r' ∧
      CurOk g (curAfter g f off) ∧
      out = (if off + chunk g f off ≥ f.data.length then [delivered f] else []) := by
  have hc1 := hc.1
  have hoff : off ≤ f.data.length := by
    have := hc.2; split at this <;> omega
  have hvl := hv
  simp only [viewSeg, segInfo, SegInfo.mk.injEq] at hvl
  obtain ⟨v1, v2, v3, v4, v5, v6, v7, v8, v9, v10, v11, v12, v13, v14, v15, v16⟩ := hvl
  unfold rxSeg
  rw [if_neg (by rw [← ne_eq]; exact (and_shl_one _ _).mpr v5)]
  -- start of frame
  have h1 : rxSop g s seg r = some (received f off, f.data.length - off) := by
    unfold rxSop
    cases first with
    | true =>
      have h0 : off = 0 := hc.2
      subst h0
      have hr0 : r = ⟨none, 0⟩ := hr
      rw [if_pos ((and_shl_one _ _).mpr v3), hr0]
      simp only
      rw [rxStart_eq g f 0 s seg hv, v7, hdrCount_eq]
      simp [hc1.len]
    | false =>
      have hr0 : r = ⟨some (received f off), f.data.length - off⟩ := hr
      rw [if_neg (fun h => by rw [(and_shl_one _ _).mp h] at v3; simp at v3), hr0]
      rfl
  -- data
  have hcl := chunk_le g f off hoff
  have hpl : f.parity.length = f.data.length := hc1.parityLen
  have h2 : rxData g sp s seg (received f off) (f.data.length - off) =
      some (received f (off + chunk g f off), f.data.length - (off + chunk g f off)) := by
    unfold rxData
    have hdrop : ∀ xs : List Nat, xs.take off ++ (xs.drop off).take (chunk g f off) =
        xs.take (off + chunk g f off) := by
      intro xs; rw [List.take_add]
    by_cases h0 : f.data.length - off > 0
    · rw [if_pos h0, v1, v14, v2]
      rw [rxDataLoop_spec sp _ _ (chunk g f off) (by rw [List.length_take, List.length_drop]; omega)
        (by rw [List.length_take, List.length_drop]; omega)
        (take_mem_lt hc1.data) (take_mem_lt hc1.parity) g.lanes 0 (received f off) _
        (by rw [if_pos h0]; unfold chunk; omega)]
      rw [List.drop_zero, List.drop_zero]
      have e1 : (received f off).data ++ (f.data.drop off).take (chunk g f off) =
        f.data.take (off + chunk g f off) := hdrop f.data
      have e2 : (received f off).parity ++ (f.parity.drop off).take (chunk g f off) =
        f.parity.take (off + chunk g f off) := hdrop f.parity
      rw [e1, e2]
      simp only [Option.some.injEq, Prod.mk.injEq]
      refine ⟨rfl, ?_⟩
      unfold chunk; omega
    · have hz : chunk g f off = 0 := by unfold chunk; omega
      rw [if_neg h0, v2, hz]
      simp [packL]
  rw [h1]
  simp only [Option.bind_eq_bind, Option.bind_some]
  rw [h2]
  simp only [Option.bind_some]
  unfold rxEop curAfter
  by_cases he : off + chunk g f off ≥ f.data.length
  · rw [decide_eq_true he] at v4
    rw [if_pos ((and_shl_one _ _).mpr v4), if_pos (by omega), if_pos he]
    refine ⟨_, _, rfl, ?_, trivial, ?_⟩
    · show RxState.mk none _ = _
      congr 1; omega
    · rw [if_pos he]
      unfold received delivered
      rw [List.take_of_length_le (by omega), List.take_of_length_le (by omega)]
  · rw [decide_eq_false he] at v4
    rw [if_neg (fun h => by rw [(and_shl_one _ _).mp h] at v4; simp at v4), if_neg he]
    refine ⟨_, _, rfl, rfl, ⟨hc1, ?_⟩, by rw [if_neg he]⟩
    have : 0 < chunk g f off := by unfold chunk; omega
    exact ⟨by omega, by omega⟩

theorem rxSeg_zero (g : IfGeo) (sp : Bool) (s : Txn) (seg : Nat) (r : RxState)
    (hv : viewSeg g seg s = SegInfo.zero) : rxSeg g sp s seg r = some (r, []) := by
  unfold rxSeg
  have : s.valid.testBit seg = false := congrArg SegInfo.valid hv
  rw [if_pos]
  apply Classical.byContradiction
  intro h
  rw [(and_shl_one _ _).mp h] at this
  simp at this

theorem rxLoop_zero (g : IfGeo) (sp : Bool) (s : Txn) (n seg : Nat) (r : RxState)
    (hv : ∀ j, seg ≤ j → viewSeg g j s = SegInfo.zero) : rxLoop g sp s n seg r = some (r, []) := by
  induction n generalizing seg with
  | zero => rfl
  | succ n ih =>
    unfold rxLoop
    rw [rxSeg_zero g sp s seg r (hv seg (by omega))]
    simp only [Option.bind_eq_bind, Option.bind_some]
    rw [ih (seg + 1) (fun j hj => hv j (by omega))]
    rfl

/-- The frame in progress, as it will be delivered. -/
def curFrames : TxCur → List TxFrame
  | none => []
  | some (f, _, _) => [delivered f]

theorem curFrames_after (g : IfGeo) (f : TxFrame) (off : Nat) :
    (if off + chunk g f off ≥ f.data.length then [delivered f] else []) ++ curFrames (curAfter g f off) =
      [delivered f] := by
  unfold curAfter
  split <;> simp [curFrames]

/-! ### A whole transaction -/

theorem txLoop_spec (g : IfGeo) (sp : Bool) (hL : 0 < g.lanes) (n seg : Nat) (cur : TxCur)
    (queue : List TxFrame) (t : Txn) (r : RxState) (hz : ∀ j, seg ≤ j → viewSeg g j t = SegInfo.zero)
    (hc : CurOk g cur) (hq : ∀ f ∈ queue, Sendable g f) (hr : RxOk cur r) :
    ∃ t' cur' queue' r' out, txLoop g n seg cur queue t = some (t', cur', queue') ∧
      rxLoop g sp t' n seg r = some (r', out) ∧ RxOk cur' r' ∧ CurOk g cur' ∧
      (∀ f ∈ queue', f ∈ queue) ∧
      out ++ curFrames cur' ++ queue'.map delivered = curFrames cur ++ queue.map delivered ∧
      (∀ j, j < seg → viewSeg g j t' = viewSeg g j t) ∧
      (0 < n → (cur ≠ none ∨ queue ≠ []) → (viewSeg g seg t').valid = true) := by
  induction n generalizing seg cur queue t r with
  | zero =>
    exact ⟨t, cur, queue, r, [], rfl, rfl, hr, hc, fun f h => h, by simp, fun j _ => rfl, by simp⟩
  | succ n ih =>
    -- a segment of frame `f`
    have step : ∀ (f : TxFrame) (off : Nat) (first : Bool) (q : List TxFrame)
        (_ : CurOk g (some (f, off, first))) (_ : RxOk (some (f, off, first)) r)
        (_ : ∀ f ∈ q, Sendable g f),
        ∃ t' cur' queue' r' out,
          ((txSeg g f off first seg t).bind fun p => txLoop g n (seg + 1) p.2 q p.1) =
            some (t', cur', queue') ∧
          rxLoop g sp t' (n + 1) seg r = some (r', out) ∧ RxOk cur' r' ∧ CurOk g cur' ∧
          (∀ f ∈ queue', f ∈ q) ∧
          out ++ curFrames cur' ++ queue'.map delivered = [delivered f] ++ q.map delivered ∧
          (∀ j, j < seg → viewSeg g j t' = viewSeg g j t) ∧ (viewSeg g seg t').valid = true := by
      intro f off first q hcf hrf hqf
      have hoff : off ≤ f.data.length := by
        have := hcf.2; split at this <;> omega
      have hfirst : first = false → f.data ≠ [] := by
        intro h hd; have h2 := hcf.2; rw [h, hd] at h2; simp at h2
      rw [txSeg_eq g f off first seg t hoff hcf.1.parityLen]
      simp only [Option.bind_some]
      have hvo := viewSeg_txnAfter g f off first seg t hcf.1 hfirst
      have hfresh := viewSeg_fresh g f off first seg t hcf.1 hfirst (hz seg (by omega))
      -- what the sink makes of it does not depend on the rest of the transaction
      obtain ⟨r1, out1, -, hr1, hc1, -⟩ := rxSeg_spec g sp f off first _ seg r hcf hrf hfresh hL
      obtain ⟨t', cur', queue', r', out, i1, i2, i3, i4, i5, i6, i7, -⟩ := ih (seg + 1)
        (curAfter g f off) q (txnAfter g f off first seg t) r1
        (fun j hj => by rw [hvo j, if_neg (by omega)]; exact hz j (by omega)) hc1 hqf hr1
      have hseg : viewSeg g seg t' = segInfo g f off first := by rw [i7 seg (by omega), hfresh]
      obtain ⟨r2, out2, e2, hr2, -, ho2⟩ := rxSeg_spec g sp f off first t' seg r hcf hrf hseg hL
      have hrr : r2 = r1 := by
        unfold curAfter at hr1 hr2
        split at hr1
        · rename_i hd; rw [if_pos hd] at hr2; exact hr2.trans hr1.symm
        · rename_i hd; rw [if_neg hd] at hr2; exact hr2.trans hr1.symm
      subst hrr
      refine ⟨t', cur', queue', r', out2 ++ out, i1, ?_, i3, i4, i5, ?_, ?_, ?_⟩
      · rw [rxLoop, e2]
        simp only [Option.bind_eq_bind, Option.bind_some, i2]
      · rw [List.append_assoc, List.append_assoc, ← List.append_assoc out, i6, ← List.append_assoc, ho2,
          curFrames_after]
      · intro j hj
        rw [i7 j (by omega), hvo j, if_neg (by omega)]
      · rw [hseg]; rfl
    cases cur with
    | some c =>
      obtain ⟨f, off, first⟩ := c
      obtain ⟨t', cur', queue', r', out, s1, s2, s3, s4, s5, s6, s7, s8⟩ := step f off first queue hc hr hq
      refine ⟨t', cur', queue', r', out, ?_, s2, s3, s4, s5, s6, s7, fun _ _ => s8⟩
      unfold txLoop
      exact s1
    | none =>
      cases queue with
      | nil =>
        refine ⟨t, none, [], r, [], rfl, rxLoop_zero g sp t _ seg r hz, hr, trivial, fun f h => h,
          by simp, fun j _ => rfl, ?_⟩
        intro _ h; simp at h
      | cons f q =>
        obtain ⟨t', cur', queue', r', out, s1, s2, s3, s4, s5, s6, s7, s8⟩ := step f 0 true q
          ⟨hq f List.mem_cons_self, rfl⟩ hr (fun f hf => hq f (List.mem_cons_of_mem _ hf))
        refine ⟨t', cur', queue', r', out, ?_, s2, s3, s4, fun f hf => List.mem_cons_of_mem _ (s5 f hf),
          ?_, s7, fun _ _ => s8⟩
        · unfold txLoop; exact s1
        · rw [s6]; simp [curFrames]

theorem valid_ne_zero (g : IfGeo) (t : Txn) (h : (viewSeg g 0 t).valid = true) : t.valid ≠ 0 := by
  intro h0
  have : t.valid.testBit 0 = true := h
  rw [h0] at this
  simp at this

/-! ### Source and sink -/

/-- What the sink makes of a sequence of transactions. -/
def rxAll (g : IfGeo) (sp : Bool) : RxState → List Txn → Option (RxState × List TxFrame)
  | r, [] => some (r, [])
  | r, t :: ts => do
    let (r, out) ← rxLoop g sp t g.segCount 0 r
    let (r, out') ← rxAll g sp r ts
    some (r, out ++ out')

theorem rxAll_snoc (g : IfGeo) (sp : Bool) (ts : List Txn) (t : Txn) (r r1 r2 : RxState)
    (o1 o2 : List TxFrame) (h1 : rxAll g sp r ts = some (r1, o1))
    (h2 : rxLoop g sp t g.segCount 0 r1 = some (r2, o2)) :
    rxAll g sp r (ts ++ [t]) = some (r2, o1 ++ o2) := by
  induction ts generalizing r o1 with
  | nil =>
    simp only [rxAll, Option.some.injEq, Prod.mk.injEq] at h1
    obtain ⟨rfl, rfl⟩ := h1
    simp [rxAll, h2]
  | cons x xs ih =>
    simp only [rxAll, Option.bind_eq_bind, Option.bind_eq_some_iff, Option.some.injEq, Prod.mk.injEq] at h1
    obtain ⟨⟨ra, oa⟩, ha, ⟨rb, ob⟩, hb, rfl, rfl⟩ := h1
    simp only [List.cons_append, rxAll, ha, Option.bind_eq_bind, Option.bind_some]
    rw [ih ra ob hb]
    simp

/-- Transactions on their way to the sink. -/
def pending (s : IfSys) : List Txn :=
  (if s.bus.valid = 0 then [] else [s.bus]) ++ s.driveObj.toList ++ s.built.toList

structure IfInv (g : IfGeo) (sp : Bool) (S : List TxFrame) (s : IfSys) : Prop where
  flow : ∃ r out, rxAll g sp s.rx (pending s) = some (r, out) ∧ RxOk s.cur r ∧
    s.received ++ out ++ curFrames s.cur ++ s.queue.map delivered = S.map delivered
  cur : CurOk g s.cur
  queue : ∀ f ∈ s.queue, Sendable g f
  drive : ∀ t, s.driveObj = some t → t.valid ≠ 0
  built : ∀ t, s.built = some t → t.valid ≠ 0

theorem ifInv_init (g : IfGeo) (sp : Bool) : IfInv g sp [] {} :=
  ⟨⟨{}, [], rfl, rfl, rfl⟩, trivial, by simp, by simp, by simp⟩

theorem ifInv_send (g : IfGeo) (sp : Bool) (S : List TxFrame) (s : IfSys) (f : TxFrame)
    (hf : Sendable g f) (h : IfInv g sp S s) :
    IfInv g sp (S ++ [f]) { s with queue := s.queue ++ [f] } := by
  obtain ⟨r, out, h1, h2, h3⟩ := h.flow
  refine ⟨⟨r, out, h1, h2, ?_⟩, h.cur, ?_, h.drive, h.built⟩
  · rw [List.map_append, List.map_append, ← h3]; simp
  · intro x hx
    rw [List.mem_append, List.mem_singleton] at hx
    rcases hx with hx | rfl
    · exact h.queue x hx
    · exact hf

theorem ifInv_build (g : IfGeo) (sp : Bool) (S : List TxFrame) (s : IfSys) (hS : 0 < g.segCount)
    (hL : 0 < g.lanes) (h : IfInv g sp S s) : ∃ s', ifBuild g s = some s' ∧ IfInv g sp S s' := by
  obtain ⟨r, out, h1, h2, h3⟩ := h.flow
  unfold ifBuild
  cases hb : s.built with
  | some t => exact ⟨s, rfl, h⟩
  | none =>
    have main : (s.cur ≠ none ∨ s.queue ≠ []) → ∃ s', (do
        let (t, cur, queue) ← txLoop g g.segCount 0 s.cur s.queue {}
        some { s with cur := cur, queue := queue, built := some t }) = some s' ∧ IfInv g sp S s' := by
      intro hne
      obtain ⟨t', cur', queue', r', o, e1, e2, e3, e4, e5, e6, -, e8⟩ := txLoop_spec g sp hL g.segCount 0
        s.cur s.queue {} r (fun j _ => viewSeg_empty g j) h.cur h.queue h2
      rw [e1]
      refine ⟨_, rfl, ⟨r', out ++ o, ?_, e3, ?_⟩, e4, fun f hf => h.queue f (e5 f hf), h.drive, ?_⟩
      · have : pending { s with cur := cur', queue := queue', built := some t' } = pending s ++ [t'] := by
          simp [pending, hb]
        rw [this]
        exact rxAll_snoc g sp _ _ _ _ _ _ _ h1 e2
      · rw [← h3]
        simp only [List.append_assoc] at e6 ⊢
        rw [e6]
      · intro t ht
        simp only [Option.some.injEq] at ht
        subst ht
        exact valid_ne_zero g _ (e8 hS hne)
    cases hc : s.cur with
    | some c => rw [hc] at main; exact main (by simp)
    | none =>
      cases hq : s.queue with
      | nil => exact ⟨s, rfl, h⟩
      | cons f q => rw [hc, hq] at main; exact main (by simp)

theorem ifInv_load (g : IfGeo) (sp : Bool) (S : List TxFrame) (s : IfSys) (h : IfInv g sp S s) :
    IfInv g sp S (ifLoad s) := by
  unfold ifLoad
  cases hd : s.driveObj with
  | some t => exact h
  | none =>
    cases hb : s.built with
    | none => exact h
    | some t =>
      have hp : pending { s with driveObj := some t, built := none } = pending s := by
        simp [pending, hd, hb]
      refine ⟨?_, h.cur, h.queue, ?_, by simp⟩
      · rw [hp]; exact h.flow
      · intro t' ht'
        simp only [Option.some.injEq] at ht'
        subst ht'
        exact h.built _ hb

theorem pending_edge (pause : Bool) (s : IfSys) (h : ∀ t, s.driveObj = some t → t.valid ≠ 0) :
    pending (ifSourceEdge pause s) =
      if s.ready = true ∧ s.bus.valid ≠ 0 then (pending s).tail else pending s := by
  unfold ifSourceEdge
  by_cases hv : s.bus.valid = 0
  · rw [if_neg (show ¬ (s.ready = true ∧ s.bus.valid ≠ 0) by simp [hv])]
    simp only [hv, beq_self_eq_true, Bool.or_true, if_true]
    cases hd : s.driveObj with
    | none => cases pause <;> simp [pending, hv, hd]
    | some t =>
      have := h t hd
      cases pause <;> simp [pending, hv, hd, this]
  · cases hr : s.ready with
    | false =>
      have : (s.bus.valid == 0) = false := by simpa using hv
      simp [this]
    | true =>
      simp only [Bool.true_or, if_true]
      rw [if_pos ⟨trivial, hv⟩]
      cases hd : s.driveObj with
      | none => cases pause <;> simp [pending, hv, hd]
      | some t =>
        have := h t hd
        cases pause <;> simp [pending, hv, hd, this]

theorem sourceEdge_keep (pause : Bool) (s : IfSys) :
    (ifSourceEdge pause s).cur = s.cur ∧ (ifSourceEdge pause s).queue = s.queue ∧
    (ifSourceEdge pause s).built = s.built ∧
    (∀ t, (ifSourceEdge pause s).driveObj = some t → s.driveObj = some t) := by
  unfold ifSourceEdge
  split
  · cases hd : s.driveObj <;> cases pause <;> simp [hd]
  · simp

theorem ifInv_edge (g : IfGeo) (sp : Bool) (S : List TxFrame) (s : IfSys) (pause ready : Bool)
    (h : IfInv g sp S s) : ∃ s', ifEdge g sp pause ready s = some s' ∧ IfInv g sp S s' := by
  obtain ⟨r, out, h1, h2, h3⟩ := h.flow
  obtain ⟨k1, k2, k3, k4⟩ := sourceEdge_keep pause s
  have hp := pending_edge pause s h.drive
  unfold ifEdge ifSinkEdge
  by_cases hf : s.ready = true ∧ s.bus.valid ≠ 0
  · rw [if_pos (by simp [hf])]
    rw [if_pos hf] at hp
    have hpend : pending s = s.bus :: (s.driveObj.toList ++ s.built.toList) := by
      simp [pending, hf.2]
    rw [hpend] at h1 hp
    simp only [List.tail_cons] at hp
    simp only [rxAll, Option.bind_eq_bind, Option.bind_eq_some_iff, Option.some.injEq, Prod.mk.injEq] at h1
    obtain ⟨⟨ra, oa⟩, ha, ⟨rb, ob⟩, hb, rfl, rfl⟩ := h1
    rw [ha]
    refine ⟨_, rfl, ⟨rb, ob, ?_, by rw [k1]; exact h2, ?_⟩, by rw [k1]; exact h.cur,
      by rw [k2]; exact h.queue, fun t ht => h.drive t (k4 t ht), by rw [k3]; exact h.built⟩
    · show rxAll g sp ra (pending (ifSourceEdge pause s)) = _
      rw [hp]; exact hb
    · show s.received ++ oa ++ ob ++ curFrames (ifSourceEdge pause s).cur ++ _ = _
      rw [k1, k2, ← h3]; simp
  · rw [if_neg (by simpa using hf)]
    rw [if_neg hf] at hp
    refine ⟨_, rfl, ⟨r, out, ?_, by rw [k1]; exact h2, ?_⟩, by rw [k1]; exact h.cur,
      by rw [k2]; exact h.queue, fun t ht => h.drive t (k4 t ht), by rw [k3]; exact h.built⟩
    · show rxAll g sp s.rx (pending (ifSourceEdge pause s)) = _
      rw [hp]; exact h1
    · show s.received ++ [] ++ out ++ curFrames (ifSourceEdge pause s).cur ++ _ = _
      rw [k1, k2, ← h3]; simp

theorem ifInv_run (g : IfGeo) (sp : Bool) (hS : 0 < g.segCount) (hL : 0 < g.lanes) (es : List IfEvent)
    (S : List TxFrame) (s : IfSys) (h : IfInv g sp S s) (hs : ∀ f ∈ sent es, Sendable g f) :
    ∃ s', ifRun g sp s es = some s' ∧ IfInv g sp (S ++ sent es) s' := by
  induction es generalizing S s with
  | nil => exact ⟨s, rfl, by simpa [sent] using h⟩
  | cons e es ih =>
    unfold ifRun
    cases e with
    | send f =>
      obtain ⟨s', r1, r2⟩ := ih _ _ (ifInv_send g sp S s f (hs f (by simp [sent])) h)
        (fun x hx => hs x (by simp [sent, hx]))
      exact ⟨s', r1, by simpa [sent] using r2⟩
    | build =>
      obtain ⟨s1, e1, h1⟩ := ifInv_build g sp S s hS hL h
      obtain ⟨s', r1, r2⟩ := ih _ _ h1 hs
      exact ⟨s', by simp only [ifStep, e1, Option.bind_eq_bind, Option.bind_some]; exact r1, r2⟩
    | load =>
      obtain ⟨s', r1, r2⟩ := ih _ _ (ifInv_load g sp S s h) hs
      exact ⟨s', r1, r2⟩
    | edge p r =>
      obtain ⟨s1, e1, h1⟩ := ifInv_edge g sp S s p r h
      obtain ⟨s', r1, r2⟩ := ih _ _ h1 hs
      exact ⟨s', by simp only [ifStep, e1, Option.bind_eq_bind, Option.bind_some]; exact r1, r2⟩

theorem ifInv_idle (g : IfGeo) (sp : Bool) (S : List TxFrame) (s : IfSys) (h : IfInv g sp S s)
    (hi : IfIdle s) : s.received = S.map delivered := by
  obtain ⟨i1, i2, i3, i4, i5⟩ := hi
  obtain ⟨r, out, h1, h2, h3⟩ := h.flow
  have : pending s = [] := by simp [pending, i3, i4, i5]
  rw [this] at h1
  simp only [rxAll, Option.some.injEq, Prod.mk.injEq] at h1
  rw [← h1.2, i1, i2] at h3
  simpa [curFrames] using h3

end Verif.Proofs
