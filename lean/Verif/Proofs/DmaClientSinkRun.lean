import Verif.Proofs.DmaClientSinkInv
/-! Histories of the AXI stream DMA sink. -/
namespace Verif.Proofs
open Verif Verif.Model Verif.Spec

theorem filterMap_if {α β : Type} (p : α → Bool) (f : α → β) (x : α) (l : List α) :
    ((x :: l).filterMap fun x => if p x then some (f x) else none) =
      (if p x then [f x] else []) ++ l.filterMap fun x => if p x then some (f x) else none := by
  rw [List.filterMap_cons]
  cases p x <;> rfl

/-- The words written in a history: the entry in the status FIFO and the effect. -/
def sinkTook (c : SrcCfg) (s : Sink) (is : List SinkIn) : List (SinkEntry × SinkEffect) :=
  (sinkTrace c s is).filterMap fun x => if sinkTake x.1 x.2 then some (sinkEntry c x.1 x.2, sinkNow c x.1 x.2) else none

/-- The entries taken from the status FIFO. -/
def sinkPopped (c : SrcCfg) (s : Sink) (is : List SinkIn) : List SinkEntry :=
  (sinkTrace c s is).filterMap fun x => if sinkPop c x.1 then some (ringHead 5 x.1.fifo) else none

theorem sinkTook_cons (c : SrcCfg) (s : Sink) (i : SinkIn) (is : List SinkIn) :
    sinkTook c s (i :: is) = (if sinkTake s i then [(sinkEntry c s i, sinkNow c s i)] else []) ++ sinkTook c (sinkStep c s i) is :=
  filterMap_if (fun x : Sink × SinkIn => sinkTake x.1 x.2) _ _ _

theorem sinkPopped_cons (c : SrcCfg) (s : Sink) (i : SinkIn) (is : List SinkIn) :
    sinkPopped c s (i :: is) = (if sinkPop c s then [ringHead 5 s.fifo] else []) ++ sinkPopped c (sinkStep c s i) is :=
  filterMap_if (fun x : Sink × SinkIn => sinkPop c x.1) _ _ _

theorem sinkAccepted_cons (c : SrcCfg) (s : Sink) (i : SinkIn) (is : List SinkIn) :
    sinkAccepted c s (i :: is) = (if s.ready && i.valid then [sinkDescOf c i] else []) ++ sinkAccepted c (sinkStep c s i) is :=
  filterMap_if (fun x : Sink × SinkIn => x.1.ready && x.2.valid) _ _ _

theorem sinkWords_cons (c : SrcCfg) (s : Sink) (i : SinkIn) (is : List SinkIn) :
    sinkWords c s (i :: is) = (if s.tready && i.tvalid then [sinkWordOf i] else []) ++ sinkWords c (sinkStep c s i) is :=
  filterMap_if (fun x : Sink × SinkIn => x.1.tready && x.2.tvalid) _ _ _

theorem sinkTaken_cons (c : SrcCfg) (k : Nat) (s : Sink) (i : SinkIn) (is : List SinkIn) :
    sinkTaken c k s (i :: is) =
      (if (s.out k).valid && i.cmdReady k then [(s.out k).out] else []) ++ sinkTaken c k (sinkStep c s i) is :=
  filterMap_if (fun x : Sink × SinkIn => (x.1.out k).valid && x.2.cmdReady k) _ _ _

/-- The status on the interface. -/
def sinkStatusNow (s : Sink) : List SinkStatus := if s.stV then [⟨s.stTag, s.stLen, s.stIds⟩] else []

theorem sinkStatusOut_cons (c : SrcCfg) (s : Sink) (i : SinkIn) (is : List SinkIn) :
    sinkStatusOut c s (i :: is) = sinkStatusNow s ++ sinkStatusOut c (sinkStep c s i) is :=
  filterMap_if (fun x : Sink × SinkIn => x.1.stV) _ _ _

/-- One step of a queue. -/
theorem queue_flow {α : Type} {Q M D Q' T S X : List α} (h1 : Q ++ M = D ++ Q') (h2 : Q' ++ T = S ++ X) :
    Q ++ (M ++ T) = D ++ S ++ X := by
  rw [← List.append_assoc, h1, List.append_assoc, h2, List.append_assoc]

theorem map_if {α β : Type} (f : α → β) (b : Bool) (x : α) :
    (if b then [x] else []).map f = if b then [f x] else [] := by cases b <;> rfl

/-- What a history does. -/
structure SinkRunOk (c : SrcCfg) (s : Sink) (is : List SinkIn) (pend : Nat → Nat) (ds : List SinkDesc) (j : Nat) : Prop where
  inv : SinkInv c (sinkRun c s is) (sinkPendRun c pend s is)
  effects : sinkEffects c (ds ++ sinkAccepted c s is) (sinkWords c s is) j = (sinkTook c s is).map (·.2)
  status : ∀ x ∈ sinkTook c s is, x.2.status = sinkEntryStatus x.1
  nomask : ∀ x ∈ sinkTook c s is, ∀ k < c.segs, x.1.mask k = false → x.2.writes.filter (sinkInSeg c k) = []
  out : ∀ k < c.segs, (outQ 5 (s.out k)).map (sinkCmdWrites c k) ++
      ((sinkTook c s is).filter (·.1.mask k)).map (fun x => x.2.writes.filter (sinkInSeg c k)) =
    (sinkTaken c k s is).map (sinkCmdWrites c k) ++ (outQ 5 ((sinkRun c s is).out k)).map (sinkCmdWrites c k)
  fifo : ringList 5 s.fifo ++ (sinkTook c s is).map (·.1) = sinkPopped c s is ++ ringList 5 (sinkRun c s is).fifo
  given : sinkStatusNow s ++ (sinkPopped c s is).filterMap sinkEntryStatus = sinkStatusOut c s is ++ sinkStatusNow (sinkRun c s is)
  done : ∀ k < c.segs, (sinkRun c s is).doneC k + (sinkPopped c s is).countP (·.mask k) = s.doneC k + sinkDoneCount k is
  pend : ∀ k < c.segs, pend k + (sinkTaken c k s is).length = sinkDoneCount k is + sinkPendRun c pend s is k

theorem sinkEffects_nil (c : SrcCfg) (ds : List SinkDesc) (j : Nat) : sinkEffects c ds [] j = [] := by
  cases ds <;> rfl

theorem sinkCur_align {c : SrcCfg} (hc : SinkCfgOk c) {s : Sink} {ds : List SinkDesc} {j : Nat} (h : SinkCur c s ds j)
    {i : SinkIn} (ht : sinkTake s i = true) : s.addr % c.kw = 0 := by
  have hst : s.st = .write := by simp only [sinkTake, Bool.and_eq_true, beq_iff_eq] at ht; exact ht.1.1
  unfold SinkCur at h
  rw [hst] at h
  obtain ⟨d, -, h⟩ := h
  exact sinkAt_align hc h

theorem sinkRun_ok {c : SrcCfg} (hc : SinkCfgOk c) (is : List SinkIn) : ∀ (s : Sink) (pend : Nat → Nat) (ds : List SinkDesc) (j : Nat),
    SinkInv c s pend → SinkCur c s ds j → (∀ i ∈ is, i.rst = false) → SinkRamOk c pend s is →
    (∀ d ∈ sinkAccepted c s is, d.len ≠ 0) → SinkRunOk c s is pend ds j := by
  induction is with
  | nil =>
    intro s pend ds j h _ _ _ _
    exact ⟨h, sinkEffects_nil _ _ _, fun x hx => (nomatch hx), fun x hx => (nomatch hx), fun k _ => by simp [sinkTook, sinkTaken, sinkTrace, sinkRun], by simp [sinkTook, sinkPopped, sinkTrace, sinkRun],
      by simp [sinkPopped, sinkStatusOut, sinkTrace, sinkRun], fun k _ => rfl, fun k _ => by
        simp [sinkTaken, sinkTrace, sinkDoneCount, sinkPendRun]⟩
  | cons i is ih =>
    intro s pend ds j h hcur hr hram hlen
    have hri := hr i (List.mem_cons_self ..)
    rw [sinkAccepted_cons] at hlen
    obtain ⟨ds', j', hcur', heff⟩ := sinkFsm_cur hc hcur h.ready h.tready i (fun ha => by
      refine hlen (sinkDescOf c i) ?_
      simp [ha])
    have hinv := sinkInv_step h hri hram.1
    have IH := ih (sinkStep c s i) _ ds' j' hinv (sinkCur_step hri hcur')
      (fun x hx => hr x (List.mem_cons_of_mem _ hx)) hram.2 (fun d hd => hlen d (List.mem_append_right _ hd))
    have hmem : ∀ x ∈ (if sinkTake s i then [(sinkEntry c s i, sinkNow c s i)] else []),
        sinkTake s i = true ∧ x = (sinkEntry c s i, sinkNow c s i) := by
      intro x hx
      cases ht : sinkTake s i with
      | false => rw [ht] at hx; cases hx
      | true => rw [ht] at hx; simpa using hx
    refine ⟨IH.inv, ?_, ?_, ?_, ?_, ?_, ?_, ?_, ?_⟩
    · rw [sinkAccepted_cons, sinkWords_cons, heff, IH.effects, sinkTook_cons, List.map_append, map_if]
    · intro x hx
      rw [sinkTook_cons, List.mem_append] at hx
      rcases hx with hx | hx
      · rw [(hmem x hx).2]; rfl
      · exact IH.status x hx
    · intro x hx k hk hm
      rw [sinkTook_cons, List.mem_append] at hx
      rcases hx with hx | hx
      · obtain ⟨ht, rfl⟩ := hmem x hx
        show (sinkNowWrites c s i).filter _ = []
        rw [← sinkCmd_writes hc s i (sinkCur_align hc hcur ht) hk]
        exact sinkCmd_none s i k hm
      · exact IH.nomask x hx k hk hm
    · intro k hk
      rw [sinkTook_cons, sinkTaken_cons, List.filter_append, List.map_append, List.map_append]
      refine queue_flow ?_ (IH.out k hk)
      have hq := outFifo_queue 5 (s.out k) (sinkTake s i && sinkMask c s i k) (sinkCmd c s i k) (i.cmdReady k)
        (h.out k hk) (by have := (h.outGate k hk).1; omega)
      rw [← (sinkStep_out c s i hri k).1] at hq
      rw [← List.map_append, hq, List.map_append]
      congr 1
      cases ht : sinkTake s i with
      | false => rfl
      | true =>
        have hw := sinkCmd_writes hc s i (sinkCur_align hc hcur ht) hk
        have e : (sinkEntry c s i).mask k = sinkMask c s i k := rfl
        cases hm : sinkMask c s i k with
        | false => simp [e, hm]
        | true => simp only [if_true, List.filter_cons, e, hm, List.filter_nil, List.map_cons, List.map_nil, Bool.true_and, hw]; rfl
    · rw [sinkTook_cons, sinkPopped_cons, List.map_append]
      refine queue_flow ?_ IH.fifo
      rw [map_if]; exact (sinkFifo_step h i hri).2.2
    · rw [sinkStatusOut_cons, sinkPopped_cons, List.filterMap_append]
      refine queue_flow ?_ IH.given
      congr 1
      obtain ⟨-, -, e1, e2, e3, e4⟩ := sinkStep_status c s i hri
      unfold sinkStatusNow sinkDec at *
      rw [e1, e2, e3, e4]
      cases sinkPop c s with
      | false => rfl
      | true => cases hl : (ringHead 5 s.fifo).last <;> simp [sinkEntryStatus, hl]
    · intro k hk
      have h1 := IH.done k hk
      have h2 := (sinkDone_step h i hri hk).1
      rw [sinkPopped_cons, List.countP_append, countP_one]
      have e2 : (sinkPop c s && (ringHead 5 s.fifo).mask k) = sinkAck c s k := rfl
      rw [e2]
      have e3 : sinkDoneCount k (i :: is) = sinkDoneCount k is + (i.done k).toNat := by
        unfold sinkDoneCount; rw [List.countP_cons]; cases i.done k <;> rfl
      rw [e3]
      show (sinkRun c (sinkStep c s i) is).doneC k + _ = _
      omega
    · intro k hk
      have h1 := IH.pend k hk
      have e3 : sinkDoneCount k (i :: is) = sinkDoneCount k is + (i.done k).toNat := by
        unfold sinkDoneCount; rw [List.countP_cons]; cases i.done k <;> rfl
      rw [sinkTaken_cons, List.length_append, e3]
      have hml : ∀ (b : Bool) (x : SinkCmd), (if b then [x] else []).length = b.toNat := by intro b x; cases b <;> rfl
      rw [hml]
      show _ = _ + sinkPendRun c (sinkPendNext s i pend) (sinkStep c s i) is k
      unfold sinkPendNext at h1 ⊢
      have hp : (i.done k).toNat ≤ pend k := by
        cases hdn : i.done k with
        | false => exact Nat.zero_le _
        | true => exact hram.1 k hk hdn
      omega

/-- The words of a history are the effects demanded; what was taken from the FIFO is a prefix. -/
theorem sinkRun_reset {c : SrcCfg} (hc : SinkCfgOk c) (s : Sink) (r : SinkIn) (is : List SinkIn) (hr : r.rst = true)
    (hn : ∀ i ∈ is, i.rst = false) (hram : SinkRamOk c (fun _ => 0) (sinkStep c s r) is)
    (hlen : ∀ d ∈ sinkAccepted c (sinkStep c s r) is, d.len ≠ 0) :
    SinkRunOk c (sinkStep c s r) is (fun _ => 0) [] 0 :=
  sinkRun_ok hc is _ _ _ _ (sinkInv_reset s r hr).1 (sinkInv_reset s r hr).2.1 hn hram hlen

/-! ### Consequences -/

theorem filter_flat {α β : Type} (L : List α) (m : α → Bool) (f : α → List β) (h : ∀ x ∈ L, m x = false → f x = []) :
    ((L.filter m).map f).flatten = (L.map f).flatten := by
  induction L with
  | nil => rfl
  | cons x L ih =>
    have ih := ih fun y hy => h y (List.mem_cons_of_mem _ hy)
    rw [List.filter_cons]
    cases hm : m x with
    | true => simp [ih]
    | false => simp [ih, h x (List.mem_cons_self ..) hm]

theorem filter_flatMap' {α β : Type} (L : List α) (f : α → List β) (p : β → Bool) :
    (L.flatMap f).filter p = (L.map fun x => (f x).filter p).flatten := by
  induction L with
  | nil => rfl
  | cons x L ih => simp [ih]

/-- The bytes demanded for the part `T` of the words written. -/
theorem sinkTook_bytes {c : SrcCfg} {T : List (SinkEntry × SinkEffect)} {k : Nat}
    (h : ∀ x ∈ T, x.1.mask k = false → x.2.writes.filter (sinkInSeg c k) = []) :
    ((T.filter (·.1.mask k)).map (fun x => x.2.writes.filter (sinkInSeg c k))).flatten =
      ((T.map (·.2)).flatMap (·.writes)).filter (sinkInSeg c k) := by
  rw [filter_flat _ _ _ h, filter_flatMap', List.map_map]
  rfl

/-- Descriptors with `n` statuses: their words are among the first, up to the last status. -/
theorem sinkEffects_take (c : SrcCfg) : ∀ (ws : List SinkWord) (ds : List SinkDesc) (j n : Nat) (P Q : List SinkEffect),
    sinkEffects c ds ws j = P ++ Q →
    n ≤ (P.filterMap (·.status)).length + (match ds with | [] => 0 | d :: _ => if j * c.kw < d.len then 0 else 1) →
    sinkEffects c (ds.take n) ws j <+: P := by
  intro ws
  induction ws with
  | nil => intro ds j n P Q _ _; rw [sinkEffects_nil]; exact List.nil_prefix
  | cons w ws ih =>
    intro ds j n P Q h hn
    match ds, n with
    | [], n => rw [List.take_nil]; exact List.nil_prefix
    | d :: ds, 0 => exact List.nil_prefix
    | d :: ds, m + 1 =>
      rw [List.take_succ_cons]
      rw [sinkEffects] at h ⊢
      simp only at hn
      by_cases hj : j * c.kw < d.len
      · rw [if_pos hj] at h hn ⊢
        match P with
        | [] => simp at hn
        | e :: P =>
          rw [List.cons_append, List.nil_append, List.cons_append] at h
          obtain ⟨he, h⟩ := List.cons.inj h
          rw [List.cons_append, List.nil_append, ← he, List.cons_prefix_cons]
          refine ⟨rfl, ?_⟩
          rw [List.filterMap_cons, ← he] at hn
          cases hl : w.last with
          | true =>
            simp only [hl, if_true] at h hn ⊢
            rw [List.length_cons] at hn
            exact ih ds 0 m P Q h (by omega)
          | false =>
            simp only [hl, Bool.false_eq_true, if_false] at h hn ⊢
            have := ih (d :: ds) (j + 1) (m + 1) P Q h
            rw [List.take_succ_cons] at this
            refine this ?_
            by_cases hf : d.len ≤ (j + 1) * c.kw
            · rw [if_pos hf] at hn
              simp only at hn ⊢
              rw [List.length_cons] at hn
              rw [if_neg (by omega)]; omega
            · rw [if_neg hf] at hn
              simp only at hn ⊢
              rw [if_pos (by omega)]; omega
      · rw [if_neg hj] at h hn ⊢
        rw [List.nil_append] at h ⊢
        cases hl : w.last with
        | true =>
          simp only [hl, if_true] at h ⊢
          exact ih ds 0 m P Q h (by omega)
        | false =>
          simp only [hl, Bool.false_eq_true, if_false] at h ⊢
          have := ih (d :: ds) (j + 1) (m + 1) P Q h
          rw [List.take_succ_cons] at this
          refine this ?_
          have hm : (j + 1) * c.kw = j * c.kw + c.kw := by rw [Nat.add_mul, Nat.one_mul]
          simp only
          rw [if_neg (by omega)]; omega

theorem filter_take_count {α : Type} (p : α → Bool) (l : List α) (m : Nat) :
    (l.take m).filter p = (l.filter p).take ((l.take m).countP p) := by
  have h : (l.filter p) = (l.take m).filter p ++ (l.drop m).filter p := by
    rw [← List.filter_append, List.take_append_drop]
  rw [h, List.countP_eq_length_filter, List.take_left']
  rfl

/-- The writes behind the statuses given are reported as done. -/
theorem sinkRun_done {c : SrcCfg} {s : Sink} {is : List SinkIn} (h : SinkRunOk c s is (fun _ => 0) [] 0)
    (hf : ringList 5 s.fifo = []) (hs : s.stV = false) (ho : ∀ k, outQ 5 (s.out k) = []) (hd : ∀ k, s.doneC k = 0)
    {k : Nat} (hk : k < c.segs) :
    (sinkWrites c ((sinkAccepted c s is).take (sinkStatusOut c s is).length) (sinkWords c s is)).filter (sinkInSeg c k) <+:
      ((sinkTaken c k s is).take (sinkDoneCount k is)).flatMap (sinkCmdWrites c k) := by
  have hfifo := h.fifo
  rw [hf, List.nil_append] at hfifo
  have hgiven := h.given
  rw [sinkStatusNow, hs] at hgiven
  simp only [Bool.false_eq_true, if_false, List.nil_append] at hgiven
  have heff := h.effects
  rw [List.nil_append] at heff
  have hout := h.out k hk
  rw [ho, List.map_nil, List.nil_append] at hout
  have hdone := h.done k hk
  rw [hd, Nat.zero_add] at hdone
  have hpend := h.pend k hk
  generalize htk : sinkTook c s is = took at *
  have hm : (took.take (sinkPopped c s is).length).map (·.1) = sinkPopped c s is := by
    rw [List.map_take, hfifo, List.take_left' rfl]
  have hst : ∀ x ∈ took.take (sinkPopped c s is).length, x.2.status = sinkEntryStatus x.1 :=
    fun x hx => h.status x (by rw [htk]; exact List.mem_of_mem_take hx)
  have hnm : ∀ x ∈ took.take (sinkPopped c s is).length, x.1.mask k = false → x.2.writes.filter (sinkInSeg c k) = [] :=
    fun x hx => h.nomask x (by rw [htk]; exact List.mem_of_mem_take hx) k hk
  have hcnt : (took.take (sinkPopped c s is).length).countP (·.1.mask k) = (sinkPopped c s is).countP (·.mask k) := by
    rw [← hm, List.countP_map]; simp only [List.length_map, hm]; rfl
  have hstat : (((took.take (sinkPopped c s is).length).map (·.2)).filterMap (·.status)) =
      (sinkPopped c s is).filterMap sinkEntryStatus := by
    conv => rhs; rw [← hm]
    rw [List.filterMap_map, List.filterMap_map]
    apply filterMap_same
    intro x hx
    exact hst x hx
  have hpre := sinkEffects_take c (sinkWords c s is) (sinkAccepted c s is) 0 (sinkStatusOut c s is).length
    ((took.take (sinkPopped c s is).length).map (·.2)) ((took.drop (sinkPopped c s is).length).map (·.2))
    (by rw [heff, ← List.map_append, List.take_append_drop])
    (by rw [hstat, hgiven, List.length_append]; omega)
  obtain ⟨t, ht⟩ := hpre
  have h1 : (sinkWrites c ((sinkAccepted c s is).take (sinkStatusOut c s is).length) (sinkWords c s is)).filter (sinkInSeg c k) <+:
      (((took.take (sinkPopped c s is).length).map (·.2)).flatMap (·.writes)).filter (sinkInSeg c k) := by
    rw [← ht, List.flatMap_append, List.filter_append]
    exact List.prefix_append _ _
  refine h1.trans ?_
  rw [← sinkTook_bytes hnm, filter_take_count, hcnt, List.map_take, hout,
    List.take_append_of_le_length (by rw [List.length_map]; omega), ← List.map_take, List.flatMap_def]
  have hle : (sinkPopped c s is).countP (·.mask k) ≤ sinkDoneCount k is := by omega
  obtain ⟨t, ht⟩ := List.take_prefix_take_left (l := sinkTaken c k s is) hle
  rw [← ht, List.map_append, List.flatten_append]
  exact List.prefix_append _ _

end Verif.Proofs
