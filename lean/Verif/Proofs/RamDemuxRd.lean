import Verif.Proofs.OutFifo
import Verif.Proofs.ArbMux
import Verif.Spec.RamDemux
/-! Helper lemmas for the RAM read demultiplexer. -/
namespace Verif.Proofs
open Verif Verif.Model Verif.Spec

theorem demuxSelect_eq (c : DemuxCfg) (sel : Nat) : demuxSelect c sel = selPort c sel := by
  unfold demuxSelect selPort
  by_cases h1 : c.ports = 1
  · simp [h1]
  · rw [if_neg h1]
    by_cases h2 : c.ports > 1
    · rw [if_pos h2, Nat.shiftRight_eq_div_pow, Nat.mod_eq_of_lt]
      rw [Nat.div_lt_iff_lt_mul (Nat.two_pow_pos _), ← Nat.pow_add]
      exact Nat.lt_of_lt_of_le (Nat.mod_lt _ (Nat.two_pow_pos _)) (Nat.pow_le_pow_right (by decide) (by omega))
    · have h0 : c.ports = 0 := by omega
      rw [if_neg h2, h0]
      have : c.mSel - clog2 0 = c.mSel := by rw [show clog2 0 = 0 from by decide]; rfl
      rw [this, Nat.div_eq_of_lt (Nat.mod_lt _ (Nat.two_pow_pos _))]

/-- A command with the port it selects, as passed on. -/
def rdTag (c : DemuxCfg) (x : RdCmd) : Nat × RdCmd := (demuxSelect c x.sel, ⟨demuxSel c x.sel, x.addr⟩)

/-- Invariant: `a` accepted commands with their ports, `f` forwarded, `t` responses taken with their
ports, `d` delivered. -/
structure RdDemuxInv {δ : Type} (c : DemuxCfg) (s : RdDemux δ) (a f : List (Nat × RdCmd)) (t : List (Nat × δ))
    (d : List δ) : Prop where
  sk : SkidOk s.skid
  fwd : f ++ skidQ s.skid = a
  ports : ∀ x ∈ a, x.1 < c.ports
  ring : RingOk 5 s.fifo
  order : t.map (·.1) ++ ringList 5 s.fifo = a.map (·.1)
  out : OutOk 5 s.out
  dlv : d ++ outQ 5 s.out = t.map (·.2)

/-- What a push and a pop in the same cycle do. -/
theorem ring_both {α : Type} (aw : Nat) (r : Ring α) (push pop : Bool) (x : α) (h : RingOk aw r)
    (hpush : push = true → ringFull aw r = false) (hpop : pop = true → ringEmpty r = false) :
    RingOk aw ((if pop then ringPop aw else id) (if push then ringPush aw r x else r)) ∧
    ringCount aw ((if pop then ringPop aw else id) (if push then ringPush aw r x else r)) + pop.toNat =
      ringCount aw r + push.toNat ∧
    ringList aw r ++ (if push then [x] else []) = (if pop then [ringHead aw r] else []) ++
      ringList aw ((if pop then ringPop aw else id) (if push then ringPush aw r x else r)) := by
  have he := ring_empty aw _ h
  have hf := ring_full aw _ h
  cases pop with
  | false =>
    cases push with
    | false => simpa using h
    | true =>
      have hlt : ringCount aw r < 2 ^ aw := by
        have h1 := hpush rfl
        rw [hf] at h1
        simp only [decide_eq_false_iff_not] at h1
        have := h.count; omega
      have hp := ring_push aw r x h hlt
      simp only [Bool.false_eq_true, if_false, if_true, id]
      exact ⟨hp.1, by simp [hp.2.1], by simp [hp.2.2]⟩
  | true =>
    have hpos : 0 < ringCount aw r := by
      have h1 := hpop rfl
      rw [he] at h1
      simp only [decide_eq_false_iff_not] at h1
      omega
    cases push with
    | false =>
      have hp := ring_pop aw r h hpos
      simp only [Bool.false_eq_true, if_false, if_true]
      exact ⟨hp.1, by simpa using hp.2.1, by simpa using hp.2.2⟩
    | true =>
      have hlt : ringCount aw r < 2 ^ aw := by
        have h1 := hpush rfl
        rw [hf] at h1
        simp only [decide_eq_false_iff_not] at h1
        have := h.count; omega
      have hp' := ring_push aw r x h hlt
      have hp := ring_pop aw (ringPush aw r x) hp'.1 (by omega)
      simp only [if_true]
      refine ⟨hp.1, ?_, ?_⟩
      · simp only [Bool.toNat_true]; rw [← hp'.2.1]; exact hp.2.1
      · have e : ringHead aw (ringPush aw r x) = ringHead aw r := by
          have h1 := (ring_pop aw r h hpos).2.2
          have h2 := hp.2.2
          rw [hp'.2.2, h1, List.cons_append] at h2
          exact (List.cons.inj h2).1.symm
        rw [← hp'.2.2, hp.2.2, e]; rfl

theorem rd_step {δ : Type} (c : DemuxCfg) (s : RdDemux δ) (i : RdDemuxIn δ) (a f : List (Nat × RdCmd))
    (t : List (Nat × δ)) (d : List δ) (hr : i.rst = false)
    (hs : i.cmdValid = true → demuxSelect c i.cmd.sel < c.ports) (h : RdDemuxInv c s a f t d) :
    RdDemuxInv c (rdDemuxStep c s i) (a ++ (if i.cmdValid && rdCmdReady s then [rdTag c i.cmd] else []))
      (f ++ (if rdForward s i then [s.skid.out] else []))
      (t ++ (if rdTake s i then [(ringHead 5 s.fifo, i.respData (ringHead 5 s.fifo))] else []))
      (d ++ (if s.out.valid && i.respReady then [s.out.out] else [])) := by
  have hsel : ((i.cmdValid && rdCmdReady s) && decide (demuxSelect c i.cmd.sel < c.ports)) =
      (i.cmdValid && rdCmdReady s) := by
    cases hv : i.cmdValid with
    | false => rfl
    | true => simp [hs hv]
  have hsk := skid_step s.skid (i.cmdValid && rdCmdReady s) (rdTag c i.cmd) (rdForward s i) h.sk
    (by intro hh; simp [rdCmdReady] at hh; exact hh.2.1)
  have hring := ring_both 5 s.fifo (i.cmdValid && rdCmdReady s) (rdTake s i) (demuxSelect c i.cmd.sel) h.ring
    (by intro hh; simp [rdCmdReady] at hh; exact hh.2.2) (by intro hh; simp [rdTake] at hh; exact hh.2)
  have hout := outFifo_step 5 (by omega) s.out (rdTake s i) (i.respData (ringHead 5 s.fifo)) i.respReady h.out
    (by intro hh; simp [rdTake] at hh; exact hh.1.2)
  have e1 : (rdDemuxStep c s i).skid = skidStep false s.skid (i.cmdValid && rdCmdReady s) (rdTag c i.cmd)
      (rdForward s i) := by simp only [rdDemuxStep, hr, hsel, rdTag]
  have e2 : (rdDemuxStep c s i).fifo = (if rdTake s i then ringPop 5 else id)
      (if i.cmdValid && rdCmdReady s then ringPush 5 s.fifo (demuxSelect c i.cmd.sel) else s.fifo) := by
    simp only [rdDemuxStep, hr, Bool.false_eq_true, if_false]
    cases rdTake s i <;> simp
  have e3 : (rdDemuxStep c s i).out = outFifoStep 5 false s.out (rdTake s i) (i.respData (ringHead 5 s.fifo))
      i.respReady := by simp only [rdDemuxStep, hr]
  constructor
  · rw [e1]; exact hsk.1
  · rw [e1, List.append_assoc]
    have e : (if rdForward s i then [s.skid.out] else []) =
        if s.skid.outV && rdForward s i then [s.skid.out] else [] := by
      unfold rdForward; cases s.skid.outV <;> simp
    rw [e, hsk.2, ← List.append_assoc, h.fwd]
  · intro x hx
    rw [List.mem_append] at hx
    rcases hx with hx | hx
    · exact h.ports x hx
    · cases hc : (i.cmdValid && rdCmdReady s) with
      | false => rw [hc] at hx; simp at hx
      | true =>
        rw [hc] at hx; simp at hx; subst hx
        simp only [Bool.and_eq_true] at hc
        exact hs hc.1
  · rw [e2]; exact hring.1
  · rw [e2, List.map_append, List.map_append, ← h.order, List.append_assoc, List.append_assoc]
    congr 1
    have e : ∀ b : Bool, List.map (·.1) (if b then [rdTag c i.cmd] else []) =
        if b then [demuxSelect c i.cmd.sel] else [] := by intro b; cases b <;> rfl
    have e' : ∀ b : Bool, List.map (·.1) (if b then [(ringHead 5 s.fifo, i.respData (ringHead 5 s.fifo))] else []) =
        if b then [ringHead 5 s.fifo] else [] := by intro b; cases b <;> rfl
    rw [e, e', hring.2.2]
  · rw [e3]; exact hout.1
  · rw [e3, List.map_append, List.append_assoc, hout.2, ← List.append_assoc, h.dlv]
    congr 1
    cases rdTake s i <;> rfl

theorem rd_reset {δ : Type} (c : DemuxCfg) (s : RdDemux δ) (i : RdDemuxIn δ) (hr : i.rst = true) :
    RdDemuxInv c (rdDemuxStep c s i) [] [] [] [] := by
  have h1 := fun x tr => skid_rst s.skid (i.cmdValid && rdCmdReady s && decide (demuxSelect c i.cmd.sel < c.ports)) x tr
  have h3 := outFifo_rst 5 s.out (rdTake s i) (i.respData (ringHead 5 s.fifo)) i.respReady
  constructor
  · simp only [rdDemuxStep, hr]; exact (h1 _ _).1
  · simp only [rdDemuxStep, hr]; simpa using (h1 _ _).2
  · simp
  · simp only [rdDemuxStep, hr, if_true]; exact (ring_reset 5 _).1
  · simp only [rdDemuxStep, hr, if_true]; simp [(ring_reset 5 _).2.1]
  · simp only [rdDemuxStep, hr]; exact h3.1
  · simp only [rdDemuxStep, hr]; simpa using h3.2

/-- The tagged lists of a history. -/
def rdFwdT {δ : Type} (c : DemuxCfg) : RdDemux δ → List (RdDemuxIn δ) → List (Nat × RdCmd)
  | _, [] => []
  | s, i :: is => (if rdForward s i then [s.skid.out] else []) ++ rdFwdT c (rdDemuxStep c s i) is

def rdTakenT {δ : Type} (c : DemuxCfg) : RdDemux δ → List (RdDemuxIn δ) → List (Nat × δ)
  | _, [] => []
  | s, i :: is => (if rdTake s i then [(ringHead 5 s.fifo, i.respData (ringHead 5 s.fifo))] else []) ++
      rdTakenT c (rdDemuxStep c s i) is

theorem ofPort_nil {α : Type} (p : Nat) : ofPort p ([] : List (Nat × α)) = [] := rfl

theorem rdForwarded_eq {δ : Type} (c : DemuxCfg) (p : Nat) (is : List (RdDemuxIn δ)) (s : RdDemux δ) :
    rdForwarded c p s is = ofPort p (rdFwdT c s is) := by
  induction is generalizing s with
  | nil => rfl
  | cons i is ih =>
    rw [rdForwarded, rdFwdT, ofPort_append, ← ih]
    congr 1
    unfold rdForward ofPort
    by_cases hp : s.skid.out.1 = p
    · subst hp; cases s.skid.outV <;> cases i.ramReady s.skid.out.1 <;> simp
    · cases s.skid.outV <;> cases i.ramReady s.skid.out.1 <;> simp [hp]

theorem rdTaken_eq {δ : Type} (c : DemuxCfg) (p : Nat) (is : List (RdDemuxIn δ)) (s : RdDemux δ) :
    rdTaken c p s is = ofPort p (rdTakenT c s is) := by
  induction is generalizing s with
  | nil => rfl
  | cons i is ih =>
    rw [rdTaken, rdTakenT, ofPort_append, ← ih]
    congr 1
    unfold rdTake rdRespReady ofPort
    by_cases hp : ringHead 5 s.fifo = p
    · subst hp; cases i.respValid (ringHead 5 s.fifo) <;> cases s.out.half <;> cases ringEmpty s.fifo <;> simp
    · have : (ringHead 5 s.fifo == p) = false := by simpa using hp
      rw [this]
      cases i.respValid (ringHead 5 s.fifo) <;> cases s.out.half <;> cases ringEmpty s.fifo <;> simp [hp]

theorem rd_run {δ : Type} (c : DemuxCfg) (is : List (RdDemuxIn δ)) (s : RdDemux δ) (a f : List (Nat × RdCmd))
    (t : List (Nat × δ)) (d : List δ) (hr : ∀ i ∈ is, i.rst = false) (hs : RdSelOk c is) (h : RdDemuxInv c s a f t d) :
    RdDemuxInv c (rdDemuxRun c s is) (a ++ (rdAccepted c s is).map (rdTag c)) (f ++ rdFwdT c s is)
      (t ++ rdTakenT c s is) (d ++ rdDelivered c s is) := by
  induction is generalizing s a f t d with
  | nil => simpa [rdDemuxRun, rdAccepted, rdFwdT, rdTakenT, rdDelivered] using h
  | cons i is ih =>
    have h1 := rd_step c s i a f t d (hr i List.mem_cons_self)
      (by rw [demuxSelect_eq]; exact hs i List.mem_cons_self) h
    have h2 := ih _ _ _ _ _ (fun j hj => hr j (List.mem_cons_of_mem _ hj))
      (fun j hj => hs j (List.mem_cons_of_mem _ hj)) h1
    have e : ∀ b : Bool, List.map (rdTag c) (if b then [i.cmd] else []) = if b then [rdTag c i.cmd] else [] := by
      intro b; cases b <;> rfl
    simpa only [rdDemuxRun, rdAccepted, rdFwdT, rdTakenT, rdDelivered, List.append_assoc, List.map_append, e]
      using h2

theorem rdDemuxRun_append {δ : Type} (c : DemuxCfg) (x y : List (RdDemuxIn δ)) (s : RdDemux δ) :
    rdDemuxRun c s (x ++ y) = rdDemuxRun c (rdDemuxRun c s x) y := by
  induction x generalizing s with
  | nil => rfl
  | cons i x ih => exact ih _

theorem rdAccepted_append {δ : Type} (c : DemuxCfg) (x y : List (RdDemuxIn δ)) (s : RdDemux δ) :
    rdAccepted c s (x ++ y) = rdAccepted c s x ++ rdAccepted c (rdDemuxRun c s x) y := by
  induction x generalizing s with
  | nil => rfl
  | cons i x ih => simp [rdAccepted, rdDemuxRun, ih]

theorem rdForwarded_append {δ : Type} (c : DemuxCfg) (p : Nat) (x y : List (RdDemuxIn δ)) (s : RdDemux δ) :
    rdForwarded c p s (x ++ y) = rdForwarded c p s x ++ rdForwarded c p (rdDemuxRun c s x) y := by
  induction x generalizing s with
  | nil => rfl
  | cons i x ih => simp [rdForwarded, rdDemuxRun, ih]

theorem rdTaken_append {δ : Type} (c : DemuxCfg) (p : Nat) (x y : List (RdDemuxIn δ)) (s : RdDemux δ) :
    rdTaken c p s (x ++ y) = rdTaken c p s x ++ rdTaken c p (rdDemuxRun c s x) y := by
  induction x generalizing s with
  | nil => rfl
  | cons i x ih => simp [rdTaken, rdDemuxRun, ih]

theorem rdDelivered_append {δ : Type} (c : DemuxCfg) (x y : List (RdDemuxIn δ)) (s : RdDemux δ) :
    rdDelivered c s (x ++ y) = rdDelivered c s x ++ rdDelivered c (rdDemuxRun c s x) y := by
  induction x generalizing s with
  | nil => rfl
  | cons i x ih => simp [rdDelivered, rdDemuxRun, ih]

/-- Work left when no commands come in. -/
def rdWork {δ : Type} (s : RdDemux δ) : Nat :=
  (skidQ s.skid).length + 4 * ringCount 5 s.fifo + 3 * ringCount 5 s.out.ring + s.out.valid.toNat + s.out.half.toNat

theorem skid_quiet {β : Type} (s : Skid β) (x : β) (h : SkidOk s) :
    (skidQ (skidStep false s false x s.outV)).length ≤ (skidQ s).length ∧
    (skidQ s ≠ [] → (skidQ (skidStep false s false x s.outV)).length < (skidQ s).length) := by
  obtain ⟨r, ov, o, tv, t⟩ := s
  unfold SkidOk at h
  unfold skidQ skidStep
  cases r <;> cases ov <;> cases tv <;> simp_all

theorem rd_work {δ : Type} (c : DemuxCfg) (s : RdDemux δ) (i : RdDemuxIn δ) (a f : List (Nat × RdCmd))
    (t : List (Nat × δ)) (d : List δ) (hr : i.rst = false) (hv : i.cmdValid = false)
    (hrdy : ∀ p < c.ports, i.ramReady p = true) (hrr : i.respReady = true) (h : RdDemuxInv c s a f t d)
    (hans : ∀ p < c.ports, (ofPort p t).length < (ofPort p f).length → i.respValid p = true) :
    rdWork s = 0 ∨ rdWork (rdDemuxStep c s i) < rdWork s := by
  have hfw : rdForward s i = s.skid.outV := by
    unfold rdForward
    cases hov : s.skid.outV with
    | false => rfl
    | true =>
      have hm : s.skid.out ∈ a := by rw [← h.fwd]; simp [skidQ, hov]
      simp [hrdy _ (h.ports _ hm)]
  have e1 : (rdDemuxStep c s i).skid = skidStep false s.skid false (rdTag c i.cmd) s.skid.outV := by
    simp only [rdDemuxStep, hr, hv, Bool.false_and, hfw, rdTag]
  have hsk := skid_quiet s.skid (rdTag c i.cmd) h.sk
  rw [← e1] at hsk
  have hring := ring_both 5 s.fifo false (rdTake s i) (demuxSelect c i.cmd.sel) h.ring (by simp)
    (by intro hh; simp [rdTake] at hh; exact hh.2)
  have e2 : (rdDemuxStep c s i).fifo = (if rdTake s i then ringPop 5 else id)
      (if false then ringPush 5 s.fifo (demuxSelect c i.cmd.sel) else s.fifo) := by
    simp only [rdDemuxStep, hr, hv, Bool.false_and, Bool.false_eq_true, if_false]
    cases rdTake s i <;> simp
  rw [← e2] at hring
  obtain ⟨r, -, e3, -, hoc, -⟩ := outFifo_ring 5 (by omega) s.out (rdTake s i)
    (i.respData (ringHead 5 s.fifo)) i.respReady h.out
  have e4 : (rdDemuxStep c s i).out = outFifoStep 5 false s.out (rdTake s i) (i.respData (ringHead 5 s.fifo))
      i.respReady := by simp only [rdDemuxStep, hr]
  have hcnt := hring.2.1
  have hhalf : (rdDemuxStep c s i).out.half = decide (ringCount 5 s.out.ring ≥ 16) := by rw [e4]; rfl
  have hval : (rdDemuxStep c s i).out.valid = !ringEmpty s.out.ring := by
    rw [e4]
    simp only [outFifoStep, hrr, Bool.or_true, Bool.and_true, Bool.not_true, Bool.and_false,
      Bool.false_eq_true, if_false]
    cases ringEmpty s.out.ring <;> simp
  rw [hrr] at hoc
  simp only [Bool.or_true, Bool.and_true] at hoc
  have hem := ring_empty 5 s.out.ring h.out.ring
  have hem2 := ring_empty 5 s.fifo h.ring
  by_cases hw : rdWork s = 0
  · exact Or.inl hw
  · right
    unfold rdWork at hw ⊢
    rw [hhalf, hval, e4, e3]
    have b1 := Bool.toNat_le (rdTake s i)
    by_cases hre : ringCount 5 s.out.ring = 0
    · have hem' : ringEmpty s.out.ring = true := by rw [hem]; simp [hre]
      rw [hem'] at hoc ⊢
      rw [hre] at hoc hw ⊢
      simp only [Bool.not_true, Bool.toNat_false, Nat.add_zero] at hoc hcnt ⊢
      simp only [ge_iff_le, Nat.le_zero_eq, Nat.reduceEqDiff, decide_false, Bool.toNat_false, Nat.add_zero]
      cases htk : rdTake s i with
      | true =>
        rw [htk] at hoc hcnt
        simp only [Bool.toNat_true] at hoc hcnt
        have := hsk.1
        omega
      | false =>
        rw [htk] at hoc hcnt
        simp only [Bool.toNat_false] at hoc hcnt
        by_cases hskn : skidQ s.skid = []
        · -- nothing in the command registers
          cases hvv : s.out.valid with
          | true => have := hsk.1; simp only [Bool.toNat_true]; omega
          | false =>
            cases hhf : s.out.half with
            | true => have := hsk.1; simp only [Bool.toNat_true, Bool.toNat_false]; omega
            | false =>
              exfalso
              rw [hskn, hvv, hhf] at hw
              simp only [List.length_nil, Bool.toNat_false] at hw
              have hpos : 0 < ringCount 5 s.fifo := by omega
              have hp := (ring_pop 5 s.fifo h.ring hpos).2.2
              have hf : f = a := by have := h.fwd; rw [hskn, List.append_nil] at this; exact this
              have hord := h.order
              rw [hp] at hord
              have hmem : ringHead 5 s.fifo ∈ a.map (·.1) := by rw [← hord]; simp
              obtain ⟨x, hx, hxe⟩ := List.mem_map.mp hmem
              have hlt : ringHead 5 s.fifo < c.ports := by rw [← hxe]; exact h.ports x hx
              have hcount : ∀ {γ : Type} (l : List (Nat × γ)) (p : Nat),
                  (ofPort p l).length = (l.map (·.1)).count p := by
                intro γ l p
                rw [ofPort, List.length_map, ← List.countP_eq_length_filter, List.count, List.countP_map]
                rfl
              have := hans _ hlt (by
                rw [hf, hcount, hcount, ← hord, List.count_append, List.count_cons_self]; omega)
              simp [rdTake, this, hhf, hem2] at htk
              omega
        · have := hsk.2 hskn
          omega
    · have hem' : ringEmpty s.out.ring = false := by rw [hem]; simp [hre]
      rw [hem'] at hoc ⊢
      simp only [Bool.not_false, Bool.toNat_true, Bool.toNat_false, Nat.add_zero] at hoc hcnt ⊢
      have b2 := Bool.toNat_le (decide (ringCount 5 s.out.ring ≥ 16))
      have := hsk.1
      omega

theorem rdWork_le {δ : Type} (c : DemuxCfg) (s : RdDemux δ) (a f : List (Nat × RdCmd))
    (t : List (Nat × δ)) (d : List δ) (h : RdDemuxInv c s a f t d) : rdWork s ≤ 183 := by
  have h1 := skidQ_length s.skid
  have h2 := h.ring.count
  have h3 := h.out.count
  have h4 := Bool.toNat_le s.out.valid
  have h5 := Bool.toNat_le s.out.half
  unfold rdWork
  omega

/-- In every cycle of a history the ports have answers for the commands they have taken. -/
def RdPrompt {δ : Type} (c : DemuxCfg) (f : List (Nat × RdCmd)) (t : List (Nat × δ)) (s : RdDemux δ)
    (is : List (RdDemuxIn δ)) : Prop :=
  ∀ k i, is[k]? = some i → ∀ p < c.ports,
    (ofPort p t ++ rdTaken c p s (is.take k)).length < (ofPort p f ++ rdForwarded c p s (is.take k)).length →
      i.respValid p = true

theorem rd_drain {δ : Type} (c : DemuxCfg) (is : List (RdDemuxIn δ)) (s : RdDemux δ) (a f : List (Nat × RdCmd))
    (t : List (Nat × δ)) (d : List δ)
    (hq : ∀ i ∈ is, i.rst = false ∧ i.cmdValid = false ∧ (∀ p < c.ports, i.ramReady p = true) ∧ i.respReady = true)
    (h : RdDemuxInv c s a f t d) (hans : RdPrompt c f t s is) (hlen : rdWork s ≤ is.length) :
    rdWork (rdDemuxRun c s is) = 0 ∧ rdAccepted c s is = [] := by
  induction is generalizing s a f t d with
  | nil => exact ⟨by simpa [rdDemuxRun] using hlen, rfl⟩
  | cons i is ih =>
    obtain ⟨q1, q2, q3, q4⟩ := hq i List.mem_cons_self
    have h1 := rd_step c s i a f t d q1 (by simp [q2]) h
    simp only [q2, Bool.false_and, Bool.false_eq_true, if_false, List.append_nil] at h1
    have hw := rd_work c s i a f t d q1 q2 q3 q4 h (fun p hp hl => hans 0 i rfl p hp (by
      simpa [rdTaken, rdForwarded] using hl))
    have hw' : rdWork (rdDemuxStep c s i) ≤ is.length := by
      rcases hw with hw | hw
      · -- nothing left: it stays so
        have hz : rdWork (rdDemuxStep c s i) = 0 := by
          unfold rdWork at hw
          have hf := h.fwd
          have z1 : skidQ s.skid = [] := List.length_eq_zero_iff.mp (by omega)
          have z2 : ringCount 5 s.fifo = 0 := by omega
          have z3 : ringCount 5 s.out.ring = 0 := by omega
          have z4 : s.out.valid = false := by
            cases hv : s.out.valid with
            | false => rfl
            | true => rw [hv] at hw; simp at hw
          have he : ringEmpty s.fifo = true := by rw [ring_empty 5 _ h.ring]; simp [z2]
          have he2 : ringEmpty s.out.ring = true := by rw [ring_empty 5 _ h.out.ring]; simp [z3]
          have ht : rdTake s i = false := by simp [rdTake, he]
          have ho : s.skid.outV = false := by
            cases hov : s.skid.outV with
            | false => rfl
            | true => simp [skidQ, hov] at z1
          have htv : s.skid.tempV = false := by
            cases hov : s.skid.tempV with
            | false => rfl
            | true => simp [skidQ, hov] at z1
          have hs0 : skidQ (rdDemuxStep c s i).skid = [] := by
            simp only [rdDemuxStep, q1, q2, Bool.false_and, rdForward, ho]
            unfold skidStep skidQ
            cases s.skid.ready <;> simp [ho, htv]
          have hf0 : (rdDemuxStep c s i).fifo = s.fifo := by
            simp [rdDemuxStep, q1, q2, ht]
          have hr0 : (rdDemuxStep c s i).out.ring = s.out.ring := by
            simp [rdDemuxStep, outFifoStep, q1, ht, he2]
          have hv0 : (rdDemuxStep c s i).out.valid = false := by
            simp [rdDemuxStep, outFifoStep, q1, he2, z4]
          have hh0 : (rdDemuxStep c s i).out.half = false := by
            simp [rdDemuxStep, outFifoStep, z3]
          unfold rdWork
          rw [hs0, hf0, hr0, hv0, hh0, z2, z3]; rfl
        omega
      · simp only [List.length_cons] at hlen; omega
    have := ih _ _ _ _ _ (fun j hj => hq j (List.mem_cons_of_mem _ hj)) h1 (by
      intro k j hj p hp hl
      apply hans (k + 1) j (by simpa using hj) p hp
      simp only [List.take_succ_cons, rdTaken_eq, rdForwarded_eq, rdTakenT, rdFwdT] at hl ⊢
      simp only [ofPort_append, List.append_assoc] at hl ⊢
      exact hl) hw'
    simpa [rdDemuxRun, rdAccepted, q2] using this

end Verif.Proofs
