import Verif.Proofs.RamDemuxRd
/-! Helper lemmas for the RAM write demultiplexer. -/
namespace Verif.Proofs
open Verif Verif.Model Verif.Spec

/-- A command with the port it selects, as passed on. -/
def wrTag (c : DemuxCfg) (x : WrCmd) : Nat × WrCmd :=
  (demuxSelect c x.sel, ⟨demuxSel c x.sel, x.be, x.addr, x.data⟩)

theorem ofPort_length {γ : Type} (l : List (Nat × γ)) (p : Nat) : (ofPort p l).length = (l.map (·.1)).count p := by
  rw [ofPort, List.length_map, ← List.countP_eq_length_filter, List.count, List.countP_map]
  rfl

/-- Invariant: `a` accepted commands with their ports, `f` forwarded, `rp` the ports of the completions
reported, `pd` the number of completions each port has reported. -/
structure WrDemuxInv (c : DemuxCfg) (s : WrDemux) (a f : List (Nat × WrCmd)) (rp : List Nat) (pd : Nat → Nat) : Prop where
  sk : SkidOk s.skid
  fwd : f ++ skidQ s.skid = a
  ports : ∀ x ∈ a, x.1 < c.ports
  ring : RingOk 5 s.fifo
  order : rp ++ (if s.selV then [s.sel] else []) ++ ringList 5 s.fifo = a.map (·.1)
  done : ∀ p < c.ports, s.done p = decide (0 < s.count p)
  cnt : ∀ p < c.ports, s.count p + rp.count p = pd p

theorem wr_sel_lt {c : DemuxCfg} {s : WrDemux} {a f : List (Nat × WrCmd)} {rp : List Nat} {pd : Nat → Nat}
    (h : WrDemuxInv c s a f rp pd) (hv : s.selV = true) : s.sel < c.ports := by
  have hm : s.sel ∈ a.map (·.1) := by rw [← h.order, hv]; simp
  obtain ⟨x, hx, e⟩ := List.mem_map.mp hm
  rw [← e]; exact h.ports x hx

theorem wrDone_eq {c : DemuxCfg} {s : WrDemux} {a f : List (Nat × WrCmd)} {rp : List Nat} {pd : Nat → Nat}
    (h : WrDemuxInv c s a f rp pd) : wrDone c s = (s.selV && s.done s.sel) := by
  rw [Bool.eq_iff_iff]
  simp only [wrDone, List.any_eq_true, List.mem_range, wrAck, Bool.and_eq_true, beq_iff_eq]
  constructor
  · rintro ⟨p, hp, h1, h2, rfl⟩; exact ⟨h2, h1⟩
  · rintro ⟨h1, h2⟩; exact ⟨s.sel, wr_sel_lt h h1, h2, h1, rfl⟩

theorem wr_step (c : DemuxCfg) (s : WrDemux) (i : WrDemuxIn) (a f : List (Nat × WrCmd)) (rp : List Nat)
    (pd : Nat → Nat) (hr : i.rst = false) (hs : i.cmdValid = true → demuxSelect c i.cmd.sel < c.ports)
    (h : WrDemuxInv c s a f rp pd)
    (hd : ∀ p < c.ports, pd p + (i.ramDone p).toNat ≤
      (ofPort p (f ++ (if wrForward s i then [s.skid.out] else []))).length) :
    WrDemuxInv c (wrDemuxStep c s i) (a ++ (if i.cmdValid && wrCmdReady s then [wrTag c i.cmd] else []))
      (f ++ (if wrForward s i then [s.skid.out] else []))
      (rp ++ (if wrDone c s then [s.sel] else []))
      (fun p => pd p + (i.ramDone p).toNat) := by
  have hsel : ((i.cmdValid && wrCmdReady s) && decide (demuxSelect c i.cmd.sel < c.ports)) =
      (i.cmdValid && wrCmdReady s) := by
    cases hv : i.cmdValid with
    | false => rfl
    | true => simp [hs hv]
  have hsk := skid_step s.skid (i.cmdValid && wrCmdReady s) (wrTag c i.cmd) (wrForward s i) h.sk
    (by intro hh; simp [wrCmdReady] at hh; exact hh.2.1)
  have hring := ring_both 5 s.fifo (i.cmdValid && wrCmdReady s) ((!s.selV || wrDone c s) && !ringEmpty s.fifo)
    (demuxSelect c i.cmd.sel) h.ring
    (by intro hh; simp [wrCmdReady] at hh; exact hh.2.2) (by intro hh; simp at hh; exact hh.2)
  have e1 : (wrDemuxStep c s i).skid = skidStep false s.skid (i.cmdValid && wrCmdReady s) (wrTag c i.cmd)
      (wrForward s i) := by simp only [wrDemuxStep, hr, hsel, wrTag]
  have e2 : (wrDemuxStep c s i).fifo = (if (!s.selV || wrDone c s) && !ringEmpty s.fifo then ringPop 5 else id)
      (if i.cmdValid && wrCmdReady s then ringPush 5 s.fifo (demuxSelect c i.cmd.sel) else s.fifo) := by
    simp only [wrDemuxStep, hr, Bool.false_eq_true, if_false]
    cases ((!s.selV || wrDone c s) && !ringEmpty s.fifo) <;> simp
  have hf : f ++ (if wrForward s i then [s.skid.out] else []) ++ skidQ (wrDemuxStep c s i).skid =
      a ++ (if i.cmdValid && wrCmdReady s then [wrTag c i.cmd] else []) := by
    rw [e1, List.append_assoc]
    have e : (if wrForward s i then [s.skid.out] else []) =
        if s.skid.outV && wrForward s i then [s.skid.out] else [] := by
      unfold wrForward; cases s.skid.outV <;> simp
    rw [e, hsk.2, ← List.append_assoc, h.fwd]
  have hdone := wrDone_eq h
  -- forwarded commands are accepted ones
  have hfa : ∀ p, (ofPort p (f ++ (if wrForward s i then [s.skid.out] else []))).length ≤ (a.map (·.1)).count p := by
    intro p
    rw [ofPort_length, ← h.fwd, List.map_append, List.map_append, List.count_append, List.count_append]
    apply Nat.add_le_add_left
    unfold wrForward
    cases hov : s.skid.outV with
    | false => simp
    | true =>
      cases i.ramReady s.skid.out.1 with
      | false => simp
      | true =>
        simp only [skidQ, hov, Bool.and_self, if_true, List.map_append, List.count_append]
        omega
  constructor
  · rw [e1]; exact hsk.1
  · exact hf
  · intro x hx
    rw [List.mem_append] at hx
    rcases hx with hx | hx
    · exact h.ports x hx
    · cases hc : (i.cmdValid && wrCmdReady s) with
      | false => rw [hc] at hx; simp at hx
      | true =>
        rw [hc] at hx; simp at hx; subst hx
        simp only [Bool.and_eq_true] at hc
        exact hs hc.1
  · rw [e2]; exact hring.1
  · rw [e2, List.map_append, ← h.order]
    have e : ∀ b : Bool, List.map (·.1) (if b then [wrTag c i.cmd] else []) =
        if b then [demuxSelect c i.cmd.sel] else [] := by intro b; cases b <;> rfl
    rw [e, List.append_assoc (rp ++ (if s.selV then [s.sel] else [])) (ringList 5 s.fifo), hring.2.2]
    simp only [List.append_assoc]
    congr 1
    have hd1 : wrDone c s = true → s.selV = true := by rw [hdone]; simp; intro a _; exact a
    simp only [wrDemuxStep, hr, Bool.false_eq_true, if_false]
    cases hsv : s.selV with
    | false =>
      have : wrDone c s = false := by
        cases hw : wrDone c s with
        | false => rfl
        | true => have := hd1 hw; rw [hsv] at this; simp at this
      rw [this]
      cases ringEmpty s.fifo <;> simp
    | true =>
      cases hw : wrDone c s <;> cases ringEmpty s.fifo <;> simp
  · intro p hp
    have h1 := h.done p hp
    simp only [wrDemuxStep, hr, Bool.false_eq_true, if_false, wrCountNext, wrDoneNext]
    by_cases c1 : (decide (s.count p < 32) && i.ramDone p && !wrAck s p) = true
    · simp only [c1, if_true]; simp
    · simp only [c1, Bool.false_eq_true, if_false]
      by_cases c2 : (decide (s.count p > 0) && !i.ramDone p && wrAck s p) = true
      · simp only [c2, if_true, decide_eq_decide]; omega
      · simp only [c2, Bool.false_eq_true, if_false]; exact h1
  · intro p hp
    have h1 := h.done p hp
    have h2 := h.cnt p hp
    have hpd := hd p hp
    have hfa' := hfa p
    have hord := congrArg (List.count p) h.order
    simp only [List.count_append] at hord
    have hrl : List.count p (ringList 5 s.fifo) ≤ 32 := by
      have a1 : List.count p (ringList 5 s.fifo) ≤ (ringList 5 s.fifo).length := List.countP_le_length
      rw [ringList_length] at a1
      have := h.ring.count
      omega
    simp only [wrDemuxStep, hr, Bool.false_eq_true, if_false, wrCountNext]
    rw [List.count_append]
    have hack : wrAck s p = (wrDone c s && decide (s.sel = p)) := by
      rw [hdone]
      unfold wrAck
      by_cases he : s.sel = p
      · subst he; cases s.done s.sel <;> cases s.selV <;> simp
      · have : (s.sel == p) = false := by simpa using he
        rw [this]; simp [he]
    have hcr : List.count p (if wrDone c s then [s.sel] else []) = (wrAck s p).toNat := by
      rw [hack]
      cases wrDone c s with
      | false => simp
      | true =>
        by_cases he : s.sel = p
        · subst he; simp
        · simp [he]
    rw [hcr]
    -- the counter does not overflow
    have hno : s.count p < 32 ∨ i.ramDone p = false ∨ wrAck s p = true := by
      apply Classical.byContradiction
      intro hn
      simp only [not_or, Bool.not_eq_false, Bool.not_eq_true] at hn
      obtain ⟨n1, n2, n3⟩ := hn
      rw [n2] at hpd
      simp only [Bool.toNat_true] at hpd
      have hd2 : s.done p = true := by rw [h1]; simp; omega
      have : List.count p (if s.selV then [s.sel] else []) = 0 := by
        unfold wrAck at n3
        rw [hd2] at n3
        cases hsv : s.selV with
        | false => simp
        | true =>
          rw [hsv] at n3
          have : s.sel ≠ p := by intro e; simp [e] at n3
          simp [this]
      omega
    have hpos : wrAck s p = true → 0 < s.count p := by
      intro hk
      unfold wrAck at hk
      simp only [Bool.and_eq_true] at hk
      have := hk.1
      rw [h1] at this
      simpa using this
    cases hrd : i.ramDone p <;> cases hak : wrAck s p <;> rw [hrd, hak] at hno <;> simp_all <;> omega

theorem wr_reset (c : DemuxCfg) (s : WrDemux) (i : WrDemuxIn) (hr : i.rst = true) :
    WrDemuxInv c (wrDemuxStep c s i) [] [] [] (fun _ => 0) := by
  have h1 := fun x tr => skid_rst s.skid (i.cmdValid && wrCmdReady s && decide (demuxSelect c i.cmd.sel < c.ports)) x tr
  constructor
  · simp only [wrDemuxStep, hr]; exact (h1 _ _).1
  · simp only [wrDemuxStep, hr]; simpa using (h1 _ _).2
  · simp
  · simp only [wrDemuxStep, hr, if_true]; exact (ring_reset 5 _).1
  · simp only [wrDemuxStep, hr, if_true]; simp [(ring_reset 5 _).2.1]
  · intro p _; simp [wrDemuxStep, hr]
  · intro p _; simp [wrDemuxStep, hr]

/-- The tagged list of forwarded commands. -/
def wrFwdT (c : DemuxCfg) : WrDemux → List WrDemuxIn → List (Nat × WrCmd)
  | _, [] => []
  | s, i :: is => (if wrForward s i then [s.skid.out] else []) ++ wrFwdT c (wrDemuxStep c s i) is

/-- The ports of the completions reported. -/
def wrRepT (c : DemuxCfg) : WrDemux → List WrDemuxIn → List Nat
  | _, [] => []
  | s, i :: is => (if wrDone c s then [s.sel] else []) ++ wrRepT c (wrDemuxStep c s i) is

theorem wrForwarded_eq (c : DemuxCfg) (p : Nat) (is : List WrDemuxIn) (s : WrDemux) :
    wrForwarded c p s is = ofPort p (wrFwdT c s is) := by
  induction is generalizing s with
  | nil => rfl
  | cons i is ih =>
    rw [wrForwarded, wrFwdT, ofPort_append, ← ih]
    congr 1
    unfold wrForward ofPort
    by_cases hp : s.skid.out.1 = p
    · subst hp; cases s.skid.outV <;> cases i.ramReady s.skid.out.1 <;> simp
    · cases s.skid.outV <;> cases i.ramReady s.skid.out.1 <;> simp [hp]

theorem wrRepT_length (c : DemuxCfg) (is : List WrDemuxIn) (s : WrDemux) :
    (wrRepT c s is).length = wrReported c s is := by
  induction is generalizing s with
  | nil => rfl
  | cons i is ih =>
    rw [wrRepT, wrReported, List.length_append, ih]
    cases wrDone c s <;> simp

/-- Ports report no more completions than they have taken commands, in every cycle. -/
def WrHonest (c : DemuxCfg) (f : List (Nat × WrCmd)) (pd : Nat → Nat) (s : WrDemux) (is : List WrDemuxIn) : Prop :=
  ∀ k, ∀ p < c.ports, pd p + wrPortDone p (is.take k) ≤ (ofPort p f ++ wrForwarded c p s (is.take k)).length

theorem wr_run (c : DemuxCfg) (is : List WrDemuxIn) (s : WrDemux) (a f : List (Nat × WrCmd)) (rp : List Nat)
    (pd : Nat → Nat) (hr : ∀ i ∈ is, i.rst = false) (hs : WrSelOk c is) (h : WrDemuxInv c s a f rp pd)
    (hh : WrHonest c f pd s is) :
    WrDemuxInv c (wrDemuxRun c s is) (a ++ (wrAccepted c s is).map (wrTag c)) (f ++ wrFwdT c s is)
      (rp ++ wrRepT c s is) (fun p => pd p + wrPortDone p is) := by
  induction is generalizing s a f rp pd with
  | nil => simpa [wrDemuxRun, wrAccepted, wrFwdT, wrRepT, wrPortDone] using h
  | cons i is ih =>
    have h1 := wr_step c s i a f rp pd (hr i List.mem_cons_self) (by rw [demuxSelect_eq]; exact hs i List.mem_cons_self) h (by
      intro p hp
      have := hh 1 p hp
      simp only [List.take_succ_cons, List.take_zero, wrForwarded_eq, wrFwdT, List.append_nil] at this
      rw [ofPort_append]
      have e : wrPortDone p [i] = (i.ramDone p).toNat := by
        simp [wrPortDone, List.countP_cons]; cases i.ramDone p <;> simp
      omega)
    have h2 := ih _ _ _ _ _ (fun j hj => hr j (List.mem_cons_of_mem _ hj))
      (fun j hj => hs j (List.mem_cons_of_mem _ hj)) h1 (by
        intro k p hp
        have := hh (k + 1) p hp
        simp only [List.take_succ_cons, wrForwarded_eq, wrFwdT, ofPort_append] at this ⊢
        have e : wrPortDone p (i :: is.take k) = (i.ramDone p).toNat + wrPortDone p (is.take k) := by
          simp [wrPortDone, List.countP_cons]; cases i.ramDone p <;> simp <;> omega
        rw [e] at this
        simp only [List.append_assoc]
        omega)
    have e : ∀ b : Bool, List.map (wrTag c) (if b then [i.cmd] else []) = if b then [wrTag c i.cmd] else [] := by
      intro b; cases b <;> rfl
    have e' : (fun p => pd p + wrPortDone p (i :: is)) =
        fun p => pd p + (i.ramDone p).toNat + wrPortDone p is := by
      funext p
      simp [wrPortDone, List.countP_cons]; cases i.ramDone p <;> simp <;> omega
    rw [e']
    simpa only [wrDemuxRun, wrAccepted, wrFwdT, wrRepT, List.append_assoc, List.map_append, e] using h2

theorem wrDemuxRun_append (c : DemuxCfg) (x y : List WrDemuxIn) (s : WrDemux) :
    wrDemuxRun c s (x ++ y) = wrDemuxRun c (wrDemuxRun c s x) y := by
  induction x generalizing s with
  | nil => rfl
  | cons i x ih => exact ih _

theorem wrAccepted_append (c : DemuxCfg) (x y : List WrDemuxIn) (s : WrDemux) :
    wrAccepted c s (x ++ y) = wrAccepted c s x ++ wrAccepted c (wrDemuxRun c s x) y := by
  induction x generalizing s with
  | nil => rfl
  | cons i x ih => simp [wrAccepted, wrDemuxRun, ih]

theorem wrForwarded_append (c : DemuxCfg) (p : Nat) (x y : List WrDemuxIn) (s : WrDemux) :
    wrForwarded c p s (x ++ y) = wrForwarded c p s x ++ wrForwarded c p (wrDemuxRun c s x) y := by
  induction x generalizing s with
  | nil => rfl
  | cons i x ih => simp [wrForwarded, wrDemuxRun, ih]

theorem wrPortDone_append (p : Nat) (x y : List WrDemuxIn) :
    wrPortDone p (x ++ y) = wrPortDone p x + wrPortDone p y := List.countP_append

theorem wrPortDone_cons (p : Nat) (i : WrDemuxIn) (is : List WrDemuxIn) :
    wrPortDone p (i :: is) = (i.ramDone p).toNat + wrPortDone p is := by
  simp [wrPortDone, List.countP_cons]; cases i.ramDone p <;> simp <;> omega

/-- Work left when no commands come in. -/
def wrWork (s : WrDemux) : Nat :=
  (skidQ s.skid).length + 3 * (s.selV.toNat + ringCount 5 s.fifo) +
    (if s.selV then (if s.done s.sel then 0 else 1) else 2)

theorem wr_work (c : DemuxCfg) (s : WrDemux) (i : WrDemuxIn) (a f : List (Nat × WrCmd))
    (rp : List Nat) (pd : Nat → Nat) (hr : i.rst = false) (hv : i.cmdValid = false)
    (hrdy : ∀ p < c.ports, i.ramReady p = true) (h : WrDemuxInv c s a f rp pd)
    (h' : WrDemuxInv c (wrDemuxStep c s i) a (f ++ (if wrForward s i then [s.skid.out] else []))
      (rp ++ (if wrDone c s then [s.sel] else [])) (fun p => pd p + (i.ramDone p).toNat))
    (hans : ∀ p < c.ports, pd p < (ofPort p f).length → i.ramDone p = true) :
    wrWork s ≤ 2 ∧ skidQ s.skid = [] ∨ wrWork (wrDemuxStep c s i) < wrWork s := by
  have hfw : wrForward s i = s.skid.outV := by
    unfold wrForward
    cases hov : s.skid.outV with
    | false => rfl
    | true =>
      have hm : s.skid.out ∈ a := by rw [← h.fwd]; simp [skidQ, hov]
      simp [hrdy _ (h.ports _ hm)]
  have e1 : (wrDemuxStep c s i).skid = skidStep false s.skid false (wrTag c i.cmd) s.skid.outV := by
    simp only [wrDemuxStep, hr, hv, Bool.false_and, hfw, wrTag]
  have hsk := skid_quiet s.skid (wrTag c i.cmd) h.sk
  rw [← e1] at hsk
  have hring := ring_both 5 s.fifo false ((!s.selV || wrDone c s) && !ringEmpty s.fifo) (demuxSelect c i.cmd.sel)
    h.ring (by simp) (by intro hh; simp at hh; exact hh.2)
  have e2 : (wrDemuxStep c s i).fifo = (if (!s.selV || wrDone c s) && !ringEmpty s.fifo then ringPop 5 else id)
      (if false then ringPush 5 s.fifo (demuxSelect c i.cmd.sel) else s.fifo) := by
    simp only [wrDemuxStep, hr, hv, Bool.false_and, Bool.false_eq_true, if_false]
    cases ((!s.selV || wrDone c s) && !ringEmpty s.fifo) <;> simp
  rw [← e2] at hring
  have hcnt := hring.2.1
  simp only [Bool.toNat_false, Nat.add_zero] at hcnt
  have hselV : (wrDemuxStep c s i).selV = if !s.selV || wrDone c s then !ringEmpty s.fifo else s.selV := by
    simp [wrDemuxStep, hr]
  have hem := ring_empty 5 s.fifo h.ring
  have hdone := wrDone_eq h
  have hflag : ∀ x : WrDemux, (if x.selV then (if x.done x.sel then 0 else 1) else 2) ≤ 2 - x.selV.toNat := by
    intro x; cases x.selV <;> cases x.done x.sel <;> simp
  cases hsv : s.selV with
  | false =>
    have hd0 : wrDone c s = false := by rw [hdone, hsv]; rfl
    rw [hsv, hd0] at hcnt hselV
    simp only [Bool.not_false, Bool.or_false, Bool.true_and, if_true] at hcnt hselV
    by_cases hre : ringCount 5 s.fifo = 0
    · have : ringEmpty s.fifo = true := by rw [hem]; simp [hre]
      rw [this] at hcnt hselV
      simp only [Bool.not_true, Bool.toNat_false] at hcnt hselV
      by_cases hs0 : skidQ s.skid = []
      · left; unfold wrWork; rw [hs0, hsv, hre]; simp
      · right
        have := hsk.2 hs0
        unfold wrWork; rw [hselV, hsv]
        simp only [Bool.toNat_false, Bool.false_eq_true, if_false]; omega
    · right
      have : ringEmpty s.fifo = false := by rw [hem]; simp [hre]
      rw [this] at hcnt hselV
      simp only [Bool.not_false, Bool.toNat_true] at hcnt hselV
      have hfl := hflag (wrDemuxStep c s i)
      rw [hselV] at hfl
      have := hsk.1
      unfold wrWork; rw [hselV, hsv]
      simp only [Bool.toNat_false, Bool.toNat_true, Bool.false_eq_true, if_false] at hfl ⊢
      omega
  | true =>
    right
    rw [hsv] at hcnt hselV hdone
    simp only [Bool.not_true, Bool.false_or, Bool.true_and] at hcnt hselV hdone
    cases hd : s.done s.sel with
    | true =>
      rw [hd] at hdone
      rw [hdone] at hcnt hselV
      simp only [Bool.true_and, if_true] at hcnt hselV
      have hfl := hflag (wrDemuxStep c s i)
      rw [hselV] at hfl
      have := hsk.1
      unfold wrWork; rw [hselV, hsv, hd]
      rw [hselV] at *
      cases hb : ringEmpty s.fifo with
      | true =>
        rw [hb] at hcnt hfl hem
        simp only [Bool.not_true, Bool.toNat_false, Bool.toNat_true, if_true] at hcnt hfl ⊢
        omega
      | false =>
        rw [hb] at hcnt hfl
        simp only [Bool.not_false, Bool.toNat_true, if_true] at hcnt hfl ⊢
        omega
    | false =>
      rw [hd] at hdone
      rw [hdone] at hcnt hselV
      simp only [Bool.false_and, Bool.false_eq_true, if_false, Bool.toNat_false, Nat.add_zero] at hcnt hselV
      have hlt := wr_sel_lt h hsv
      have hsel' : (wrDemuxStep c s i).sel = s.sel := by
        simp [wrDemuxStep, hsv, hdone]
      unfold wrWork; rw [hselV, hsv, hd, hsel']
      simp only [if_true, Bool.toNat_true, Bool.false_eq_true, if_false]
      by_cases hs0 : skidQ s.skid = []
      · have hc0 : s.count s.sel = 0 := by
          have := h.done _ hlt
          rw [hd] at this
          have := this.symm
          simp only [decide_eq_false_iff_not] at this
          omega
        have hf : f = a := by have := h.fwd; rw [hs0, List.append_nil] at this; exact this
        have hdn : i.ramDone s.sel = true := by
          apply hans _ hlt
          rw [← h.cnt _ hlt, hc0, hf, ofPort_length, ← h.order, hsv]
          simp only [if_true, List.count_append, List.count_cons_self]
          omega
        have hd' : (wrDemuxStep c s i).done s.sel = true := by
          have hak : wrAck s s.sel = false := by simp [wrAck, hd]
          simp [wrDemuxStep, hr, wrDoneNext, hc0, hdn, hak]
        rw [hd']
        have := hsk.1
        simp only [if_true]
        omega
      · have := hsk.2 hs0
        split <;> omega

theorem wrWork_le (c : DemuxCfg) (s : WrDemux) (a f : List (Nat × WrCmd))
    (rp : List Nat) (pd : Nat → Nat) (h : WrDemuxInv c s a f rp pd) : wrWork s ≤ 103 := by
  have h1 := skidQ_length s.skid
  have h2 := h.ring.count
  have h4 := Bool.toNat_le s.selV
  unfold wrWork
  split
  · split <;> omega
  · omega

/-- In every cycle of a history the ports report completions for the commands they have taken. -/
def WrPrompt (c : DemuxCfg) (f : List (Nat × WrCmd)) (pd : Nat → Nat) (s : WrDemux) (is : List WrDemuxIn) : Prop :=
  ∀ k i, is[k]? = some i → ∀ p < c.ports,
    pd p + wrPortDone p (is.take k) < (ofPort p f ++ wrForwarded c p s (is.take k)).length → i.ramDone p = true

/-- Nothing is left to do. -/
def wrIdle (s : WrDemux) : Prop := skidQ s.skid = [] ∧ s.selV = false ∧ ringCount 5 s.fifo = 0

theorem wr_drain (c : DemuxCfg) (is : List WrDemuxIn) (s : WrDemux) (a f : List (Nat × WrCmd))
    (rp : List Nat) (pd : Nat → Nat)
    (hq : ∀ i ∈ is, i.rst = false ∧ i.cmdValid = false ∧ (∀ p < c.ports, i.ramReady p = true))
    (h : WrDemuxInv c s a f rp pd) (hh : WrHonest c f pd s is) (hans : WrPrompt c f pd s is)
    (hlen : wrIdle s ∨ wrWork s < is.length + 3) :
    wrIdle (wrDemuxRun c s is) ∧ wrAccepted c s is = [] := by
  induction is generalizing s a f rp pd with
  | nil =>
    refine ⟨?_, rfl⟩
    rcases hlen with hlen | hlen
    · exact hlen
    · simp only [List.length_nil, Nat.zero_add] at hlen
      simp only [wrDemuxRun]
      unfold wrWork at hlen
      have hsv : s.selV = false := by
        cases hs : s.selV with
        | false => rfl
        | true => rw [hs] at hlen; simp at hlen; omega
      rw [hsv] at hlen
      simp only [Bool.toNat_false, Bool.false_eq_true, if_false] at hlen
      exact ⟨List.length_eq_zero_iff.mp (by omega), hsv, by omega⟩
  | cons i is ih =>
    obtain ⟨q1, q2, q3⟩ := hq i List.mem_cons_self
    have hd1 : ∀ p < c.ports, pd p + (i.ramDone p).toNat ≤
        (ofPort p (f ++ (if wrForward s i then [s.skid.out] else []))).length := by
      intro p hp
      have := hh 1 p hp
      simp only [List.take_succ_cons, List.take_zero, wrForwarded_eq, wrFwdT, List.append_nil,
        wrPortDone_cons] at this
      rw [ofPort_append]
      have e : wrPortDone p [] = 0 := rfl
      omega
    have h1 := wr_step c s i a f rp pd q1 (by simp [q2]) h hd1
    simp only [q2, Bool.false_and, Bool.false_eq_true, if_false, List.append_nil] at h1
    have hw := wr_work c s i a f rp pd q1 q2 q3 h h1 (fun p hp hl => hans 0 i rfl p hp (by
      simpa [wrPortDone, wrForwarded] using hl))
    have hidle : wrIdle s → wrIdle (wrDemuxStep c s i) := by
      rintro ⟨z1, z2, z3⟩
      have he : ringEmpty s.fifo = true := by rw [ring_empty 5 _ h.ring]; simp [z3]
      have ho : s.skid.outV = false := by
        cases hov : s.skid.outV with
        | false => rfl
        | true => simp [skidQ, hov] at z1
      have htv : s.skid.tempV = false := by
        cases hov : s.skid.tempV with
        | false => rfl
        | true => simp [skidQ, hov] at z1
      refine ⟨?_, ?_, ?_⟩
      · simp only [wrDemuxStep, q1, q2, Bool.false_and, wrForward, ho]
        unfold skidStep skidQ
        cases s.skid.ready <;> simp [ho, htv]
      · simp [wrDemuxStep, q1, z2, he]
      · simp [wrDemuxStep, q1, q2, he, z3]
    have hw' : wrIdle (wrDemuxStep c s i) ∨ wrWork (wrDemuxStep c s i) < is.length + 3 := by
      rcases hlen with hlen | hlen
      · exact Or.inl (hidle hlen)
      · rcases hw with ⟨hw, z1⟩ | hw
        · left
          apply hidle
          unfold wrWork at hw
          have hsv : s.selV = false := by
            cases hs : s.selV with
            | false => rfl
            | true => rw [hs] at hw; simp at hw; omega
          rw [hsv] at hw
          simp only [Bool.toNat_false, Bool.false_eq_true, if_false] at hw
          exact ⟨z1, hsv, by omega⟩
        · right; simp only [List.length_cons] at hlen; omega
    have := ih _ _ _ _ _ (fun j hj => hq j (List.mem_cons_of_mem _ hj)) h1 (by
        intro k p hp
        have := hh (k + 1) p hp
        simp only [List.take_succ_cons, wrForwarded_eq, wrFwdT, ofPort_append, wrPortDone_cons] at this ⊢
        simp only [List.append_assoc]
        omega) (by
      intro k j hj p hp hl
      apply hans (k + 1) j (by simpa using hj) p hp
      simp only [List.take_succ_cons, wrForwarded_eq, wrFwdT, wrPortDone_cons] at hl ⊢
      simp only [ofPort_append, List.append_assoc] at hl ⊢
      omega) hw'
    simpa [wrDemuxRun, wrAccepted, q2] using this

end Verif.Proofs
