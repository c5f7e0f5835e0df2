import Verif.Proofs.Skid
import Verif.Spec.AxisDemux
import Verif.Spec.ArbMux
/-! Proofs about the PCIe AXI stream demultiplexers. -/
namespace Verif.Proofs
open Verif Verif.Model Verif.Spec

theorem demuxPick_find (sel : Nat → Bool) (n k : Nat) :
    (if (demuxPick sel n k).2 then none else some (demuxPick sel n k).1) = (List.range' k n).find? sel := by
  induction n generalizing k with
  | zero => rfl
  | succ n ih =>
    rw [List.range'_succ, List.find?_cons, demuxPick]
    cases h : sel k <;> simp [ih]

/-- The controls of a start of frame are the destination of the specification. -/
theorem pick_dest (n : Nat) (sel : Nat → Bool) (drop : Bool) :
    packetDest n sel drop = if (demuxPick sel n 0).2 || drop then none else some (demuxPick sel n 0).1 := by
  have h := demuxPick_find sel n 0
  rw [packetDest, List.range_eq_range', ← h]
  cases drop <;> simp

theorem packetDest_lt (n : Nat) (sel : Nat → Bool) (drop : Bool) (d : Nat) (h : packetDest n sel drop = some d) :
    d < n := by
  unfold packetDest at h
  split at h
  · cases h
  · exact List.mem_range.mp (List.mem_of_find?_eq_some h)

/-- The words for port `p` among the words held. -/
def skidPort {α : Type} (p : Nat) (s : Skid (Nat × α)) : List α := ofPort p (skidQ s)

theorem ofPort_app {α : Type} (p : Nat) (a b : List (Nat × α)) : ofPort p (a ++ b) = ofPort p a ++ ofPort p b := by
  simp [ofPort]

theorem skidPort_length {α : Type} (p : Nat) (s : Skid (Nat × α)) : (skidPort p s).length ≤ 2 := by
  have h := skidQ_length s
  have h2 : (skidPort p s).length ≤ (skidQ s).length := by
    rw [skidPort, ofPort, List.length_map]; exact List.length_filter_le ..
  omega

theorem skidPort_step {α : Type} (p : Nat) (s : Skid (Nat × α)) (i : ADemuxIn α) (vin : Bool) (d : Nat) (w : α)
    (h : SkidOk s) (hv : vin = true → s.ready = true) :
    (if s.outV && s.out.1 == p && i.mready p then [s.out.2] else []) ++
        skidPort p (skidStep false s vin (d, w) (adForward s i)) =
      skidPort p s ++ (if vin && d == p then [w] else []) := by
  have e := congrArg (ofPort p) (skid_step s vin (d, w) (adForward s i) h hv).2
  rw [ofPort_app, ofPort_app] at e
  have e1 : ofPort p (if (s.outV && adForward s i) = true then [s.out] else []) =
      if s.outV && s.out.1 == p && i.mready p then [s.out.2] else [] := by
    unfold adForward ofPort
    by_cases hp : s.out.1 = p
    · subst hp; cases s.outV <;> cases i.mready s.out.1 <;> simp
    · have : (s.out.1 == p) = false := by simpa using hp
      cases s.outV <;> cases i.mready s.out.1 <;> simp [hp]
  have e2 : ofPort p (if vin = true then [(d, w)] else []) = if vin && d == p then [w] else [] := by
    unfold ofPort
    by_cases hp : d = p
    · subst hp; cases vin <;> simp
    · cases vin <;> simp [hp]
  rw [e1, e2] at e
  exact e

/-- The ports of the held words. -/
def PortsOk {α : Type} (n : Nat) (s : Skid (Nat × α)) : Prop := ∀ x ∈ skidQ s, x.1 < n

theorem portsOk_step {α : Type} (n : Nat) (s : Skid (Nat × α)) (vin : Bool) (d : Nat) (w : α) (tr : Bool)
    (h : SkidOk s) (hv : vin = true → s.ready = true) (hd : vin = true → d < n) (hp : PortsOk n s) :
    PortsOk n (skidStep false s vin (d, w) tr) := by
  intro x hx
  have e := (skid_step s vin (d, w) tr h hv).2
  have hm : x ∈ skidQ s ++ (if vin then [(d, w)] else []) := by
    rw [← e]; exact List.mem_append_right _ hx
  rcases List.mem_append.mp hm with h1 | h1
  · exact hp x h1
  · cases vin with
    | false => simp at h1
    | true => simp at h1; subst h1; exact hd rfl

theorem early_of_ready {α : Type} (n : Nat) (s : Skid (Nat × α)) (i : ADemuxIn α) (h : SkidOk s) (hp : PortsOk n s)
    (hr : ∀ p < n, i.mready p = true) : adEarly s i = true := by
  unfold adEarly adForward
  cases ho : s.outV with
  | false =>
    have : s.tempV = false := by
      cases ht : s.tempV with
      | false => rfl
      | true => have := h.2 ht; simp [ho] at this
    simp [this]
  | true =>
    have : s.out.1 < n := hp _ (by simp [skidQ, ho])
    simp [hr _ this]

/-! ### Word-parallel demultiplexer -/

/-- Destination of the packet under way. -/
def adCur {α : Type} (s : ADemux α) : Option (Option Nat) :=
  if s.frame then some (if s.drop then none else some s.sel) else none

/-- Invariant. -/
structure AdInv {α : Type} (n : Nat) (s : ADemux α) : Prop where
  skid : SkidOk s.skid
  ports : PortsOk n s.skid
  sel : s.frame = true → s.drop = false → s.sel < n
  idle : s.frame = false → s.drop = false
  rdy : s.tready = true → s.skid.ready = true

theorem ad_reset {α : Type} (c : ADemuxCfg α) (s : ADemux α) (r : ADemuxIn α) (hr : r.rst = true) :
    AdInv c.ports (adStep c s r) ∧ (adStep c s r).frame = false ∧ skidQ (adStep c s r).skid = [] := by
  have e : (adStep c s r).skid = skidStep true s.skid (adAccept s r && !adDrop c s r) (adSel c s r, r.word)
      (adForward s.skid r) := by simp [adStep, hr]
  have h := skid_rst s.skid (adAccept s r && !adDrop c s r) (adSel c s r, r.word) (adForward s.skid r)
  refine ⟨⟨by rw [e]; exact h.1, ?_, ?_, ?_, ?_⟩, by simp [adStep, hr], by rw [e]; exact h.2⟩
  · intro x hx; rw [e, h.2] at hx; cases hx
  · simp [adStep, hr]
  · simp [adStep, hr]
  · simp [adStep, hr]

/-- The destination used for a word that is accepted. -/
theorem ad_dest {α : Type} (c : ADemuxCfg α) (s : ADemux α) (i : ADemuxIn α) (ha : adAccept s i = true) :
    (if adDrop c s i then none else some (adSel c s i)) = (adCur s).getD (packetDest c.ports i.select i.drop) := by
  unfold adDrop adSel adCur adStart
  rw [ha, pick_dest]
  cases s.frame <;> simp

theorem ad_cur_step {α : Type} (c : ADemuxCfg α) (s : ADemux α) (i : ADemuxIn α) (hr : i.rst = false) :
    adCur (adStep c s i) = if adAccept s i then
        (if c.last i.word then none else some ((adCur s).getD (packetDest c.ports i.select i.drop)))
      else adCur s := by
  cases ha : adAccept s i with
  | false => simp [adCur, adStep, adStart, ha, hr]
  | true =>
    rw [← ad_dest c s i ha]
    cases hl : c.last i.word <;> cases hf : s.frame <;> simp [adCur, adStep, adStart, ha, hr, hl, hf, adDrop, adSel]

/-- One cycle in which accepting is safe. -/
theorem ad_inv_step {α : Type} (c : ADemuxCfg α) (s : ADemux α) (i : ADemuxIn α) (hr : i.rst = false)
    (h : AdInv c.ports s)
    (hs : adDrop c s i = true → adEarly s.skid i = true) : AdInv c.ports (adStep c s i) := by
  have hv : (adAccept s i && !adDrop c s i) = true → s.skid.ready = true := by
    intro hx
    apply h.rdy
    simp [adAccept, adReady] at hx
    exact hx.1.2.1
  have hd : (adAccept s i && !adDrop c s i) = true → adSel c s i < c.ports := by
    intro hx
    simp at hx
    have e := ad_dest c s i hx.1
    rw [hx.2] at e
    simp only [Bool.false_eq_true, if_false] at e
    cases hf : s.frame with
    | false =>
      simp [adCur, hf] at e
      exact packetDest_lt _ _ _ _ e.symm
    | true =>
      have h1 : adDrop c s i = s.drop := by simp [adDrop, adStart, hf]
      have h2 : adSel c s i = s.sel := by simp [adSel, adStart, hf]
      rw [h2]; exact h.sel hf (by rw [← h1]; exact hx.2)
  have es : (adStep c s i).skid = skidStep false s.skid (adAccept s i && !adDrop c s i) (adSel c s i, i.word)
      (adForward s.skid i) := by simp [adStep, hr]
  refine ⟨?_, ?_, ?_, ?_, ?_⟩
  · rw [es]; exact (skid_step _ _ _ _ h.skid hv).1
  · rw [es]; exact portsOk_step _ _ _ _ _ _ h.skid hv hd h.ports
  · intro hf hdr
    have e := ad_cur_step c s i hr
    unfold adCur at e
    rw [hf, hdr] at e
    simp only [if_true, Bool.false_eq_true, if_false] at e
    cases ha : adAccept s i with
    | false =>
      rw [ha] at e
      simp only [Bool.false_eq_true, if_false] at e
      cases hf' : s.frame with
      | false => rw [hf'] at e; simp at e
      | true =>
        cases hd' : s.drop with
        | true => rw [hf', hd'] at e; simp at e
        | false => rw [hf', hd'] at e; simp at e; rw [e]; exact h.sel hf' hd'
    | true =>
      have hx : adDrop c s i = false := by
        have e2 := ad_dest c s i ha
        rw [ha] at e
        simp only [if_true] at e
        cases hl : c.last i.word with
        | true => rw [hl] at e; simp at e
        | false =>
          rw [hl] at e
          simp only [Bool.false_eq_true, if_false] at e
          have e3 := Option.some.inj e
          unfold adCur at e2
          rw [← e3] at e2
          cases hdd : adDrop c s i with
          | false => rfl
          | true => rw [hdd] at e2; simp at e2
      have hlt := hd (by rw [ha, hx]; rfl)
      have e2 := ad_dest c s i ha
      rw [hx] at e2
      rw [ha] at e
      simp only [if_true] at e
      cases hl : c.last i.word with
      | true => rw [hl] at e; simp at e
      | false =>
        rw [hl] at e
        simp only [Bool.false_eq_true, if_false] at e e2
        have e3 := Option.some.inj e
        unfold adCur at e2
        rw [← e3] at e2
        have := Option.some.inj e2
        rw [← this]; exact hlt
  · intro hf
    cases hl : c.last i.word <;> cases ha : adAccept s i <;> cases hf' : s.frame <;>
      simp [adStep, adStart, hr, ha, hl, hf'] at hf ⊢
    all_goals exact h.idle hf'
  · intro ht
    have : adEarly s.skid i = true := by
      simp [adStep, hr] at ht
      rcases ht with h1 | h1
      · exact h1
      · exact hs h1
    rw [es]
    unfold skidStep
    simpa [adEarly] using this

/-- Safe cycles: nothing is dropped, or all outputs are ready. -/
def AdSafe {α : Type} (n : Nat) (s : ADemux α) (is : List (ADemuxIn α)) : Prop :=
  (s.drop = false ∧ NothingDropped n is) ∨ AlwaysReady n is

theorem not_dropped {α : Type} (n : Nat) (i : ADemuxIn α) (is : List (ADemuxIn α)) (h : NothingDropped n (i :: is))
    (hv : i.tvalid = true) : ((demuxPick i.select n 0).2 || i.drop) = false := by
  have := h i (List.mem_cons_self ..) hv
  rw [pick_dest] at this
  cases hx : ((demuxPick i.select n 0).2 || i.drop) with
  | false => rfl
  | true => rw [hx] at this; simp at this

theorem ad_safe_step {α : Type} (c : ADemuxCfg α) (s : ADemux α) (i : ADemuxIn α) (is : List (ADemuxIn α))
    (hr : i.rst = false) (h : AdInv c.ports s) (hs : AdSafe c.ports s (i :: is)) :
    (adDrop c s i = true → adEarly s.skid i = true) ∧ AdSafe c.ports (adStep c s i) is := by
  rcases hs with ⟨hd, h1⟩ | h1
  · have hz : adDrop c s i = false := by
      unfold adDrop
      split
      · rename_i hst
        exact not_dropped c.ports i is h1 (by simp [adStart, adAccept] at hst; exact hst.2.1)
      · exact hd
    refine ⟨fun hx => (by rw [hz] at hx; cases hx), Or.inl ⟨?_, fun j hj => h1 j (List.mem_cons_of_mem _ hj)⟩⟩
    simp only [adStep, hr, Bool.not_false, Bool.true_and]
    split
    · rfl
    · split
      · exact hz
      · exact hd
  · exact ⟨fun _ => early_of_ready c.ports s.skid i h.skid h.ports (h1 i (List.mem_cons_self ..)),
      Or.inr fun j hj => h1 j (List.mem_cons_of_mem _ hj)⟩

theorem ad_run {α : Type} (c : ADemuxCfg α) (p : Nat) (is : List (ADemuxIn α)) : ∀ (s : ADemux α),
    (∀ i ∈ is, i.rst = false) → AdInv c.ports s → AdSafe c.ports s is →
    skidPort p s.skid ++ routedFirst c.ports c.last p (adCur s) (adAccepted c s is) =
      adForwarded c p s is ++ skidPort p (adRun c s is).skid := by
  induction is with
  | nil => intro s _ _ _; simp [adAccepted, routedFirst, adForwarded, adRun]
  | cons i is ih =>
    intro s hi h hs
    have hr := hi i (List.mem_cons_self ..)
    obtain ⟨h1, h2⟩ := ad_safe_step c s i is hr h hs
    have hinv := ad_inv_step c s i hr h h1
    have hv : (adAccept s i && !adDrop c s i) = true → s.skid.ready = true := by
      intro hx
      apply h.rdy
      simp [adAccept, adReady] at hx
      exact hx.1.2.1
    have e := skidPort_step p s.skid i (adAccept s i && !adDrop c s i) (adSel c s i) i.word h.skid hv
    have es : (adStep c s i).skid = skidStep false s.skid (adAccept s i && !adDrop c s i) (adSel c s i, i.word)
        (adForward s.skid i) := by simp [adStep, hr]
    have := ih (adStep c s i) (fun j hj => hi j (List.mem_cons_of_mem _ hj)) hinv h2
    rw [adForwarded, adRun, List.append_assoc, ← this, es, ← List.append_assoc, e, ad_cur_step c s i hr, adAccepted]
    cases ha : adAccept s i with
    | false => simp
    | true =>
      have ed := ad_dest c s i ha
      simp only [if_true, List.cons_append, List.nil_append, routedFirst, List.append_assoc, ← ed]
      cases adDrop c s i <;> simp

/-! ### 64-bit completer request demultiplexer -/

/-- The word in the first register, and the words still to be accepted. -/
def cqPend {α : Type} (s : CqDemux α) : List (ADemuxIn α) :=
  if s.tempV then [{ tvalid := true, word := s.temp, select := fun _ => false, mready := fun _ => false }] else []

/-- Invariant. -/
structure CqInv {α : Type} (n : Nat) (s : CqDemux α) : Prop where
  skid : SkidOk s.skid
  ports : PortsOk n s.skid
  sel : s.frame = true → s.sel < n
  drop : s.drop = false
  rdy : s.tready = s.skid.ready

theorem cq_reset {α : Type} (c : ADemuxCfg α) (s : CqDemux α) (r : ADemuxIn α) (hr : r.rst = true) :
    CqInv c.ports (cqStep c s r) ∧ (cqStep c s r).frame = false ∧ skidQ (cqStep c s r).skid = [] := by
  have e : (cqStep c s r).skid = skidStep true s.skid (cqMove c s r) (cqSel c s r, s.temp)
      (adForward s.skid r) := by simp [cqStep, hr]
  have h := skid_rst s.skid (cqMove c s r) (cqSel c s r, s.temp) (adForward s.skid r)
  refine ⟨⟨by rw [e]; exact h.1, ?_, ?_, ?_, ?_⟩, by simp [cqStep, hr], by rw [e]; exact h.2⟩
  · intro x hx; rw [e, h.2] at hx; cases hx
  · simp [cqStep, hr]
  · simp [cqStep, hr]
  · rw [e]; simp [cqStep, hr, skidStep]

theorem cq_drop {α : Type} (c : ADemuxCfg α) (s : CqDemux α) (i : ADemuxIn α) (is : List (ADemuxIn α))
    (h : CqInv c.ports s) (hs : NothingDropped c.ports (i :: is)) : cqDrop c s i = false := by
  unfold cqDrop
  split
  · rename_i hst
    exact not_dropped c.ports i is hs (by simp [cqStart, cqAccept] at hst; exact hst.2.1)
  · exact h.drop

theorem cq_sel {α : Type} (c : ADemuxCfg α) (s : CqDemux α) (i : ADemuxIn α) (is : List (ADemuxIn α))
    (hs : NothingDropped c.ports (i :: is)) (hst : cqStart s i = true) :
    packetDest c.ports i.select i.drop = some (cqSel c s i) := by
  have := not_dropped c.ports i is hs (by simp [cqStart, cqAccept] at hst; exact hst.2.1)
  rw [pick_dest, this, cqSel, hst]
  simp

theorem cq_move_ready {α : Type} (c : ADemuxCfg α) (s : CqDemux α) (i : ADemuxIn α) (h : CqInv c.ports s)
    (hm : cqMove c s i = true) : s.skid.ready = true := by
  rw [← h.rdy]
  simp [cqMove, cqReady] at hm
  cases ht : s.tempV <;> simp_all

theorem cq_inv_step {α : Type} (c : ADemuxCfg α) (s : CqDemux α) (i : ADemuxIn α) (is : List (ADemuxIn α))
    (hr : i.rst = false) (h : CqInv c.ports s) (hs : NothingDropped c.ports (i :: is)) :
    CqInv c.ports (cqStep c s i) := by
  have hd := cq_drop c s i is h hs
  have hv := cq_move_ready c s i h
  have hlt : (cqStart s i || s.frame) = true → cqSel c s i < c.ports := by
    intro hx
    cases hst : cqStart s i with
    | true => exact packetDest_lt _ _ _ _ (cq_sel c s i is hs hst)
    | false =>
      rw [hst] at hx
      rw [cqSel, hst]
      exact h.sel (by simpa using hx)
  have es : (cqStep c s i).skid = skidStep false s.skid (cqMove c s i) (cqSel c s i, s.temp)
      (adForward s.skid i) := by simp [cqStep, hr]
  refine ⟨?_, ?_, ?_, ?_, ?_⟩
  · rw [es]; exact (skid_step _ _ _ _ h.skid hv).1
  · rw [es]
    refine portsOk_step _ _ _ _ _ _ h.skid hv (fun hm => hlt ?_) h.ports
    simp [cqMove] at hm; simpa using hm.2
  · intro hf
    have e : (cqStep c s i).sel = if cqStart s i && !(s.tempV && cqReady s i && c.last s.temp) then cqSel c s i
        else s.sel := by simp [cqStep, hr]
    rw [e]
    have ef : (cqStep c s i).frame = if (s.tempV && cqReady s i && c.last s.temp) = true then false
        else if cqStart s i then true else s.frame := by simp [cqStep, hr]
    rw [ef] at hf
    cases hx : (s.tempV && cqReady s i && c.last s.temp) with
    | true => rw [hx] at hf; simp at hf
    | false =>
      rw [hx] at hf
      cases hst : cqStart s i with
      | true => simp only [Bool.not_false, Bool.and_self, if_true]; exact hlt (by rw [hst]; rfl)
      | false => rw [hst] at hf; simp at hf ⊢; exact h.sel hf
  · simp only [cqStep, hr, Bool.not_false, Bool.true_and, hd, h.drop]
    split <;> simp
  · rw [es]
    have e : (cqStep c s i).tready = adEarly s.skid i := by simp [cqStep, hr, hd]
    rw [e]
    unfold skidStep
    simp [adEarly]

/-- Destination of the packet under way. -/
def cqCur {α : Type} (s : CqDemux α) : Option (Option Nat) := if s.frame then some (some s.sel) else none

theorem rs_congr {α : Type} (n : Nat) (last : α → Bool) (p : Nat) (cur : Option (Option Nat)) (x y : ADemuxIn α)
    (xs : List (ADemuxIn α)) (h : x.word = y.word) :
    routedSecond n last p cur (x :: xs) = routedSecond n last p cur (y :: xs) := by
  cases cur <;> cases xs <;> simp [routedSecond, h]

theorem tw_congr {α : Type} (last : α → Bool) (u : Bool) (x y : ADemuxIn α)
    (xs : List (ADemuxIn α)) (h : x.word = y.word) : TwoWords last u (x :: xs) ↔ TwoWords last u (y :: xs) := by
  simp [TwoWords, h]

theorem cq_step_routed {α : Type} (c : ADemuxCfg α) (p : Nat) (s : CqDemux α) (i : ADemuxIn α)
    (is rest : List (ADemuxIn α)) (hr : i.rst = false) (h : CqInv c.ports s) (hs : NothingDropped c.ports (i :: is))
    (htw : TwoWords c.last s.frame (cqPend s ++ ((if cqAccept s i then [i] else []) ++ rest))) :
    routedSecond c.ports c.last p (cqCur s) (cqPend s ++ ((if cqAccept s i then [i] else []) ++ rest)) =
      (if cqMove c s i && cqSel c s i == p then [s.temp] else []) ++
        routedSecond c.ports c.last p (cqCur (cqStep c s i)) (cqPend (cqStep c s i) ++ rest) ∧
    TwoWords c.last (cqStep c s i).frame (cqPend (cqStep c s i) ++ rest) := by
  have hd := cq_drop c s i is h hs
  have e1 : (cqStep c s i).tempV = (cqAccept s i || (s.tempV && !(cqReady s i && (cqStart s i || s.frame)))) := by
    simp [cqStep, hd]
  have e2 : (cqStep c s i).temp = if cqAccept s i then i.word else s.temp := rfl
  have e3 : (cqStep c s i).frame = if (s.tempV && cqReady s i && c.last s.temp) = true then false
        else if cqStart s i then true else s.frame := by simp [cqStep, hr]
  have e4 : (cqStep c s i).sel = if cqStart s i && !(s.tempV && cqReady s i && c.last s.temp) then cqSel c s i
        else s.sel := by simp [cqStep, hr]
  have hsel := cq_sel c s i is hs
  have hrd : cqAccept s i = true → cqReady s i = true := by simp [cqAccept]
  unfold cqPend cqCur at *
  rw [e1, e2, e3, e4]
  unfold cqMove
  rw [hd]
  have hst : cqStart s i = (!s.frame && s.tempV && cqAccept s i) := rfl
  have hcs : cqStart s i = false → cqSel c s i = s.sel := by intro hx; simp [cqSel, hx]
  cases ht : s.tempV with
  | false =>
    rw [ht] at hst
    simp only [Bool.and_false, Bool.false_and] at hst
    rw [ht] at htw
    simp only [hst]
    cases ha : cqAccept s i with
    | false => rw [ha] at htw; simpa using htw
    | true =>
      rw [ha] at htw
      simp only [Bool.false_eq_true, if_false, List.nil_append, if_true, List.cons_append, Bool.true_or,
        Bool.false_and] at htw ⊢
      exact ⟨rs_congr _ _ _ _ _ _ _ rfl, (tw_congr _ _ _ _ _ rfl).mp htw⟩
  | true =>
    rw [ht] at htw hst
    cases hrdy : cqReady s i with
    | false =>
      have ha : cqAccept s i = false := by simp [cqAccept, hrdy]
      rw [ha] at htw hst
      simp only [Bool.and_false] at hst
      rw [ha, hst]
      simpa using htw
    | true =>
      cases hf : s.frame with
      | true =>
        rw [hf] at hst htw
        simp only [Bool.not_true, Bool.false_and] at hst
        simp only [hst, hcs hst]
        simp only [if_true, List.cons_append, List.nil_append] at htw ⊢
        rw [TwoWords] at htw
        cases ha : cqAccept s i with
        | true =>
          rw [ha] at htw
          constructor
          · rw [routedSecond]
            simp only [if_true, List.cons_append, List.nil_append, Bool.true_or]
            have := fun cur => rs_congr c.ports c.last p cur i
              { tvalid := true, word := i.word, select := fun _ => false, mready := fun _ => false } rest rfl
            simp only [this]
            cases c.last s.temp <;> simp
          · have h2 := htw.2
            simp only [if_true, List.cons_append, List.nil_append, Bool.true_or] at h2 ⊢
            have := (tw_congr c.last (!c.last s.temp) i
              { tvalid := true, word := i.word, select := fun _ => false, mready := fun _ => false } rest rfl).mp h2
            cases hl : c.last s.temp <;> simp [hl] at this ⊢ <;> exact this
        | false =>
          rw [ha] at htw
          constructor
          · rw [routedSecond]
            cases c.last s.temp <;> simp
          · have h2 := htw.2
            cases hl : c.last s.temp <;> simp [hl] at h2 ⊢ <;> exact h2
      | false =>
        rw [hf] at hst htw
        simp only [if_true, List.cons_append, List.nil_append] at htw ⊢
        rw [TwoWords] at htw
        have hl := htw.1 rfl
        simp only [] at hl
        cases ha : cqAccept s i with
        | true =>
          rw [ha] at hst htw
          simp only [Bool.not_false, Bool.and_self] at hst
          have hsel := hsel hst
          rw [hst]
          constructor
          · simp only [if_true, List.cons_append, List.nil_append, Bool.false_eq_true, if_false, hl, Bool.and_false,
              Bool.true_or, Bool.not_false, Bool.and_true]
            have := fun cur => rs_congr c.ports c.last p cur i
              { tvalid := true, word := i.word, select := fun _ => false, mready := fun _ => false } rest rfl
            rw [← this]
            conv => lhs; unfold routedSecond
            simp only [hsel]
            simp
          · have h2 := htw.2
            simp only [if_true, List.cons_append, List.nil_append, Bool.false_eq_true, if_false, hl, Bool.and_false,
              Bool.true_or, Bool.not_false] at h2 ⊢
            exact (tw_congr c.last true i
              { tvalid := true, word := i.word, select := fun _ => false, mready := fun _ => false } rest rfl).mp h2
        | false =>
          rw [ha] at hst htw
          simp only [Bool.and_false] at hst
          rw [hst]
          have h2 := htw.2
          simp only [hl, Bool.and_false, Bool.false_eq_true, if_false, Bool.or_false, Bool.not_false, Bool.and_true,
            Bool.false_or, if_true, Bool.false_and, List.nil_append, List.cons_append] at h2 ⊢
          refine ⟨trivial, ?_⟩
          rw [TwoWords]
          exact ⟨fun _ => hl, by simpa [hl] using h2⟩

theorem cq_run {α : Type} (c : ADemuxCfg α) (p : Nat) (is : List (ADemuxIn α)) : ∀ (s : CqDemux α),
    (∀ i ∈ is, i.rst = false) → CqInv c.ports s → NothingDropped c.ports is →
    TwoWords c.last s.frame (cqPend s ++ cqAccepted c s is) →
    skidPort p s.skid ++ routedSecond c.ports c.last p (cqCur s) (cqPend s ++ cqAccepted c s is) =
      cqForwarded c p s is ++ (skidPort p (cqRun c s is).skid ++
        routedSecond c.ports c.last p (cqCur (cqRun c s is)) (cqPend (cqRun c s is))) := by
  induction is with
  | nil => intro s _ _ _; simp [cqAccepted, cqForwarded, cqRun]
  | cons i is ih =>
    intro s hi h hs htw
    have hr := hi i (List.mem_cons_self ..)
    have hinv := cq_inv_step c s i is hr h hs
    have hd := cq_drop c s i is h hs
    have hv := cq_move_ready c s i h
    have e := skidPort_step p s.skid i (cqMove c s i) (cqSel c s i) s.temp h.skid hv
    have es : (cqStep c s i).skid = skidStep false s.skid (cqMove c s i) (cqSel c s i, s.temp)
        (adForward s.skid i) := by simp [cqStep, hr]
    rw [cqAccepted] at htw ⊢
    obtain ⟨h1, h2⟩ := cq_step_routed c p s i is (cqAccepted c (cqStep c s i) is) hr h hs htw
    have := ih (cqStep c s i) (fun j hj => hi j (List.mem_cons_of_mem _ hj)) hinv
      (fun j hj => hs j (List.mem_cons_of_mem _ hj)) h2
    rw [cqForwarded, cqRun, List.append_assoc, ← this, es, ← List.append_assoc (ite ..), e, List.append_assoc, h1]

end Verif.Proofs
