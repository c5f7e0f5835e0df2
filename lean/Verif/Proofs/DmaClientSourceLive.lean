import Verif.Proofs.DmaClientSourceRun
/-! The AXI stream DMA source finishes its work. -/
namespace Verif.Proofs
open Verif Verif.Model Verif.Spec

/-- Work left in the output FIFO. -/
def outWork {α : Type} (aw : Nat) (s : OutFifo α) : Nat :=
  2 * (2 * ringCount aw s.ring + s.valid.toNat) + s.half.toNat

theorem outWork_step {α : Type} (aw : Nat) (ha : 2 ≤ aw) (s : OutFifo α) (vin : Bool) (x : α) (h : OutOk aw s) :
    outWork aw (outFifoStep aw false s vin x true) + (if outWork aw s = 0 then 0 else 1) ≤ outWork aw s + 4 * vin.toNat := by
  obtain ⟨r, -, hr, -, hcount, -⟩ := outFifo_ring aw ha s vin x true h
  have he := ring_empty aw _ h.ring
  have hp : 1 ≤ 2 ^ (aw - 1) := Nat.two_pow_pos _
  unfold outWork
  rw [hr]
  have e1 : (outFifoStep aw false s vin x true).valid = !ringEmpty s.ring := by
    simp only [outFifoStep]
    cases ringEmpty s.ring <;> cases s.valid <;> simp
  have e2 : (outFifoStep aw false s vin x true).half = decide (ringCount aw s.ring ≥ 2 ^ (aw - 1)) := rfl
  rw [e1, e2, he]
  simp only [he, Bool.or_true, Bool.and_true] at hcount
  have hb := Bool.toNat_le s.valid
  have hb2 := Bool.toNat_le s.half
  generalize s.valid.toNat = v at *
  generalize s.half.toNat = hh at *
  generalize vin.toNat = w at *
  generalize ringCount aw r = m at *
  generalize ringCount aw s.ring = n at *
  by_cases h0 : n = 0
  · subst h0
    simp only [decide_true, Bool.not_true, Bool.toNat_false] at hcount ⊢
    have : decide (0 ≥ 2 ^ (aw - 1)) = false := by rw [decide_eq_false_iff_not]; omega
    rw [this, Bool.toNat_false]
    split <;> omega
  · have : decide (n = 0) = false := by simp [h0]
    simp only [this, Bool.not_false, Bool.toNat_true] at hcount ⊢
    have := Bool.toNat_le (decide (n ≥ 2 ^ (aw - 1)))
    generalize (decide (n ≥ 2 ^ (aw - 1))).toNat = q at *
    split <;> omega

theorem outWork_zero {α : Type} (aw : Nat) (s : OutFifo α) (h : outWork aw s = 0) : outQ aw s = [] ∧ s.half = false := by
  unfold outWork at h
  have h1 : s.valid.toNat = 0 := by omega
  have h2 : s.half.toNat = 0 := by omega
  have h3 : ringCount aw s.ring = 0 := by omega
  have hv : s.valid = false := by cases hv : s.valid <;> simp [hv] at h1 ⊢
  refine ⟨?_, by cases hv : s.half <;> simp [hv] at h2 ⊢⟩
  unfold outQ
  rw [hv, List.eq_nil_of_length_eq_zero (by rw [ringList_length, h3] : (ringList aw s.ring).length = 0)]
  rfl

/-- Commands offered to the RAM. -/
def ramOffers (c : SrcCfg) (s : Src) : Nat := (List.range c.segs).countP s.ramV

/-- Work left. -/
def srcWork (c : SrcCfg) (s : Src) : Nat :=
  (c.segs + 1) * (readPlan c s).length + ramOffers c s + 5 * (sendPlan c s ++ cmdPlan c s).length + s.cmdV.toNat +
    outWork 5 s.out

theorem ramOffers_le (c : SrcCfg) (s : Src) : ramOffers c s ≤ c.segs := by
  have := List.countP_le_length (p := s.ramV) (l := List.range c.segs)
  rwa [List.length_range] at this

/-- With all commands taken and nothing accepted, every clock edge does some work. -/
theorem srcWork_step {c : SrcCfg} (hc : SrcCfgOk c) {mem : Nat → UInt8} {s : Src} {pend : Nat → List Nat} {G : List Nat}
    (h : SrcInv c s pend G) {i : SrcIn} (hr : i.rst = false) (hv : i.valid = false) (ht : i.tready = true)
    (hq : ∀ k < c.segs, i.cmdReady k = true ∧ (pend k ≠ [] → i.respValid k = true)) :
    srcWork c (srcStep c s i) + (if srcWork c s = 0 then 0 else 1) ≤ srcWork c s := by
  have ha : srcAccept s i = false := by simp [srcAccept, hv]
  have hread := congrArg List.length (readPlan_step h i hr)
  have hsend := congrArg List.length (sendPlan_step h i hr)
  simp only [ha, Bool.false_eq_true, if_false, List.append_nil, List.length_append] at hread hsend
  have hissue : srcIssue c s i = s.reading := by
    unfold srcIssue
    have : ((List.range c.segs).all fun k => !(s.ramV k && !i.cmdReady k && s.rdMask k)) = true := by
      rw [List.all_eq_true]
      intro k hk
      simp [(hq k (List.mem_range.mp hk)).1]
    rw [this, Bool.and_true]
  have hout := outWork_step 5 (by omega) s.out (srcMove c s i) (srcBeat c s i) h.out
  have hso : (srcStep c s i).out = outFifoStep 5 false s.out (srcMove c s i) (srcBeat c s i) true := by
    rw [srcStep_out, hr, ht]
  rw [← hso] at hout
  have hoff := ramOffers_le c (srcStep c s i)
  have hoff0 : s.reading = false → ramOffers c (srcStep c s i) = 0 := by
    intro hrd
    rw [hrd] at hissue
    obtain ⟨-, -, -, -, -, -, -, -, -, -, -, e1, -⟩ := srcStep_read c s i hr
    unfold ramOffers
    rw [e1, (srcRead_ram c s i hissue).1, List.countP_eq_zero]
    intro k hk
    simp [(hq k (List.mem_range.mp hk)).1]
  have hcv : (srcStep c s i).cmdV = (s.cmdV && !srcLoad s) := by
    rw [(srcStep_read c s i hr).2.2.2.2.2.1]
    unfold srcReadStep
    simp only [ha, Bool.false_eq_true, if_false]
    repeat' split
    all_goals rfl
  have hml : ∀ b : Bool, ∀ x : SrcPlan, (if b then [x] else []).length = b.toNat := by intro b x; cases b <;> rfl
  have hml2 : ∀ b : Bool, ∀ x : Nat, (if b then [x] else []).length = b.toNat := by intro b x; cases b <;> rfl
  rw [hml] at hsend
  rw [hml2, hissue] at hread
  unfold srcWork
  rw [hcv]
  simp only [List.length_append]
  have hcvle : (s.cmdV && !srcLoad s).toNat ≤ s.cmdV.toNat := by cases s.cmdV <;> cases srcLoad s <;> decide
  have hmul : (c.segs + 1) * (readPlan c s).length =
      (c.segs + 1) * s.reading.toNat + (c.segs + 1) * (readPlan c (srcStep c s i)).length := by rw [hread, Nat.mul_add]
  rw [hmul]
  generalize hA : (c.segs + 1) * (readPlan c (srcStep c s i)).length = A at *
  cases hrd : s.reading with
  | true =>
    have hb := Bool.toNat_le (srcMove c s i)
    simp only [Bool.toNat_true, Nat.mul_one]
    split at hout <;> split <;> omega
  | false =>
    have h0 := hoff0 hrd
    rw [h0]
    simp only [Bool.toNat_false, Nat.mul_zero, Nat.zero_add]
    by_cases hmv : srcMove c s i = true
    · rw [hmv] at hsend hout
      simp only [Bool.toNat_true] at hsend hout
      split at hout <;> split <;> omega
    · have hmv : srcMove c s i = false := by simpa using hmv
      rw [hmv] at hsend hout
      simp only [Bool.toNat_false] at hsend hout
      by_cases hw : outWork 5 s.out = 0
      · -- the output FIFO is empty
        rw [if_pos hw] at hout
        by_cases hro : ramOffers c s = 0
        · cases hs : s.sending with
          | true =>
            -- all data is there: it is moved
            exfalso
            have hram0 : ∀ k < c.segs, s.ramV k = false := by
              intro k hk
              unfold ramOffers at hro
              rw [List.countP_eq_zero] at hro
              simpa using hro k (List.mem_range.mpr hk)
            have hflow := h.flow
            have hrp : readPlan c s = [] := by simp [readPlan, hrd]
            have hsp : sendPlan c s = planFrom c s.off s.ids s.addr s.count := by simp [sendPlan, hs]
            rw [hrp, List.append_nil, hsp, planFrom_cons] at hflow
            simp only [List.cons_append, List.map_cons] at hflow
            have : srcMove c s i = true := by
              unfold srcMove
              rw [hs, (outWork_zero 5 s.out hw).2]
              simp only [Bool.true_and, Bool.not_false, Bool.and_true, List.all_eq_true, List.mem_range]
              intro k hk
              rw [h.mask hs]
              cases hmk : srcMask c s.addr k with
              | false => simp
              | true =>
                have hp := h.pipe k hk
                rw [hram0 k hk, hflow] at hp
                simp only [Bool.false_eq_true, if_false, List.append_nil, List.filter_cons, hmk, if_true,
                  List.map_cons] at hp
                have := (hq k hk).2 (by rw [hp]; simp)
                simp [this]
            rw [this] at hmv; cases hmv
          | false =>
            have hld : srcLoad s = s.cmdV := by simp [srcLoad, hs]
            rw [hld]
            cases hcv' : s.cmdV with
            | true => simp; omega
            | false =>
              have hsp : sendPlan c s = [] := by simp [sendPlan, hs]
              have hcp : cmdPlan c s = [] := by simp [cmdPlan, hcv']
              rw [hsp, hcp] at hsend ⊢
              have hrp : readPlan c s = [] := by simp [readPlan, hrd]
              have hA0 : A = 0 := by
                rw [hrp] at hread
                have : (readPlan c (srcStep c s i)).length = 0 := by simp at hread; omega
                rw [← hA, this]; omega
              simp only [List.length_nil, Nat.zero_add, Nat.add_zero, hA0, hro, hw, Bool.and_self,
                Bool.toNat_false, if_true] at hsend ⊢
              simp
              omega
        · split <;> omega
      · rw [if_neg hw] at hout
        split <;> omega

/-- Nothing left to do: everything is empty. -/
theorem srcWork_zero {c : SrcCfg} {s : Src} (h : srcWork c s = 0) :
    sendPlan c s ++ cmdPlan c s = [] ∧ outQ 5 s.out = [] ∧ s.sending = false ∧ s.cmdV = false := by
  unfold srcWork at h
  have h1 : (sendPlan c s ++ cmdPlan c s).length = 0 := by omega
  have h2 := List.eq_nil_of_length_eq_zero h1
  have h3 := List.append_eq_nil_iff.mp h2
  refine ⟨h2, (outWork_zero 5 s.out (by omega)).1, ?_, ?_⟩
  · have := h3.1; unfold sendPlan at this
    cases hs : s.sending with
    | false => rfl
    | true => rw [hs, if_pos rfl, planFrom_cons] at this; cases this
  · have := h3.2; unfold cmdPlan at this
    cases hs : s.cmdV with
    | false => rfl
    | true => rw [hs, if_pos rfl, planFrom_cons] at this; cases this

theorem planFrom_length (c : SrcCfg) (off ids a n : Nat) : (planFrom c off ids a n).length = n + 1 := by
  induction n generalizing a with
  | zero => rfl
  | succ n ih => simp [planFrom, ih]

theorem srcWork_le {c : SrcCfg} {s : Src} {pend : Nat → List Nat} {G : List Nat} (h : SrcInv c s pend G) :
    srcWork c s ≤ (c.segs + 11) * 2 ^ c.cycW + c.segs + 72 := by
  have h1 : (readPlan c s).length ≤ 2 ^ c.cycW := by
    unfold readPlan
    split
    · next hr =>
      rw [← planFrom_addrs c 0 0, List.length_map, planFrom_length]; exact h.rdCount hr
    · simp
  have h2 : (sendPlan c s).length ≤ 2 ^ c.cycW := by
    unfold sendPlan
    split
    · next hr => rw [planFrom_length]; exact h.count hr
    · simp
  have h3 : (cmdPlan c s).length ≤ 2 ^ c.cycW := by
    unfold cmdPlan
    split
    · next hr => rw [planFrom_length]; exact h.cmdCount hr
    · simp
  have h4 := ramOffers_le c s
  have h5 := h.out.count
  have h6 := Bool.toNat_le s.cmdV
  have h7 := Bool.toNat_le s.out.valid
  have h8 := Bool.toNat_le s.out.half
  have h9 : (c.segs + 1) * (readPlan c s).length ≤ (c.segs + 1) * 2 ^ c.cycW := Nat.mul_le_mul_left _ h1
  have h10 : (c.segs + 11) * 2 ^ c.cycW = (c.segs + 1) * 2 ^ c.cycW + 10 * 2 ^ c.cycW := by rw [← Nat.add_mul]
  unfold srcWork outWork
  rw [List.length_append]
  simp only [Nat.reduceSub, Nat.reducePow] at h5
  omega

theorem srcRun_append (c : SrcCfg) (a b : List SrcIn) (s : Src) : srcRun c s (a ++ b) = srcRun c (srcRun c s a) b := by
  induction a generalizing s with
  | nil => rfl
  | cons x a ih => exact ih _

theorem srcPendRun_append (c : SrcCfg) (a b : List SrcIn) (pend : Nat → List Nat) (s : Src) :
    srcPendRun c pend s (a ++ b) = srcPendRun c (srcPendRun c pend s a) (srcRun c s a) b := by
  induction a generalizing s pend with
  | nil => rfl
  | cons x a ih => exact ih _ _

theorem srcRamOk_append (c : SrcCfg) (mem : Nat → UInt8) (a b : List SrcIn) (pend : Nat → List Nat) (s : Src) :
    SrcRamOk c mem pend s (a ++ b) ↔
      SrcRamOk c mem pend s a ∧ SrcRamOk c mem (srcPendRun c pend s a) (srcRun c s a) b := by
  induction a generalizing s pend with
  | nil => simp [SrcRamOk, srcPendRun, srcRun]
  | cons x a ih => simp only [List.cons_append, SrcRamOk, ih, srcPendRun, srcRun, and_assoc]

theorem srcWork_run {c : SrcCfg} (hc : SrcCfgOk c) (mem : Nat → UInt8) (is : List SrcIn) :
    ∀ (s : Src) (pend : Nat → List Nat) (G : List Nat), SrcInv c s pend G → (∀ i ∈ is, i.rst = false) →
    SrcRamOk c mem pend s is → SrcQuiet c pend s is →
    srcWork c (srcRun c s is) ≤ srcWork c s - is.length ∧ (srcWork c s < is.length → (srcRun c s is).stV = false) := by
  induction is with
  | nil => intro s pend G _ _ _ _; exact ⟨by simp [srcRun], by simp⟩
  | cons i is ih =>
    intro s pend G h hrst hram hq
    have hr := hrst i List.mem_cons_self
    have h' := srcInv_step hc h hr hram.1
    have hw := srcWork_step hc (mem := mem) h hr hq.1.1 hq.1.2.1 hq.1.2.2
    obtain ⟨h1, h2⟩ := ih _ _ _ h' (fun j hj => hrst j (List.mem_cons_of_mem _ hj)) hram.2 hq.2
    refine ⟨?_, ?_⟩
    · simp only [srcRun, List.length_cons]
      split at hw <;> omega
    · intro hlt
      simp only [srcRun, List.length_cons] at hlt ⊢
      by_cases h0 : srcWork c s = 0
      · cases is with
        | nil =>
          exact (srcStep_idle c s i hr (srcWork_zero h0).2.2.1).2.2.2.2.2.2.2.2
        | cons j is =>
          apply h2
          rw [if_pos h0] at hw
          simp; omega
      · rw [if_neg h0] at hw
        apply h2; omega

end Verif.Proofs
