import Verif.Spec.MsixAxil
/-! Helper lemmas for the AXI lite interface of the MSI-X module. -/
namespace Verif.Proofs
open Verif Verif.Model Verif.Spec

theorem axil_upper (c : MsixCfg) (hw : 1 ≤ c.addrW) (a : Nat) : axilUpper c a = !msixIsTbl c a := by
  unfold axilUpper msixIsTbl
  rw [Bool.not_not, Nat.testBit_eq_decide_div_mod_eq]
  obtain ⟨w, e⟩ : ∃ w, c.addrW = w + 1 := ⟨c.addrW - 1, by omega⟩
  rw [e, Nat.add_sub_cancel, Nat.pow_succ]
  have h1 := Nat.mod_mul (x := a) (a := 2 ^ w) (b := 2)
  have h2 := Nat.mod_lt a (Nat.two_pow_pos w)
  rw [h1]
  have h3 : a / 2 ^ w % 2 = 0 ∨ a / 2 ^ w % 2 = 1 := by omega
  rcases h3 with h3 | h3 <;> rw [h3] <;> simp <;> omega

/-- A bus word of a memory of 64-bit words. -/
theorem axil_split (c : MsixCfg) (hk : c.strbLog ≤ 3) (addr l : Nat) (hl : l < 2 ^ c.strbLog) :
    (axilBase c addr + l) / 8 = msixIndex c addr ∧
      (axilBase c addr + l) % 8 = msixWord c addr * 2 ^ c.strbLog + l := by
  unfold axilBase msixIndex msixWord
  rw [show 16 * 2 ^ c.idxW = 8 * 2 ^ (c.idxW + 1) by rw [Nat.pow_succ]; omega]
  have h1 := Nat.mod_mul (x := addr) (a := 8) (b := 2 ^ (c.idxW + 1))
  rw [h1]
  generalize addr / 8 % 2 ^ (c.idxW + 1) = I
  have : c.strbLog = 0 ∨ c.strbLog = 1 ∨ c.strbLog = 2 ∨ c.strbLog = 3 := by omega
  rcases this with e | e | e | e <;> rw [e] at hl ⊢ <;> simp only [Nat.reducePow, Nat.reduceSub] at hl ⊢ <;> omega

theorem axil_write (c : MsixCfg) (hk : c.strbLog ≤ 3) (tbl : Nat → RamWord) (i : MsixIn) :
    tblFlat (msixTblWrite c tbl i) = memWriteBus c (tblFlat tbl) i.awaddr i.wdata i.wstrb := by
  funext a
  unfold tblFlat memWriteBus msixTblWrite
  have hs := axil_split c hk i.awaddr
  have h8 : a % 8 < 8 := Nat.mod_lt _ (by decide)
  have hP := Nat.two_pow_pos c.strbLog
  have hdvd : 8 = 2 ^ (3 - c.strbLog) * 2 ^ c.strbLog := by
    rw [← Nat.pow_add, show 3 - c.strbLog + c.strbLog = 3 by omega]
  by_cases h : axilBase c i.awaddr ≤ a ∧ a < axilBase c i.awaddr + 2 ^ c.strbLog
  · obtain ⟨l, e⟩ : ∃ l, a = axilBase c i.awaddr + l := ⟨a - axilBase c i.awaddr, by omega⟩
    subst e
    have hl : l < 2 ^ c.strbLog := by omega
    obtain ⟨h1, h2⟩ := hs l hl
    rw [h2] at h8
    rw [h1, h2, Nat.add_sub_cancel_left]
    have e1 : (msixWord c i.awaddr * 2 ^ c.strbLog + l) / 2 ^ c.strbLog = msixWord c i.awaddr := by
      rw [Nat.add_comm, Nat.add_mul_div_right _ _ hP, Nat.div_eq_of_lt hl, Nat.zero_add]
    have e2 : (msixWord c i.awaddr * 2 ^ c.strbLog + l) % 2 ^ c.strbLog = l := by
      rw [Nat.add_comm, Nat.add_mul_mod_self_right, Nat.mod_eq_of_lt hl]
    rw [e1, e2]
    simp [h.1, hl, h8, h1, h2]
  · rw [if_neg (c := axilBase c i.awaddr ≤ a ∧ _ ∧ _) (fun hh => h ⟨hh.1, hh.2.1⟩), if_neg]
    rintro ⟨h1, _, h3, _⟩
    apply h
    have hm := Nat.mod_lt (a % 8) hP
    have hd := Nat.div_add_mod (a % 8) (2 ^ c.strbLog)
    obtain ⟨s1, s2⟩ := hs _ hm
    have : a = axilBase c i.awaddr + a % 8 % 2 ^ c.strbLog := by
      have h4 := Nat.div_add_mod a 8
      have h5 := Nat.div_add_mod (axilBase c i.awaddr + a % 8 % 2 ^ c.strbLog) 8
      rw [s1, s2] at h5
      rw [h3, Nat.mul_comm] at hd
      omega
    omega

theorem axil_read (c : MsixCfg) (hk : c.strbLog ≤ 3) (w : Nat → RamWord) (addr : Nat) :
    (List.range (2 ^ c.strbLog)).map (fun l => w (msixIndex c addr) (msixWord c addr * 2 ^ c.strbLog + l)) =
      memReadBus c (tblFlat w) addr := by
  unfold memReadBus
  apply List.map_congr_left
  intro l hl
  obtain ⟨h1, h2⟩ := axil_split c hk addr l (List.mem_range.mp hl)
  unfold tblFlat
  rw [h1, h2]

theorem pba_flat (p : Nat → Nat) : tblFlat (fun a => pbaBytes (p a)) = pbaFlat p := by
  funext a
  unfold tblFlat pbaFlat pbaBytes
  rw [Nat.pow_mul]

/-- The answers in the module. -/
def axilQueue (c : MsixCfg) (s : MsixAxil) : List (List UInt8) :=
  (if s.rvalid then [(List.range (2 ^ c.strbLog)).map s.rdata] else []) ++
  (if s.tblValid || s.pbaValid then
    [(List.range (2 ^ c.strbLog)).map fun l => (if s.tblValid then s.tblRd else s.pbaRd) (s.shift * 2 ^ c.strbLog + l)]
   else [])

/-- The answers to reads after an edge. -/
theorem axil_queue_step (c : MsixCfg) (hk : c.strbLog ≤ 3) (hw : 1 ≤ c.addrW) (pba : Nat → Nat) (s : MsixAxil)
    (i : MsixIn) (hr : i.rst = false) (hx : (s.tblValid && s.pbaValid) = false) :
    ((msixAxilStep c pba s i).tblValid && (msixAxilStep c pba s i).pbaValid) = false ∧
    (if s.rvalid && i.rready then [(List.range (2 ^ c.strbLog)).map s.rdata] else []) ++
      axilQueue c (msixAxilStep c pba s i) =
    axilQueue c s ++ (if msixDoRead s i then
      [memReadBus c (if axilUpper c i.araddr then pbaFlat pba else tblFlat s.tbl) i.araddr] else []) := by
  rw [axil_upper c hw, ← pba_flat]
  have hd : msixDoRead s i = true → (s.rvalid && !i.rready && (s.tblValid || s.pbaValid)) = false := by
    unfold msixDoRead msixReadEligible
    cases s.rvalid <;> cases i.rready <;> cases (s.tblValid || s.pbaValid) <;> simp
  unfold axilQueue msixAxilStep msixRMove
  simp only [hr, Bool.not_false, Bool.true_and]
  generalize msixDoRead s i = d at *
  have er := axil_read c hk s.tbl i.araddr
  have ep := axil_read c hk (fun a => pbaBytes (pba a)) i.araddr
  have ei : ∀ b : Bool, memReadBus c (if b = true then tblFlat (fun a => pbaBytes (pba a)) else tblFlat s.tbl) i.araddr =
      if b = true then memReadBus c (tblFlat (fun a => pbaBytes (pba a))) i.araddr
      else memReadBus c (tblFlat s.tbl) i.araddr := by intro b; cases b <;> rfl
  rw [ei]
  clear ei
  generalize memReadBus c (tblFlat s.tbl) i.araddr = R at *
  generalize memReadBus c (tblFlat fun a => pbaBytes (pba a)) i.araddr = Q at *
  cases h1 : s.rvalid <;> cases h2 : i.rready <;> cases h3 : s.tblValid <;> cases h4 : s.pbaValid <;>
    cases d <;> cases h5 : msixIsTbl c i.araddr <;>
    simp_all <;> first | exact er | exact ep

structure AxilInv (c : MsixCfg) (s : Msix) (L : AxilLog) : Prop where
  excl : (s.axil.tblValid && s.axil.pbaValid) = false
  stage : s.axil.arready = true → (s.axil.tblValid || s.axil.pbaValid) = true
  one : (s.axil.wready && s.axil.arready) = false
  resp : L.resps + s.axil.bvalid.toNat = L.writes + s.axil.wready.toNat
  idleW : s.axil.wready = false → tblFlat s.axil.tbl = L.mem
  idleR : s.axil.arready = false → L.returned ++ axilQueue c s.axil = L.expected
  pre : L.returned <+: L.expected

/-- What the next input must be. -/
structure AxilNext (c : MsixCfg) (s : Msix) (L : AxilLog) (i : MsixIn) : Prop where
  w : s.axil.wready = true → i.awvalid = true ∧ i.wvalid = true ∧ tblFlat s.axil.tbl =
    if axilUpper c i.awaddr then L.mem else memWriteBus c L.mem i.awaddr i.wdata i.wstrb
  r : s.axil.arready = true → i.arvalid = true ∧ L.returned ++ axilQueue c s.axil =
    L.expected ++ [memReadBus c (if axilUpper c i.araddr then pbaFlat L.prevPba else L.mem) i.araddr]

theorem axil_step (c : MsixCfg) (hk : c.strbLog ≤ 3) (hw : 1 ≤ c.addrW) (s : Msix) (L : AxilLog) (i : MsixIn)
    (hr : i.rst = false) (h : AxilInv c s L) (hn : AxilNext c s L i) :
    AxilInv c (msixStep c s i) (axilLogNext c s i L) ∧
    ((msixStep c s i).axil.wready = true → s.axil.wready = false ∧ i.awvalid = true ∧ i.wvalid = true ∧
      tblFlat (msixStep c s i).axil.tbl = if axilUpper c i.awaddr then (axilLogNext c s i L).mem
        else memWriteBus c (axilLogNext c s i L).mem i.awaddr i.wdata i.wstrb) ∧
    ((msixStep c s i).axil.arready = true → s.axil.arready = false ∧ i.arvalid = true ∧
      (axilLogNext c s i L).returned ++ axilQueue c (msixStep c s i).axil = (axilLogNext c s i L).expected ++
        [memReadBus c (if axilUpper c i.araddr then pbaFlat (axilLogNext c s i L).prevPba
          else (axilLogNext c s i L).mem) i.araddr]) := by
  obtain ⟨q1, q2⟩ := axil_queue_step c hk hw s.irq.pba s.axil i hr h.excl
  have eW : (msixStep c s i).axil.wready = msixDoWrite s.axil i := by simp [msixStep, msixAxilStep, hr]
  have eR : (msixStep c s i).axil.arready = msixDoRead s.axil i := by simp [msixStep, msixAxilStep, hr]
  have eB : (msixStep c s i).axil.bvalid = (msixDoWrite s.axil i || s.axil.bvalid && !i.bready) := by
    simp [msixStep, msixAxilStep, hr]
  have eT : (msixStep c s i).axil.tbl =
    if msixDoWrite s.axil i && msixIsTbl c i.awaddr then msixTblWrite c s.axil.tbl i else s.axil.tbl := rfl
  have eA : (msixStep c s i).axil = msixAxilStep c s.irq.pba s.axil i := rfl
  have dW : msixDoWrite s.axil i = true → s.axil.wready = false ∧ i.awvalid = true ∧ i.wvalid = true ∧
      (s.axil.bvalid && !i.bready) = false := by
    unfold msixDoWrite msixWriteEligible
    cases s.axil.wready <;> cases i.awvalid <;> cases i.wvalid <;> cases s.axil.bvalid <;> cases i.bready <;> simp
  have dR : msixDoRead s.axil i = true → s.axil.arready = false ∧ i.arvalid = true ∧ msixDoWrite s.axil i = false := by
    unfold msixDoRead msixReadEligible
    cases s.axil.arready <;> cases i.arvalid <;> cases msixDoWrite s.axil i <;> simp
  -- the memory after the events of this cycle
  have eM : tblFlat s.axil.tbl = (axilLogNext c s i L).mem := by
    unfold axilLogNext
    simp only
    cases h1 : s.axil.wready with
    | false => simp; exact h.idleW h1
    | true =>
      obtain ⟨a1, a2, a3⟩ := hn.w h1
      rw [a3, a1, a2]
      cases axilUpper c i.awaddr <;> simp
  have eRet : (axilLogNext c s i L).returned = L.returned ++
      (if s.axil.rvalid && i.rready then [(List.range (2 ^ c.strbLog)).map s.axil.rdata] else []) := by
    unfold axilLogNext; simp only; split <;> simp
  have eX : L.returned ++ axilQueue c s.axil = (axilLogNext c s i L).expected := by
    unfold axilLogNext
    simp only
    cases h1 : s.axil.arready with
    | false => simp; exact h.idleR h1
    | true =>
      obtain ⟨a1, a2⟩ := hn.r h1
      rw [a2, a1]; simp
  have eP : (axilLogNext c s i L).prevPba = s.irq.pba := rfl
  have eQ : (axilLogNext c s i L).returned ++ axilQueue c (msixStep c s i).axil =
      (axilLogNext c s i L).expected ++ (if msixDoRead s.axil i then
      [memReadBus c (if axilUpper c i.araddr then pbaFlat s.irq.pba else tblFlat s.axil.tbl) i.araddr] else []) := by
    rw [eRet, List.append_assoc, eA, q2, ← List.append_assoc, eX]
  have hst : msixDoRead s.axil i = true →
      ((msixStep c s i).axil.tblValid || (msixStep c s i).axil.pbaValid) = true := by
    intro hd
    simp only [msixStep, msixAxilStep, hr, hd, Bool.not_false, Bool.true_and]
    cases msixIsTbl c i.araddr <;> simp
  refine ⟨⟨q1, by rw [eR]; exact hst, ?_, ?_, ?_, ?_, ?_⟩, ?_, ?_⟩
  · rw [eW, eR]
    cases hd : msixDoRead s.axil i with
    | false => simp
    | true => rw [(dR hd).2.2]; rfl
  · rw [eW, eB]
    have := h.resp
    unfold axilLogNext
    simp only
    cases h1 : s.axil.wready with
    | true =>
      obtain ⟨a1, a2, -⟩ := hn.w h1
      have hd : msixDoWrite s.axil i = false := by
        cases hd : msixDoWrite s.axil i with
        | false => rfl
        | true => rw [(dW hd).1] at h1; simp at h1
      rw [a1, a2, hd]
      rw [h1] at this
      cases h2 : s.axil.bvalid <;> cases h3 : i.bready <;> rw [h2] at this <;> simp at this ⊢ <;> omega
    | false =>
      rw [h1] at this
      cases hd : msixDoWrite s.axil i with
      | false =>
        cases h2 : s.axil.bvalid <;> cases h3 : i.bready <;> rw [h2] at this <;> simp at this ⊢ <;> omega
      | true =>
        have := (dW hd).2.2.2
        cases h2 : s.axil.bvalid <;> cases h3 : i.bready <;> simp_all
  · rw [eW, eT]; intro hd; rw [hd]; simpa using eM
  · rw [eR]; intro hd; rw [eQ, hd]; simp
  · cases hd : msixDoRead s.axil i with
    | false => rw [hd] at eQ; simp at eQ; rw [← eQ]; exact List.prefix_append _ _
    | true =>
      rw [hd, if_pos rfl] at eQ
      have hq : axilQueue c (msixStep c s i).axil ≠ [] := by
        unfold axilQueue; rw [hst hd]; simp
      have e2 := congrArg List.dropLast eQ
      rw [List.dropLast_append_of_ne_nil hq, List.dropLast_concat] at e2
      rw [← e2]; exact List.prefix_append _ _
  · rw [eW]; intro hd
    refine ⟨(dW hd).1, (dW hd).2.1, (dW hd).2.2.1, ?_⟩
    rw [eT, hd, axil_upper c hw, ← eM]
    cases msixIsTbl c i.awaddr
    · simp
    · simp; exact axil_write c hk s.axil.tbl i
  · rw [eR]; intro hd
    refine ⟨(dR hd).1, (dR hd).2.1, ?_⟩
    rw [eQ, hd, if_pos rfl, eP, ← eM]

theorem axil_run (c : MsixCfg) (hk : c.strbLog ≤ 3) (hw : 1 ≤ c.addrW) (is : List MsixIn) (s : Msix) (L : AxilLog)
    (hr : ∀ i ∈ is, i.rst = false) (hh : AxilHeld c s is) (h : AxilInv c s L)
    (hn : ∀ i, is.head? = some i → AxilNext c s L i) :
    AxilInv c (msixRun c s is) (axilLog c s L is) := by
  induction is generalizing s L with
  | nil => exact h
  | cons i is ih =>
    obtain ⟨h1, h2, h3⟩ := axil_step c hk hw s L i (hr i List.mem_cons_self) h (hn i rfl)
    refine ih _ _ (fun j hj => hr j (List.mem_cons_of_mem _ hj)) ?_ h1 ?_
    · cases is with
      | nil => trivial
      | cons j is => exact hh.2.2.2
    · intro j hj
      cases is with
      | nil => simp at hj
      | cons j' is =>
        simp at hj; subst hj
        obtain ⟨k1, k2, k3, -⟩ := hh
        constructor
        · intro hw
          obtain ⟨a1, a2, a3, a4⟩ := h2 hw
          obtain ⟨b1, b2⟩ := k1 a2 a1
          obtain ⟨b3, b4, b5⟩ := k2 a3 a1
          exact ⟨b1, b3, by rw [b2, b4, b5]; exact a4⟩
        · intro hw
          obtain ⟨a1, a2, a3⟩ := h3 hw
          obtain ⟨b1, b2⟩ := k3 a2 a1
          exact ⟨b1, by rw [b2]; exact a3⟩

end Verif.Proofs
