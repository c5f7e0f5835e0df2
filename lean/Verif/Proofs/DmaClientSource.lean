import Verif.Spec.DmaClientSource
import Verif.Proofs.OutFifo
/-! The AXI stream DMA source sends what its descriptors ask for. -/
namespace Verif.Proofs
open Verif Verif.Model Verif.Spec

/-- One word to be sent. -/
structure SrcPlan where
  addr : Nat
  last : Bool
  off : Nat
  ids : Nat

/-- The words to be sent from an address, one more than `count`. -/
def planFrom (c : SrcCfg) (off ids : Nat) : Nat → Nat → List SrcPlan
  | addr, 0 => [⟨addr, true, off, ids⟩]
  | addr, n + 1 => ⟨addr, false, off, ids⟩ :: planFrom c off ids ((addr + c.kw) % 2 ^ c.ramW) n

/-- The addresses of the words. -/
def addrsFrom (c : SrcCfg) : Nat → Nat → List Nat
  | addr, 0 => [addr]
  | addr, n + 1 => addr :: addrsFrom c ((addr + c.kw) % 2 ^ c.ramW) n

theorem planFrom_addrs (c : SrcCfg) (off ids addr n : Nat) :
    (planFrom c off ids addr n).map (·.addr) = addrsFrom c addr n := by
  induction n generalizing addr with
  | zero => rfl
  | succ n ih => simp [planFrom, addrsFrom, ih]

/-- The transfer for a planned word. -/
def planBeat (c : SrcCfg) (mem : Nat → UInt8) (p : SrcPlan) : SrcBeat :=
  { data := fun b => if b < c.kw then mem (p.addr + b) else 0
    keep := if p.last && decide (p.off > 0) then (2 ^ c.kw - 1) >>> (c.kw - p.off) else 2 ^ c.kw - 1
    last := p.last
    ids := p.ids }

/-- What remains to be sent for the current packet. -/
def sendPlan (c : SrcCfg) (s : Src) : List SrcPlan := if s.sending then planFrom c s.off s.ids s.addr s.count else []

/-- What remains to be sent for the command that is waiting. -/
def cmdPlan (c : SrcCfg) (s : Src) : List SrcPlan :=
  if s.cmdV then planFrom c s.cmdOff s.cmdIds s.cmdAddr s.cmdCount else []

/-- What remains to be read. -/
def readPlan (c : SrcCfg) (s : Src) : List Nat := if s.reading then addrsFrom c s.rdAddr s.rdCount else []

/-- The words for a descriptor. -/
def descPlan (c : SrcCfg) (d : SrcDesc) : List SrcPlan :=
  planFrom c (d.len % c.kw) d.ids (srcAlign c d.addr) (srcCount c d.len)

/-- Invariant: `pend` are the commands that the RAM has to answer, `G` the addresses of words for which commands have
been issued and data has not been moved. -/
structure SrcInv (c : SrcCfg) (s : Src) (pend : Nat → List Nat) (G : List Nat) : Prop where
  ready : s.ready = true → s.cmdV = false ∧ s.reading = false
  out : OutOk 5 s.out
  rdMask : s.reading = true → s.rdMask = srcMask c s.rdAddr
  mask : s.sending = true → s.mask = srcMask c s.addr
  lastC : s.sending = true → s.lastC = (s.count == 0)
  rdCount : s.reading = true → s.rdCount < 2 ^ c.cycW
  count : s.sending = true → s.count < 2 ^ c.cycW
  cmdCount : s.cmdV = true → s.cmdCount < 2 ^ c.cycW
  align : s.sending = true → s.addr % c.kw = 0
  cmdAlign : s.cmdV = true → s.cmdAddr % c.kw = 0
  pipe : ∀ k < c.segs, pend k ++ (if s.ramV k then [s.ramAddr k] else []) =
    (G.filter (srcMask c · k)).map (· / c.rowBytes)
  flow : G ++ readPlan c s = (sendPlan c s ++ cmdPlan c s).map (·.addr)

theorem kw_pos (c : SrcCfg) : 0 < c.kw := Nat.two_pow_pos _
theorem segBytes_pos (c : SrcCfg) : 0 < c.segBytes := Nat.two_pow_pos _

theorem align_add {c : SrcCfg} (hc : SrcCfgOk c) {a : Nat} (h : a % c.kw = 0) : (a + c.kw) % 2 ^ c.ramW % c.kw = 0 := by
  have hd : c.kw ∣ 2 ^ c.ramW := Nat.pow_dvd_pow 2 (by have := hc.ram; omega)
  rw [Nat.mod_mod_of_dvd _ hd]
  simp [h]

theorem srcAlign_mod (c : SrcCfg) (a : Nat) : srcAlign c a % c.kw = 0 := Nat.mul_mod_left _ _

theorem srcCount_lt (c : SrcCfg) (n : Nat) : srcCount c n < 2 ^ c.cycW := Nat.mod_lt _ (Nat.two_pow_pos _)

theorem srcCount_mod (c : SrcCfg) (n : Nat) : srcCount c (n % 2 ^ c.lenW) = srcCount c n := by
  unfold srcCount srcLenDec; rw [Nat.mod_mod]

theorem srcAlign_mod2 (c : SrcCfg) (n : Nat) : srcAlign c (n % 2 ^ c.ramW) = srcAlign c n := by
  unfold srcAlign; rw [Nat.mod_mod]

theorem descPlan_eq (c : SrcCfg) (i : SrcIn) : descPlan c (srcDescOf c i) =
    planFrom c (i.len % 2 ^ c.lenW % c.kw) i.ids (srcAlign c i.ramAddr) (srcCount c i.len) := by
  unfold descPlan srcDescOf
  rw [srcCount_mod, srcAlign_mod2]

theorem count_dec {w n : Nat} (h : n < 2 ^ w) (h0 : n ≠ 0) : (n + 2 ^ w - 1) % 2 ^ w = n - 1 := by
  rw [show n + 2 ^ w - 1 = (n - 1) + 2 ^ w by omega, Nat.add_mod_right, Nat.mod_eq_of_lt (by omega)]

/-- Row and part of an aligned address. -/
theorem addr_split {c : SrcCfg} (hc : SrcCfgOk c) {a : Nat} (h : a % c.kw = 0) :
    a = a / c.rowBytes * c.rowBytes + (if 2 ^ c.pb > 1 then srcPart c a * c.kw else 0) := by
  have hrow : c.rowBytes = c.kw * 2 ^ c.pb := by simp [SrcCfg.rowBytes, SrcCfg.kw, Nat.pow_add]
  have hm : a % c.rowBytes = a / c.kw % 2 ^ c.pb * c.kw := by
    rw [hrow, Nat.mod_mul, h, Nat.zero_add, Nat.mul_comm]
  have := Nat.div_add_mod a c.rowBytes
  rw [Nat.mul_comm] at this
  split
  · next hp =>
    have hk : 1 ≤ c.kb := by
      rcases hc.kb with h | h
      · exact h
      · rw [h] at hp; simp at hp
    have hpo : c.partOff = c.kb := by
      unfold SrcCfg.partOff SrcCfg.kw
      rw [if_pos]
      exact Nat.lt_of_lt_of_le (by decide : 1 < 2 ^ 1) (Nat.pow_le_pow_right (by omega) hk)
    unfold srcPart
    rw [hpo, Nat.shiftRight_eq_div_pow]
    rw [hm] at this
    exact this.symm
  · next hp =>
    have h1 : 2 ^ c.pb = 1 := by have := Nat.two_pow_pos c.pb; omega
    rw [h1, Nat.mod_one, Nat.zero_mul] at hm
    omega

/-- The byte lanes of a part are in the segments of its mask. -/
theorem mask_lane {c : SrcCfg} (hc : SrcCfgOk c) (a : Nat) {b : Nat} (hb : b < c.kw) :
    let l := (if 2 ^ c.pb > 1 then srcPart c a * c.kw else 0) + b
    l / c.segBytes < c.segs ∧ srcMask c a (l / c.segBytes) = true := by
  intro l
  have hp : srcPart c a < 2 ^ c.pb := Nat.mod_lt _ (Nat.two_pow_pos _)
  have hrow : c.rowBytes = c.kw * 2 ^ c.pb := by simp [SrcCfg.rowBytes, SrcCfg.kw, Nat.pow_add]
  have hseg : c.rowBytes = c.segs * c.segBytes := by
    simp only [SrcCfg.rowBytes, SrcCfg.segs, SrcCfg.segBytes, ← Nat.pow_add]
    congr 1; have := hc.sc; omega
  have hl : l < c.rowBytes := by
    rw [hrow]
    simp only [l]
    split
    · calc srcPart c a * c.kw + b < (srcPart c a + 1) * c.kw := by rw [Nat.add_mul]; omega
        _ ≤ 2 ^ c.pb * c.kw := Nat.mul_le_mul_right _ hp
        _ = _ := Nat.mul_comm _ _
    · have := Nat.two_pow_pos c.pb
      calc 0 + b < c.kw * 1 := by omega
        _ ≤ _ := Nat.mul_le_mul_left _ this
  refine ⟨Nat.div_lt_of_lt_mul (by rw [Nat.mul_comm, ← hseg]; exact hl), ?_⟩
  unfold srcMask
  split
  · next hpb =>
    simp only [l, if_pos hpb, decide_eq_true_eq]
    by_cases hle : c.kb ≤ c.kb + c.pb - c.sc
    · -- a segment holds one or more parts
      obtain ⟨t, ht⟩ : ∃ t, c.segBytes = c.kw * t ∧ 0 < t :=
        ⟨2 ^ (c.kb + c.pb - c.sc - c.kb), by
          simp only [SrcCfg.segBytes, SrcCfg.kw, ← Nat.pow_add]; congr 1; omega, Nat.two_pow_pos _⟩
      have hk := kw_pos c
      have hpps : c.partsPerSeg = t := by
        unfold SrcCfg.partsPerSeg
        rw [ht.1, Nat.add_sub_assoc (by omega), Nat.mul_add_div hk, Nat.div_eq_of_lt (by omega), Nat.add_zero]
      have hspp : c.segsPerPart = 1 := by
        unfold SrcCfg.segsPerPart
        have hs := segBytes_pos c
        have : c.kw ≤ c.segBytes := by rw [ht.1]; exact Nat.le_mul_of_pos_right _ ht.2
        rw [Nat.div_eq_of_lt_le] <;> omega
      have : (srcPart c a * c.kw + b) / c.segBytes = srcPart c a / t := by
        rw [ht.1, ← Nat.div_div_eq_div_mul, Nat.mul_comm, Nat.mul_add_div hk, Nat.div_eq_of_lt hb, Nat.add_zero]
      rw [this, hpps, hspp]; omega
    · -- a part spans several segments
      obtain ⟨t, ht⟩ : ∃ t, c.kw = c.segBytes * t ∧ 0 < t :=
        ⟨2 ^ (c.kb - (c.kb + c.pb - c.sc)), by
          simp only [SrcCfg.segBytes, SrcCfg.kw, ← Nat.pow_add]; congr 1; omega, Nat.two_pow_pos _⟩
      have hs := segBytes_pos c
      have hspp : c.segsPerPart = t := by
        unfold SrcCfg.segsPerPart
        rw [ht.1, Nat.add_sub_assoc (by omega), Nat.mul_add_div hs, Nat.div_eq_of_lt (by omega), Nat.add_zero]
      have hpps : c.partsPerSeg = 1 := by
        unfold SrcCfg.partsPerSeg
        have hk := kw_pos c
        have : c.segBytes ≤ c.kw := by rw [ht.1]; exact Nat.le_mul_of_pos_right _ ht.2
        rw [Nat.div_eq_of_lt_le] <;> omega
      have : (srcPart c a * c.kw + b) / c.segBytes = srcPart c a * t + b / c.segBytes := by
        rw [ht.1, show srcPart c a * (c.segBytes * t) = c.segBytes * (srcPart c a * t) by
          rw [Nat.mul_left_comm], Nat.mul_add_div hs]
      have hbt : b / c.segBytes < t := Nat.div_lt_of_lt_mul (by rw [← ht.1]; exact hb)
      rw [this, hpps, hspp, Nat.div_one]; generalize b / c.segBytes = x at *; omega
  · rfl

/-! ### What a clock edge does to each part of the state -/

theorem srcStep_read (c : SrcCfg) (s : Src) (i : SrcIn) (h : i.rst = false) :
    (srcStep c s i).reading = (srcReadStep c s i).reading ∧ (srcStep c s i).rdAddr = (srcReadStep c s i).rdAddr ∧
    (srcStep c s i).rdMask = (srcReadStep c s i).rdMask ∧ (srcStep c s i).rdCount = (srcReadStep c s i).rdCount ∧
    (srcStep c s i).ready = (srcReadStep c s i).ready ∧ (srcStep c s i).cmdV = (srcReadStep c s i).cmdV ∧
    (srcStep c s i).cmdAddr = (srcReadStep c s i).cmdAddr ∧ (srcStep c s i).cmdOff = (srcReadStep c s i).cmdOff ∧
    (srcStep c s i).cmdCount = (srcReadStep c s i).cmdCount ∧ (srcStep c s i).cmdTag = (srcReadStep c s i).cmdTag ∧
    (srcStep c s i).cmdIds = (srcReadStep c s i).cmdIds ∧ (srcStep c s i).ramV = (srcReadStep c s i).ramV ∧
    (srcStep c s i).ramAddr = (srcReadStep c s i).ramAddr := by
  unfold srcStep srcSendStep
  simp only [h, Bool.false_eq_true, if_false]
  repeat' split
  all_goals exact ⟨rfl, rfl, rfl, rfl, rfl, rfl, rfl, rfl, rfl, rfl, rfl, rfl, rfl⟩

/-- The stream side, if it takes a command. -/
theorem srcStep_idle (c : SrcCfg) (s : Src) (i : SrcIn) (h : i.rst = false) (hs : s.sending = false) :
    (srcStep c s i).sending = s.cmdV ∧ (srcStep c s i).addr = s.cmdAddr ∧ (srcStep c s i).mask = srcMask c s.cmdAddr ∧
    (srcStep c s i).off = s.cmdOff ∧ (srcStep c s i).count = s.cmdCount ∧ (srcStep c s i).lastC = (s.cmdCount == 0) ∧
    (srcStep c s i).ids = s.cmdIds ∧ (srcStep c s i).stTag = s.cmdTag ∧ (srcStep c s i).stV = false := by
  simp [srcStep, srcSendStep, h, hs]

/-- The stream side, if it moves data. -/
theorem srcStep_move (c : SrcCfg) (s : Src) (i : SrcIn) (h : i.rst = false) (hs : srcMove c s i = true) :
    (srcStep c s i).sending = !s.lastC ∧ (srcStep c s i).addr = (s.addr + c.kw) % 2 ^ c.ramW ∧
    (srcStep c s i).mask = srcMask c ((s.addr + c.kw) % 2 ^ c.ramW) ∧
    (srcStep c s i).off = (srcReadStep c s i).off ∧ (srcStep c s i).count = (s.count + 2 ^ c.cycW - 1) % 2 ^ c.cycW ∧
    (srcStep c s i).lastC = ((s.count + 2 ^ c.cycW - 1) % 2 ^ c.cycW == 0) ∧
    (srcStep c s i).ids = (srcReadStep c s i).ids ∧ (srcStep c s i).stTag = (srcReadStep c s i).stTag ∧
    (srcStep c s i).stV = s.lastC := by
  have hs' : s.sending = true := by
    simp only [srcMove, Bool.and_eq_true] at hs; exact hs.1.1
  simp [srcStep, srcSendStep, h, hs, hs']

/-- The stream side, if it waits. -/
theorem srcStep_wait (c : SrcCfg) (s : Src) (i : SrcIn) (h : i.rst = false) (hs : s.sending = true)
    (hm : srcMove c s i = false) :
    (srcStep c s i).sending = (srcReadStep c s i).sending ∧ (srcStep c s i).addr = (srcReadStep c s i).addr ∧
    (srcStep c s i).mask = (srcReadStep c s i).mask ∧ (srcStep c s i).off = (srcReadStep c s i).off ∧
    (srcStep c s i).count = (srcReadStep c s i).count ∧ (srcStep c s i).lastC = (srcReadStep c s i).lastC ∧
    (srcStep c s i).ids = (srcReadStep c s i).ids ∧ (srcStep c s i).stTag = (srcReadStep c s i).stTag ∧
    (srcStep c s i).stV = false := by
  simp [srcStep, srcSendStep, h, hs, hm]

theorem srcReadStep_same (c : SrcCfg) (s : Src) (i : SrcIn) :
    (srcReadStep c s i).sending = s.sending ∧ (srcReadStep c s i).addr = s.addr ∧ (srcReadStep c s i).mask = s.mask ∧
    (srcReadStep c s i).off = s.off ∧ (srcReadStep c s i).count = s.count ∧ (srcReadStep c s i).lastC = s.lastC ∧
    (srcReadStep c s i).ids = s.ids ∧ (srcReadStep c s i).stTag = s.stTag := by
  unfold srcReadStep
  repeat' split
  all_goals exact ⟨rfl, rfl, rfl, rfl, rfl, rfl, rfl, rfl⟩

theorem srcStep_out (c : SrcCfg) (s : Src) (i : SrcIn) :
    (srcStep c s i).out = outFifoStep 5 i.rst s.out (srcMove c s i) (srcBeat c s i) i.tready := by
  unfold srcStep
  simp only
  split <;> rfl

theorem srcMove_sending {c : SrcCfg} {s : Src} {i : SrcIn} (h : srcMove c s i = true) : s.sending = true := by
  simp only [srcMove, Bool.and_eq_true] at h; exact h.1.1

theorem planFrom_cons (c : SrcCfg) (off ids addr n : Nat) :
    planFrom c off ids addr n = ⟨addr, n == 0, off, ids⟩ ::
      if n = 0 then [] else planFrom c off ids ((addr + c.kw) % 2 ^ c.ramW) (n - 1) := by
  cases n with
  | zero => rfl
  | succ n => rfl

theorem addrsFrom_cons (c : SrcCfg) (addr n : Nat) :
    addrsFrom c addr n = addr :: if n = 0 then [] else addrsFrom c ((addr + c.kw) % 2 ^ c.ramW) (n - 1) := by
  cases n with
  | zero => rfl
  | succ n => rfl

/-- The word that is moved to the output FIFO. -/
def movePlan (s : Src) : SrcPlan := ⟨s.addr, s.lastC, s.off, s.ids⟩

/-- The read side, if a descriptor is accepted. -/
theorem srcRead_accept (c : SrcCfg) (s : Src) (i : SrcIn) (h : srcAccept s i = true) :
    (srcReadStep c s i).reading = true ∧ (srcReadStep c s i).rdAddr = srcAlign c i.ramAddr ∧
    (srcReadStep c s i).rdMask = srcMask c (srcAlign c i.ramAddr) ∧ (srcReadStep c s i).rdCount = srcCount c i.len ∧
    (srcReadStep c s i).ready = false ∧ (srcReadStep c s i).cmdV = true ∧
    (srcReadStep c s i).cmdAddr = srcAlign c i.ramAddr ∧ (srcReadStep c s i).cmdOff = i.len % 2 ^ c.lenW % c.kw ∧
    (srcReadStep c s i).cmdCount = srcCount c i.len ∧ (srcReadStep c s i).cmdTag = i.tag ∧
    (srcReadStep c s i).cmdIds = i.ids := by
  unfold srcReadStep
  generalize srcCount c i.len = n
  simp only [h, if_true, and_self]

/-- The read side, if a command is issued. -/
theorem srcRead_issue (c : SrcCfg) (s : Src) (i : SrcIn) (h : srcIssue c s i = true) :
    (srcReadStep c s i).reading = !(s.rdCount == 0) ∧ (srcReadStep c s i).rdAddr = (s.rdAddr + c.kw) % 2 ^ c.ramW ∧
    (srcReadStep c s i).rdMask = srcMask c ((s.rdAddr + c.kw) % 2 ^ c.ramW) ∧
    (srcReadStep c s i).rdCount = (s.rdCount + 2 ^ c.cycW - 1) % 2 ^ c.cycW ∧
    (srcReadStep c s i).ready = (s.rdCount == 0 && !s.cmdV && i.enable) ∧
    (srcReadStep c s i).ramV = (fun k => s.rdMask k || (s.ramV k && !i.cmdReady k)) ∧
    (srcReadStep c s i).ramAddr = (fun k => if s.rdMask k then s.rdAddr / c.rowBytes else s.ramAddr k) := by
  have hrd : s.reading = true := by simp only [srcIssue, Bool.and_eq_true] at h; exact h.1
  have ha : srcAccept s i = false := by simp [srcAccept, hrd]
  unfold srcReadStep
  generalize srcCount c i.len = n
  simp [h, ha, hrd]

/-- The read side, if nothing is accepted or issued. -/
theorem srcRead_wait (c : SrcCfg) (s : Src) (i : SrcIn) (h : srcIssue c s i = false) (ha : srcAccept s i = false) :
    (srcReadStep c s i).reading = s.reading ∧ (srcReadStep c s i).rdAddr = s.rdAddr ∧
    (srcReadStep c s i).rdMask = s.rdMask ∧
    (srcReadStep c s i).rdCount = s.rdCount ∧
    (srcReadStep c s i).ready = (!s.reading && !s.cmdV && i.enable) := by
  unfold srcReadStep
  generalize srcCount c i.len = n
  cases hrd : s.reading <;> simp [h, ha]

/-- The RAM commands, if none is issued. -/
theorem srcRead_ram (c : SrcCfg) (s : Src) (i : SrcIn) (h : srcIssue c s i = false) :
    (srcReadStep c s i).ramV = (fun k => s.ramV k && !i.cmdReady k) ∧ (srcReadStep c s i).ramAddr = s.ramAddr := by
  unfold srcReadStep
  generalize srcCount c i.len = n
  simp only [h, Bool.false_eq_true, if_false]
  repeat' split
  all_goals exact ⟨rfl, rfl⟩

/-- What remains to be read, after a clock edge. -/
theorem readPlan_step {c : SrcCfg} {s : Src} {pend : Nat → List Nat} {G : List Nat} (h : SrcInv c s pend G) (i : SrcIn)
    (hr : i.rst = false) :
    readPlan c s ++ (if srcAccept s i then (descPlan c (srcDescOf c i)).map (·.addr) else []) =
      (if srcIssue c s i then [s.rdAddr] else []) ++ readPlan c (srcStep c s i) := by
  obtain ⟨h1, h2, -, h4, -⟩ := srcStep_read c s i hr
  have e : readPlan c (srcStep c s i) = readPlan c (srcReadStep c s i) := by unfold readPlan; rw [h1, h2, h4]
  rw [e]
  clear e h1 h2 h4
  cases ha : srcAccept s i with
  | true =>
    have hrd : s.reading = false := by
      simp only [srcAccept, Bool.and_eq_true, Bool.not_eq_true'] at ha; exact ha.1.1
    have : srcIssue c s i = false := by simp [srcIssue, hrd]
    obtain ⟨a1, a2, -, a4, -⟩ := srcRead_accept c s i ha
    rw [this, descPlan_eq]
    unfold readPlan
    rw [a1, a2, a4, hrd, planFrom_addrs]
    generalize srcCount c i.len = n
    simp
  | false =>
    cases hi : srcIssue c s i with
    | false =>
      obtain ⟨a1, a2, -, a4, -⟩ := srcRead_wait c s i hi ha
      unfold readPlan
      rw [a1, a2, a4]
      simp
    | true =>
      have hrd : s.reading = true := by simp only [srcIssue, Bool.and_eq_true] at hi; exact hi.1
      obtain ⟨a1, a2, -, a4, -⟩ := srcRead_issue c s i hi
      unfold readPlan
      rw [a1, a2, a4, hrd]
      have hlt := h.rdCount hrd
      generalize s.rdCount = m at *
      by_cases h0 : m = 0
      · simp [h0, addrsFrom]
      · rw [addrsFrom_cons, if_neg h0, count_dec hlt h0]
        simp [h0]

/-- What remains to be sent, after a clock edge. -/
theorem sendPlan_step {c : SrcCfg} {s : Src} {pend : Nat → List Nat} {G : List Nat} (h : SrcInv c s pend G) (i : SrcIn)
    (hr : i.rst = false) :
    sendPlan c s ++ cmdPlan c s ++ (if srcAccept s i then descPlan c (srcDescOf c i) else []) =
      (if srcMove c s i then [movePlan s] else []) ++ (sendPlan c (srcStep c s i) ++ cmdPlan c (srcStep c s i)) := by
  obtain ⟨-, -, -, -, -, r6, r7, r8, r9, -, r11, -⟩ := srcStep_read c s i hr
  obtain ⟨-, -, -, k4, k5, -, k7, -⟩ := srcReadStep_same c s i
  have cmd : (if srcLoad s then [] else cmdPlan c s) ++ (if srcAccept s i then descPlan c (srcDescOf c i) else []) =
      cmdPlan c (srcStep c s i) := by
    unfold cmdPlan
    rw [r6, r7, r8, r9, r11]
    cases ha : srcAccept s i with
    | false =>
      have : (srcReadStep c s i).cmdV = (s.cmdV && !srcLoad s) ∧ (srcReadStep c s i).cmdAddr = s.cmdAddr ∧
          (srcReadStep c s i).cmdOff = s.cmdOff ∧ (srcReadStep c s i).cmdCount = s.cmdCount ∧
          (srcReadStep c s i).cmdIds = s.cmdIds := by
        unfold srcReadStep
        simp only [ha, Bool.false_eq_true, if_false]
        repeat' split
        all_goals exact ⟨rfl, rfl, rfl, rfl, rfl⟩
      obtain ⟨e1, e2, e3, e4, e5⟩ := this
      rw [e1, e2, e3, e4, e5]
      cases srcLoad s <;> cases s.cmdV <;> simp
    | true =>
      have hc : s.cmdV = false := by
        simp only [srcAccept, Bool.and_eq_true, Bool.not_eq_true'] at ha
        exact (h.ready ha.1.2).1
      obtain ⟨-, -, -, -, -, a6, a7, a8, a9, -, a11⟩ := srcRead_accept c s i ha
      rw [a6, a7, a8, a9, a11, hc, descPlan_eq]
      generalize srcCount c i.len = n
      cases srcLoad s <;> simp
  cases hs : s.sending with
  | false =>
    obtain ⟨e1, e2, -, e4, e5, -, e7, -⟩ := srcStep_idle c s i hr hs
    have hm : srcMove c s i = false := by simp [srcMove, hs]
    have hl : srcLoad s = s.cmdV := by simp [srcLoad, hs]
    rw [← cmd, hm, hl]
    unfold sendPlan cmdPlan
    rw [e1, e2, e4, e5, e7, hs]
    cases s.cmdV <;> simp
  | true =>
    have hl : srcLoad s = false := by simp [srcLoad, hs]
    rw [hl] at cmd
    simp only [Bool.false_eq_true, if_false] at cmd
    rw [← cmd]
    cases hm : srcMove c s i with
    | false =>
      obtain ⟨e1, e2, -, e4, e5, -, e7, -⟩ := srcStep_wait c s i hr hs hm
      obtain ⟨g1, g2, -, g4, g5, -, g7, -⟩ := srcReadStep_same c s i
      unfold sendPlan
      rw [e1, e2, e4, e5, e7, g1, g2, g4, g5, g7]
      simp
    | true =>
      obtain ⟨e1, e2, -, e4, e5, -, e7, -⟩ := srcStep_move c s i hr hm
      have : sendPlan c s = movePlan s :: sendPlan c (srcStep c s i) := by
        unfold sendPlan
        rw [e1, e2, e4, e5, e7, k4, k7, hs, h.lastC hs, planFrom_cons]
        simp only [if_true, movePlan, h.lastC hs]
        congr 1
        by_cases h0 : s.count = 0
        · simp [h0]
        · simp [h0, count_dec (h.count hs) h0]
      rw [this]; simp

/-- If data is moved, then it is that of the oldest word read, and the RAM delivers it. -/
theorem move_head {c : SrcCfg} (hc : SrcCfgOk c) {mem : Nat → UInt8} {s : Src} {pend : Nat → List Nat} {G : List Nat}
    (h : SrcInv c s pend G) {i : SrcIn} (hram : SrcRamAnswers c mem pend i) (hm : srcMove c s i = true) :
    (∃ G', G = s.addr :: G') ∧ srcBeat c s i = planBeat c mem (movePlan s) := by
  have hs := srcMove_sending hm
  have hmask := h.mask hs
  have hv : ∀ k < c.segs, srcMask c s.addr k = true → i.respValid k = true := by
    simp only [srcMove, Bool.and_eq_true, List.all_eq_true, List.mem_range] at hm
    intro k hk hk2
    have := hm.1.2 k hk
    rw [hmask, hk2] at this
    simpa using this
  have hG : ∃ G', G = s.addr :: G' := by
    have hf := h.flow
    have : sendPlan c s = planFrom c s.off s.ids s.addr s.count := by simp [sendPlan, hs]
    rw [this, planFrom_cons] at hf
    cases G with
    | cons a G' =>
      simp only [List.cons_append, List.map_cons] at hf
      exact ⟨G', by rw [(List.cons.inj hf).1]⟩
    | nil =>
      obtain ⟨hk, hk2⟩ := mask_lane hc s.addr (kw_pos c)
      obtain ⟨r, hr, -⟩ := hram _ hk (hv _ hk hk2)
      have := h.pipe _ hk
      simp only [List.filter_nil, List.map_nil, List.append_eq_nil_iff] at this
      rw [this.1] at hr
      cases hr
  refine ⟨hG, ?_⟩
  obtain ⟨G', rfl⟩ := hG
  unfold srcBeat planBeat movePlan
  simp only [SrcBeat.mk.injEq, and_true]
  funext b
  split
  · next hb =>
    obtain ⟨hk, hk2⟩ := mask_lane hc s.addr hb
    have ha := addr_split hc (h.align hs)
    have hlane : (if 2 ^ c.pb > 1 then i.respData (srcPart c s.addr * c.kw + b) else i.respData b) =
        i.respData ((if 2 ^ c.pb > 1 then srcPart c s.addr * c.kw else 0) + b) := by
      split <;> simp
    rw [hlane]
    generalize hl : (if 2 ^ c.pb > 1 then srcPart c s.addr * c.kw else 0) + b = l at *
    obtain ⟨r, hr, hd⟩ := hram _ hk (hv _ hk hk2)
    have hp := h.pipe _ hk
    simp only [List.filter_cons, hk2, if_true, List.map_cons] at hp
    have hrow : r = s.addr / c.rowBytes := by
      cases hpd : pend (l / c.segBytes) with
      | nil => rw [hpd] at hr; cases hr
      | cons x xs =>
        rw [hpd] at hr hp
        simp only [List.head?_cons, Option.some.injEq] at hr
        rw [← hr]; exact (List.cons.inj hp).1
    have := hd (l % c.segBytes) (Nat.mod_lt _ (segBytes_pos c))
    rw [Nat.mul_comm (l / c.segBytes), Nat.div_add_mod, hrow] at this
    rw [this, ← hl, ← Nat.add_assoc, ← ha]
  · rfl

/-- A read is issued to segments that can take it. -/
theorem issue_free {c : SrcCfg} {s : Src} {i : SrcIn} (h : srcIssue c s i = true) :
    ∀ k < c.segs, s.rdMask k = true → (s.ramV k && !i.cmdReady k) = false := by
  simp only [srcIssue, Bool.and_eq_true, List.all_eq_true, List.mem_range] at h
  intro k hk hm
  have := h.2 k hk
  rw [hm] at this
  cases hv : s.ramV k <;> cases hq : i.cmdReady k <;> simp [hv, hq] at this ⊢

/-- The words read and not moved, after a clock edge. -/
def gNext (c : SrcCfg) (s : Src) (i : SrcIn) (G : List Nat) : List Nat :=
  (if srcMove c s i then G.tail else G) ++ if srcIssue c s i then [s.rdAddr] else []

theorem srcPipe_step {c : SrcCfg} (hc : SrcCfgOk c) {mem : Nat → UInt8} {s : Src} {pend : Nat → List Nat} {G : List Nat}
    (h : SrcInv c s pend G) {i : SrcIn} (hr : i.rst = false) (hram : SrcRamAnswers c mem pend i) (k : Nat) (hk : k < c.segs) :
    srcPendNext c s i pend k ++ (if (srcStep c s i).ramV k then [(srcStep c s i).ramAddr k] else []) =
      ((gNext c s i G).filter (srcMask c · k)).map (· / c.rowBytes) := by
  obtain ⟨-, -, -, -, -, -, -, -, -, -, -, e1, e2⟩ := srcStep_read c s i hr
  rw [e1, e2]
  -- the responses
  have hresp : (if i.respValid k && srcRespReady c s i k then (pend k).tail else pend k) ++
      (if s.ramV k then [s.ramAddr k] else []) =
      ((if srcMove c s i then G.tail else G).filter (srcMask c · k)).map (· / c.rowBytes) := by
    cases hm : srcMove c s i with
    | false => simp [srcRespReady, hm, h.pipe k hk]
    | true =>
      obtain ⟨⟨G', rfl⟩, -⟩ := move_head hc h hram hm
      have hs := srcMove_sending hm
      have hp := h.pipe k hk
      simp only [if_true, List.tail_cons, srcRespReady, hm, Bool.true_and, h.mask hs]
      cases hmk : srcMask c s.addr k with
      | false =>
        simp only [List.filter_cons, hmk, Bool.false_eq_true, if_false] at hp
        simpa using hp
      | true =>
        have hv : i.respValid k = true := by
          simp only [srcMove, Bool.and_eq_true, List.all_eq_true, List.mem_range] at hm
          have := hm.1.2 k hk
          rw [h.mask hs, hmk] at this
          simpa using this
        obtain ⟨r, hr, -⟩ := hram k hk hv
        simp only [List.filter_cons, hmk, if_true, List.map_cons] at hp
        cases hpd : pend k with
        | nil => rw [hpd] at hr; cases hr
        | cons x xs =>
          rw [hpd] at hp
          simp only [hv, Bool.and_true, if_true, List.tail_cons]
          exact (List.cons.inj hp).2
  unfold srcPendNext gNext
  rw [List.filter_append, List.map_append, ← hresp, List.append_assoc, List.append_assoc]
  congr 1
  cases hi : srcIssue c s i with
  | false =>
    obtain ⟨r1, r2⟩ := srcRead_ram c s i hi
    rw [r1, r2]
    cases hv : s.ramV k <;> cases hq : i.cmdReady k <;> simp [hv, hq]
  | true =>
    obtain ⟨-, -, -, -, -, r1, r2⟩ := srcRead_issue c s i hi
    have hrd : s.reading = true := by simp only [srcIssue, Bool.and_eq_true] at hi; exact hi.1
    have hf := issue_free hi k hk
    rw [h.rdMask hrd] at hf r1 r2
    rw [r1, r2]
    cases hmk : srcMask c s.rdAddr k with
    | false => cases hv : s.ramV k <;> cases hq : i.cmdReady k <;> simp [hmk, hv, hq]
    | true =>
      have := hf hmk
      cases hv : s.ramV k <;> cases hq : i.cmdReady k <;> simp [hmk, hv, hq] at this ⊢

theorem srcInv_step {c : SrcCfg} (hc : SrcCfgOk c) {mem : Nat → UInt8} {s : Src} {pend : Nat → List Nat} {G : List Nat}
    (h : SrcInv c s pend G) {i : SrcIn} (hr : i.rst = false) (hram : SrcRamAnswers c mem pend i) :
    SrcInv c (srcStep c s i) (srcPendNext c s i pend) (gNext c s i G) := by
  obtain ⟨e1, e2, e3, e4, e5, e6, e7, e8, e9, -⟩ := srcStep_read c s i hr
  obtain ⟨g1, g2, g3, g4, g5, g6, -⟩ := srcReadStep_same c s i
  have hacc : srcAccept s i = true → s.reading = false ∧ s.ready = true := by
    intro ha; simp only [srcAccept, Bool.and_eq_true, Bool.not_eq_true'] at ha; exact ⟨ha.1.1, ha.1.2⟩
  have hcmd : (srcStep c s i).cmdV = true → (srcStep c s i).cmdCount < 2 ^ c.cycW ∧ (srcStep c s i).cmdAddr % c.kw = 0 := by
    rw [e6, e7, e9]
    cases ha : srcAccept s i with
    | true =>
      obtain ⟨-, -, -, -, -, a6, a7, a8, a9, -⟩ := srcRead_accept c s i ha
      intro _; rw [a9, a7]; exact ⟨srcCount_lt _ _, srcAlign_mod _ _⟩
    | false =>
      have : (srcReadStep c s i).cmdV = (s.cmdV && !srcLoad s) ∧ (srcReadStep c s i).cmdAddr = s.cmdAddr ∧
          (srcReadStep c s i).cmdCount = s.cmdCount := by
        unfold srcReadStep
        simp only [ha, Bool.false_eq_true, if_false]
        repeat' split
        all_goals exact ⟨rfl, rfl, rfl⟩
      rw [this.1, this.2.1, this.2.2]
      intro hv
      simp only [Bool.and_eq_true] at hv
      exact ⟨h.cmdCount hv.1, h.cmdAlign hv.1⟩
  have hsend : (srcStep c s i).sending = true → (srcStep c s i).mask = srcMask c (srcStep c s i).addr ∧
      (srcStep c s i).lastC = ((srcStep c s i).count == 0) ∧ (srcStep c s i).count < 2 ^ c.cycW ∧
      (srcStep c s i).addr % c.kw = 0 := by
    cases hs : s.sending with
    | false =>
      obtain ⟨m1, m2, m3, -, m5, m6, -⟩ := srcStep_idle c s i hr hs
      rw [m1, m2, m3, m5, m6]
      exact fun hv => ⟨rfl, rfl, h.cmdCount hv, h.cmdAlign hv⟩
    | true =>
      cases hm : srcMove c s i with
      | false =>
        obtain ⟨m1, m2, m3, -, m5, m6, -⟩ := srcStep_wait c s i hr hs hm
        rw [m2, m3, m5, m6, g2, g3, g5, g6]
        exact fun _ => ⟨h.mask hs, h.lastC hs, h.count hs, h.align hs⟩
      | true =>
        obtain ⟨m1, m2, m3, -, m5, m6, -⟩ := srcStep_move c s i hr hm
        rw [m2, m3, m5, m6]
        exact fun _ => ⟨rfl, rfl, Nat.mod_lt _ (Nat.two_pow_pos _), align_add hc (h.align hs)⟩
  refine ⟨?_, ?_, ?_, fun hs => (hsend hs).1, fun hs => (hsend hs).2.1, ?_, fun hs => (hsend hs).2.2.1,
    fun hv => (hcmd hv).1, fun hs => (hsend hs).2.2.2, fun hv => (hcmd hv).2, fun k hk => srcPipe_step hc h hr hram k hk, ?_⟩
  · -- ready
    rw [e1, e5, e6]
    cases ha : srcAccept s i with
    | true => rw [(srcRead_accept c s i ha).2.2.2.2.1]; simp
    | false =>
      have hcv : (srcReadStep c s i).cmdV = (s.cmdV && !srcLoad s) := by
        unfold srcReadStep
        simp only [ha, Bool.false_eq_true, if_false]
        repeat' split
        all_goals rfl
      rw [hcv]
      cases hi : srcIssue c s i with
      | false =>
        obtain ⟨a1, -, -, -, a5⟩ := srcRead_wait c s i hi ha
        rw [a1, a5]
        cases s.reading <;> cases s.cmdV <;> simp
      | true =>
        obtain ⟨a1, -, -, -, a5, -⟩ := srcRead_issue c s i hi
        rw [a1, a5]
        cases s.cmdV <;> cases (s.rdCount == 0) <;> simp
  · -- out
    rw [srcStep_out, hr]
    refine (outFifo_step 5 (by omega) _ _ _ _ h.out ?_).1
    intro hm
    simp only [srcMove, Bool.and_eq_true, Bool.not_eq_true'] at hm
    exact hm.2
  · -- rdMask
    rw [e1, e2, e3]
    cases ha : srcAccept s i with
    | true =>
      obtain ⟨-, a2, a3, -⟩ := srcRead_accept c s i ha
      rw [a2, a3]; exact fun _ => rfl
    | false =>
      cases hi : srcIssue c s i with
      | false =>
        obtain ⟨a1, a2, a3, -⟩ := srcRead_wait c s i hi ha
        rw [a1, a2, a3]; exact h.rdMask
      | true =>
        obtain ⟨-, a2, a3, -⟩ := srcRead_issue c s i hi
        rw [a2, a3]; exact fun _ => rfl
  · -- rdCount
    rw [e1, e4]
    cases ha : srcAccept s i with
    | true => rw [(srcRead_accept c s i ha).2.2.2.1]; exact fun _ => srcCount_lt _ _
    | false =>
      cases hi : srcIssue c s i with
      | false => rw [(srcRead_wait c s i hi ha).1, (srcRead_wait c s i hi ha).2.2.2.1]; exact h.rdCount
      | true => rw [(srcRead_issue c s i hi).2.2.2.1]; exact fun _ => Nat.mod_lt _ (Nat.two_pow_pos _)
  · -- flow
    have hf := h.flow
    have hrp := readPlan_step h i hr
    have hsp := congrArg (List.map (·.addr)) (sendPlan_step h i hr)
    have hl : G ++ readPlan c s ++ (if srcAccept s i then (descPlan c (srcDescOf c i)).map (·.addr) else []) =
        (if srcMove c s i then [s.addr] else []) ++
          (sendPlan c (srcStep c s i) ++ cmdPlan c (srcStep c s i)).map (·.addr) := by
      rw [hf]
      rw [List.map_append] at hsp
      refine Eq.trans ?_ (hsp.trans ?_)
      · cases srcAccept s i <;> rfl
      · cases srcMove c s i <;> rfl
    rw [List.append_assoc, hrp] at hl
    unfold gNext
    cases hm : srcMove c s i with
    | false =>
      rw [hm] at hl
      simpa using hl
    | true =>
      obtain ⟨⟨G', rfl⟩, -⟩ := move_head hc h hram hm
      rw [hm] at hl
      simpa using hl

end Verif.Proofs
