import Verif.Spec.AxiMasterWr
import Verif.Proofs.OutFifo
/-! Proofs about the AXI master for writes: decoding, framing, and the data transfers. -/
namespace Verif.Proofs
open Verif Verif.Model Verif.Spec

/-! ### Decoding -/

theorem axwLen_eq (h : TlpHdr) : axwLen h = hdrLen h := by
  simp [axwLen, hdrLen, bits]

theorem axwAddr_eq (c : AxwCfg) (h : TlpHdr) : axwAddr c h = axwTlpAddr c h := by
  unfold axwAddr axwTlpAddr tlpAddr bits
  simp only [Nat.reduceAdd, Nat.reduceSub, Nat.pow_zero, Nat.div_one]
  congr 1
  have h2 : h.dw2 % 2 ^ 32 / 4 * 4 = h.dw2 / 2 ^ 2 % 2 ^ 30 * 4 := by omega
  have h3 : h.dw3 % 2 ^ 32 / 4 * 4 = h.dw3 / 2 ^ 2 % 2 ^ 30 * 4 := by omega
  rw [h2, h3]

theorem axwGood_eq (h : TlpHdr) (hp : tlpIsPrefix h = false) : axwGood h = tlpDoWrite h := by
  unfold tlpIsPrefix at hp
  unfold axwGood tlpDoWrite tlpIsWrite
  have hp' : ¬ 4 ≤ bits h.dw0 31 29 := by simpa using hp
  unfold bits at *
  simp only [Nat.reduceAdd, Nat.reduceSub] at *
  rw [Bool.eq_iff_iff]
  simp only [Bool.and_eq_true, Bool.or_eq_true, beq_iff_eq]
  omega

theorem hdrLen_pos (h : TlpHdr) : 1 ≤ hdrLen h ∧ hdrLen h ≤ 1024 := by
  have : bits h.dw0 9 0 < 1024 := by unfold bits; exact Nat.mod_lt _ (by decide)
  unfold hdrLen; split <;> omega

/-- The width of the bus is a multiple of 4 bytes. -/
theorem axw_bytes (c : AxwCfg) (hc : AxwCfgOk c) : 2 ^ c.tb = 4 * c.dws ∧ 2 ≤ c.dws := by
  have h3 := hc.tb
  unfold AxwCfg.dws
  constructor
  · rw [show (4:Nat) = 2 ^ 2 by rfl, ← Nat.pow_add]; congr 1; omega
  · have : 2 ^ 1 ≤ 2 ^ (c.tb - 2) := Nat.pow_le_pow_right (by omega) (by omega)
    simpa using this

theorem axwTlpAddr_mod4 (c : AxwCfg) (hc : AxwCfgOk c) (h : TlpHdr) : axwTlpAddr c h % 4 = 0 := by
  have h4 : 4 ∣ 2 ^ c.addrW := by
    have := hc.tb; have := hc.addr
    exact Nat.pow_dvd_pow_iff_le_right' |>.2 (by omega : 2 ≤ c.addrW)
  have ha : tlpAddr c.force64 h % 4 = 0 := by unfold tlpAddr; split <;> omega
  unfold axwTlpAddr
  rw [Nat.mod_mod_of_dvd _ h4]; exact ha

/-- The offset on the bus, in bytes and in DWORDs. -/
theorem axwOff_eq (c : AxwCfg) (hc : AxwCfgOk c) (h : TlpHdr) :
    axwTlpAddr c h % 2 ^ c.tb = 4 * axwOff c (axwAddr c h) ∧ axwOff c (axwAddr c h) < c.dws := by
  obtain ⟨hb, hd⟩ := axw_bytes c hc
  rw [axwAddr_eq]
  have h4 := axwTlpAddr_mod4 c hc h
  unfold axwOff
  generalize axwTlpAddr c h = a at h4
  refine ⟨?_, Nat.mod_lt _ (by omega)⟩
  rw [hb]
  have := Nat.mod_mul (x := a) (a := 4) (b := c.dws)
  omega

/-! ### Framing -/

theorem axwSplit_append (ws : List AxwIn) (w : AxwIn) :
    axwSplit (ws ++ [w]) = if w.eop then ((axwSplit ws).1 ++ [(axwSplit ws).2 ++ [w]], []) else ((axwSplit ws).1, (axwSplit ws).2 ++ [w]) := by
  unfold axwSplit; rw [List.foldl_append]; rfl

theorem axwAll_append (ws : List AxwIn) (w : AxwIn) :
    axwAll (ws ++ [w]) = (axwSplit ws).1 ++ [(axwSplit ws).2 ++ [w]] := by
  unfold axwAll; rw [axwSplit_append]
  cases w.eop <;> simp

theorem axwTlpOk_short (c : AxwCfg) (b : Bool) (g : List AxwIn) (w : AxwIn) (h : AxwTlpOk c b (g ++ [w])) : AxwTlpOk c false g := by
  cases g with
  | nil => trivial
  | cons x xs =>
    obtain ⟨h1, h2, h3⟩ := h
    refine ⟨h1, h2, fun hd => ?_⟩
    have h := h3 hd
    cases b <;> simp at h ⊢ <;> omega

theorem axwInOk_append (c : AxwCfg) (ws : List AxwIn) (w : AxwIn) (h : AxwInOk c (ws ++ [w])) :
    AxwInOk c ws ∧ AxwTlpOk c w.eop ((axwSplit ws).2 ++ [w]) := by
  unfold AxwInOk at h
  rw [axwSplit_append] at h
  cases he : w.eop <;> rw [he] at h <;> simp only [Bool.false_eq_true, if_false, if_true] at h
  · exact ⟨⟨h.1, axwTlpOk_short c _ _ _ h.2⟩, h.2⟩
  · have h1 := h.1 _ (List.mem_append_right _ (List.mem_singleton.2 rfl))
    exact ⟨⟨fun g hg => h.1 g (List.mem_append_left _ hg), axwTlpOk_short c _ _ _ h1⟩, h1⟩

theorem axwFits_append (c : AxwCfg) (ws : List AxwIn) (w : AxwIn) (h : AxwFits c (ws ++ [w])) :
    AxwFits c ws ∧ AxwTlpFits c ((axwSplit ws).2 ++ [w]) := by
  unfold AxwFits at *
  rw [axwAll_append] at h
  have h1 := h _ (List.mem_append_right _ (List.mem_singleton.2 rfl))
  refine ⟨fun g hg => ?_, h1⟩
  unfold axwAll at hg
  rcases List.mem_append.1 hg with hg | hg
  · exact h g (List.mem_append_left _ hg)
  · split at hg
    · cases hg
    · rw [List.mem_singleton] at hg
      subst hg
      cases hcur : (axwSplit ws).2 with
      | nil => trivial
      | cons x xs => rw [hcur] at h1; exact h1

/-! ### Data transfers -/

/-- The strobes of a data transfer, in numbers. -/
theorem axw_strb_core (D O L Y k : Nat) (f l : Nat → Bool) (fst lst : Bool)
    (hO : O < D) (hL : 1 ≤ L) (hk : k < 4 * D) (hY : Y < O + L)
    (hf : if fst then Y = 0 else D ≤ Y) (hl : if lst then O + L ≤ Y + D else Y + D < O + L) (lco : Nat)
    (hlco : lst = true → lco = if O + L = Y + D then 0 else O + L - Y) :
    ((if fst then if 4 * O ≤ k then if k - 4 * O < 4 then f (k - 4 * O) else true else false else true) &&
     (if lst then
        (let p := if lco > 0 then k + (4 * D - 4 * lco) else k
         if p < 4 * D - 4 then true else if p < 4 * D then (if L = 1 then f else l) (p - (4 * D - 4)) else false)
      else true)) =
    (decide (4 * O ≤ 4 * Y + k ∧ 4 * Y + k - 4 * O < 4 * L ∧
      (if (4 * Y + k - 4 * O) / 4 = 0 then f ((4 * Y + k - 4 * O) % 4)
       else if (4 * Y + k - 4 * O) / 4 = L - 1 then l ((4 * Y + k - 4 * O) % 4) else true) = true)) := by
  -- the part for the end
  have hend : (if lst then
        (let p := if lco > 0 then k + (4 * D - 4 * lco) else k
         if p < 4 * D - 4 then true else if p < 4 * D then (if L = 1 then f else l) (p - (4 * D - 4)) else false)
      else true) = (if 4 * Y + k < 4 * (O + L) - 4 then true else if 4 * Y + k < 4 * (O + L) then
        (if L = 1 then f else l) (k % 4) else false) := by
    generalize (if L = 1 then f else l) = G
    cases lst with
    | false => simp at hl; rw [if_neg (by simp), if_pos (by omega)]
    | true =>
      simp only [if_true] at hl
      simp only [if_true]
      have h := hlco rfl
      by_cases he : O + L = Y + D
      · rw [if_pos he] at h
        subst h
        simp only [Nat.lt_irrefl, gt_iff_lt, if_false]
        by_cases h1 : k < 4 * D - 4
        · rw [if_pos h1, if_pos (by omega)]
        · rw [if_neg h1, if_pos hk, if_neg (by omega), if_pos (by omega)]
          congr 1; omega
      · rw [if_neg he] at h
        have hpos : lco > 0 := by omega
        have hle : lco < D := by omega
        simp only [hpos, if_true]
        by_cases h1 : k + (4 * D - 4 * lco) < 4 * D - 4
        · rw [if_pos h1, if_pos (by omega)]
        · rw [if_neg h1]
          by_cases h2 : k + (4 * D - 4 * lco) < 4 * D
          · rw [if_pos h2, if_neg (by omega), if_pos (by omega)]
            congr 1; omega
          · rw [if_neg h2, if_neg (by omega), if_neg (by omega)]
  rw [hend]
  clear hend hlco hl
  have hq : (4 * Y + k - 4 * O) % 4 = k % 4 ∨ 4 * Y + k < 4 * O := by omega
  cases fst with
  | true =>
    simp only [if_true] at hf ⊢
    subst hf
    simp only [Nat.mul_zero, Nat.zero_add] at *
    by_cases h1 : 4 * O ≤ k
    · rw [if_pos h1]
      have hq : (k - 4 * O) % 4 = k % 4 := by omega
      rw [hq]
      by_cases h2 : k - 4 * O < 4
      · have e1 : (k - 4 * O) / 4 = 0 := by omega
        have e2 : k - 4 * O = k % 4 := by omega
        rw [if_pos h2, if_pos e1, e2]
        by_cases hL1 : L = 1
        · rw [if_neg (by omega), if_pos (by omega), if_pos hL1, Bool.and_self]
          simp [h1]; omega
        · rw [if_pos (by omega)]
          simp [h1]; omega
      · have e1 : ¬ (k - 4 * O) / 4 = 0 := by omega
        rw [if_neg h2, if_neg e1, Bool.true_and]
        by_cases h3 : k < 4 * (O + L) - 4
        · rw [if_pos h3, if_neg (by omega)]
          simp [h1]; omega
        · rw [if_neg h3]
          by_cases h4 : k < 4 * (O + L)
          · rw [if_pos h4, if_neg (by omega), if_pos (by omega)]
            simp [h1]; omega
          · rw [if_neg h4]; symm; rw [decide_eq_false_iff_not]; omega
    · rw [if_neg h1]; simp [h1]
  | false =>
    simp only [Bool.false_eq_true, if_false] at hf
    simp only [Bool.false_eq_true, if_false, Bool.true_and]
    have h1 : 4 * O ≤ 4 * Y + k := by omega
    have hq : (4 * Y + k - 4 * O) % 4 = k % 4 := by omega
    rw [hq, if_neg (c := (4 * Y + k - 4 * O) / 4 = 0) (by omega)]
    by_cases h3 : 4 * Y + k < 4 * (O + L) - 4
    · rw [if_pos h3, if_neg (by omega)]
      simp [h1]; omega
    · rw [if_neg h3]
      by_cases h4 : 4 * Y + k < 4 * (O + L)
      · rw [if_pos h4, if_neg (by omega), if_pos (by omega)]
        simp [h1]; omega
      · rw [if_neg h4]; symm; rw [decide_eq_false_iff_not]; omega

/-- The DWORD offset of a TLP on the bus. -/
def axwO (c : AxwCfg) (h : TlpHdr) : Nat := axwOff c (axwAddr c h)

theorem axw_ceil (D a n : Nat) (hD : 1 ≤ D) : n < (4 * a + 4 * D - 1) / (4 * D) ↔ n * D < a := by
  rw [← Nat.succ_le_iff, Nat.le_div_iff_mul_le (by omega), Nat.succ_mul]
  rw [show n * (4 * D) = 4 * (n * D) by rw [Nat.mul_left_comm]]
  generalize n * D = x
  omega

theorem axw_beatCount (c : AxwCfg) (hc : AxwCfgOk c) (h : TlpHdr) (n : Nat) :
    n < tlpBeatCount c h ↔ n * c.dws < axwO c h + hdrLen h := by
  obtain ⟨hb, hd⟩ := axw_bytes c hc
  have ho := (axwOff_eq c hc h).1
  unfold tlpBeatCount axwO
  rw [ho, hb, ← Nat.mul_add]
  exact axw_ceil _ _ _ (by omega)

theorem axw_words (c : AxwCfg) (hc : AxwCfgOk c) (h : TlpHdr) (n : Nat) :
    n < tlpWords (2 ^ c.tb) h ↔ n * c.dws < hdrLen h := by
  obtain ⟨hb, hd⟩ := axw_bytes c hc
  unfold tlpWords
  rw [hb]
  exact axw_ceil _ _ _ (by omega)

/-- Data transfer `j` of a TLP. -/
def tlpBeatAt (c : AxwCfg) (h : TlpHdr) (g : List AxwIn) (j : Nat) : List (Option UInt8) × Bool :=
  ((List.range (2 ^ c.tb)).map fun k =>
    let o := axwTlpAddr c h % 2 ^ c.tb
    let p := j * 2 ^ c.tb + k
    if o ≤ p ∧ p - o < 4 * hdrLen h ∧ hdrEnables h (p - o) = true then some (tlpByte (2 ^ c.tb) g (p - o)) else none,
   j + 1 == tlpBeatCount c h)

/-- The state while TLP `g` with first word `w` is transferred and `n` data transfers have been generated. -/
structure AxwXfer (c : AxwCfg) (s : Axw) (w : AxwIn) (g : List AxwIn) (n : Nat) : Prop where
  head : g.head? = some w
  st : s.st = .transfer
  op : s.op = 0
  off : s.off = axwO c w.hdr
  lco : s.lco = (axwO c w.hdr + hdrLen w.hdr) % c.dws
  fbe : s.fbe = bits w.hdr.dw1 3 0
  lbe : s.lbe = if hdrLen w.hdr = 1 then bits w.hdr.dw1 3 0 else bits w.hdr.dw1 7 4
  lt : n < tlpBeatCount c w.hdr
  outC : s.outC = tlpBeatCount c w.hdr - 1 - n
  last : s.last = (s.outC == 0)
  inC : s.inC + g.length = tlpWords (2 ^ c.tb) w.hdr
  inA : s.inA = (s.inC != 0)
  small : tlpBeatCount c w.hdr ≤ 256
  save : (g[g.length - 1]?).map (·.data) = some s.save
  fst : s.first = true → n = 0 ∧ g.length = 1
  nfst : s.first = false → g.length = n ∧ 1 ≤ n
  rdy : s.ready = true → s.inA = true ∧ s.first = false

/-- The words of the TLP after a cycle. -/
def axwGrow (s : Axw) (i : AxwIn) (g : List AxwIn) : List AxwIn := g ++ if s.ready && i.valid then [i] else []

theorem axw_beat_strb (c : AxwCfg) (hc : AxwCfgOk c) (s : Axw) (i : AxwIn) (w : AxwIn) (g : List AxwIn) (n k : Nat)
    (x : AxwXfer c s w g n) (hk : k < 2 ^ c.tb) :
    (axwBeat c s i).strb k = decide (4 * axwO c w.hdr ≤ n * 2 ^ c.tb + k ∧ n * 2 ^ c.tb + k - 4 * axwO c w.hdr < 4 * hdrLen w.hdr ∧
      hdrEnables w.hdr (n * 2 ^ c.tb + k - 4 * axwO c w.hdr) = true) := by
  obtain ⟨hb, hd⟩ := axw_bytes c hc
  have hO : axwO c w.hdr < c.dws := (axwOff_eq c hc w.hdr).2
  have hL := (hdrLen_pos w.hdr).1
  have hY := (axw_beatCount c hc w.hdr n).1 x.lt
  have hY' := axw_beatCount c hc w.hdr (n + 1)
  rw [Nat.succ_mul] at hY'
  have hlst : s.last = decide (n + 1 = tlpBeatCount c w.hdr) := by
    rw [x.last, x.outC]
    have := x.lt
    rw [Bool.eq_iff_iff]; simp; omega
  have hfst : if s.first then n * c.dws = 0 else c.dws ≤ n * c.dws := by
    cases hf : s.first with
    | true => simp [(x.fst hf).1]
    | false =>
      simp only [Bool.false_eq_true, if_false]
      exact Nat.le_mul_of_pos_left _ (x.nfst hf).2
  have hmul : n * 2 ^ c.tb = 4 * (n * c.dws) := by rw [hb, Nat.mul_left_comm]
  have hcore := axw_strb_core c.dws (axwO c w.hdr) (hdrLen w.hdr) (n * c.dws) k (bits w.hdr.dw1 3 0).testBit (bits w.hdr.dw1 7 4).testBit
    s.first s.last hO hL (by omega) hY hfst (by
      rw [hlst]; have := x.lt
      by_cases he : n + 1 = tlpBeatCount c w.hdr
      · simp [he]; omega
      · simp [he]; omega) s.lco (by
      intro hl
      rw [hlst] at hl
      have hl : n + 1 = tlpBeatCount c w.hdr := by simpa using hl
      have hle : axwO c w.hdr + hdrLen w.hdr ≤ n * c.dws + c.dws := by omega
      rw [x.lco]
      have hsplit : axwO c w.hdr + hdrLen w.hdr = (axwO c w.hdr + hdrLen w.hdr - n * c.dws) + n * c.dws := by omega
      rw [hsplit, Nat.add_mul_mod_self_right]
      split
      · rw [show axwO c w.hdr + hdrLen w.hdr - n * c.dws = c.dws by omega, Nat.mod_self]
      · rw [Nat.mod_eq_of_lt (by omega)]; omega)
  unfold hdrEnables
  rw [hmul, ← hcore]
  show (axwStrbFirst s k && axwStrbLast c s k) = _
  unfold axwStrbFirst axwStrbLast AxwCfg.bytes
  rw [x.off, x.fbe, x.lbe, x.op, hb]
  simp only [beq_self_eq_true, Bool.and_true]
  have e : (if hdrLen w.hdr = 1 then (bits w.hdr.dw1 3 0).testBit else (bits w.hdr.dw1 7 4).testBit) =
    (if hdrLen w.hdr = 1 then bits w.hdr.dw1 3 0 else bits w.hdr.dw1 7 4).testBit := by split <;> rfl
  rw [e]

theorem axw_beat_data (c : AxwCfg) (hc : AxwCfgOk c) (s : Axw) (i : AxwIn) (w : AxwIn) (g : List AxwIn) (n k : Nat)
    (x : AxwXfer c s w g n) (hgo : axwGo s i = true) (hk : k < 2 ^ c.tb) (h1 : 4 * axwO c w.hdr ≤ n * 2 ^ c.tb + k)
    (h2 : n * 2 ^ c.tb + k - 4 * axwO c w.hdr < 4 * hdrLen w.hdr) :
    (axwBeat c s i).data k = tlpByte (2 ^ c.tb) (axwGrow s i g) (n * 2 ^ c.tb + k - 4 * axwO c w.hdr) := by
  obtain ⟨hb, hd⟩ := axw_bytes c hc
  have hO : axwO c w.hdr < c.dws := (axwOff_eq c hc w.hdr).2
  have hw := axw_words c hc w.hdr n
  have hsave := x.save
  have hglen : 0 < g.length := by have := x.head; cases g <;> simp_all
  show axwData c s i k = _
  unfold axwData AxwCfg.bytes tlpByte axwGrow
  have hold : ∀ m, m < g.length → (g ++ if s.ready && i.valid then [i] else [])[m]? = g[m]? :=
    fun m hm => List.getElem?_append_left hm
  rw [x.off]
  cases hf : s.first with
  | true =>
    obtain ⟨hn, hgl⟩ := x.fst hf
    subst hn
    simp only [Nat.zero_mul, Nat.zero_add, if_true] at *
    rw [if_pos h1, Nat.div_eq_of_lt (by omega), Nat.mod_eq_of_lt (by omega), hold 0 (by omega)]
    rw [hgl] at hsave
    cases hg : g[0]? with
    | none => rw [hg] at hsave; cases hsave
    | some y => rw [hg] at hsave; rw [← Option.some.inj hsave]
  | false =>
    obtain ⟨hgl, hn⟩ := x.nfst hf
    simp only [Bool.false_eq_true, if_false]
    by_cases hk4 : k < 4 * axwO c w.hdr
    · rw [if_pos hk4]
      obtain ⟨m, rfl⟩ : ∃ m, n = m + 1 := ⟨n - 1, by omega⟩
      have hq : (m + 1) * 2 ^ c.tb + k - 4 * axwO c w.hdr = (2 ^ c.tb - 4 * axwO c w.hdr + k) + 2 ^ c.tb * m := by
        rw [Nat.succ_mul, Nat.mul_comm m]; omega
      have hlt : 2 ^ c.tb - 4 * axwO c w.hdr + k < 2 ^ c.tb := by omega
      rw [hq, Nat.add_mul_div_left _ _ (by omega), Nat.add_mul_mod_self_left, Nat.div_eq_of_lt hlt, Nat.mod_eq_of_lt hlt, Nat.zero_add,
        hold m (by omega)]
      rw [hgl] at hsave
      simp only [Nat.add_sub_cancel] at hsave
      cases hg : g[m]? with
      | none => rw [hg] at hsave; cases hsave
      | some y => rw [hg] at hsave; rw [← Option.some.inj hsave]
    · rw [if_neg hk4]
      have hq : n * 2 ^ c.tb + k - 4 * axwO c w.hdr = (k - 4 * axwO c w.hdr) + 2 ^ c.tb * n := by
        rw [Nat.mul_comm n]; omega
      have hlt : k - 4 * axwO c w.hdr < 2 ^ c.tb := by omega
      have htake : (s.ready && i.valid) = true := by
        have hlt : n < tlpWords (2 ^ c.tb) w.hdr := by
          rw [hw]
          have hmul : n * 2 ^ c.tb = 4 * (n * c.dws) := by rw [hb, Nat.mul_left_comm]
          omega
        have hin := x.inC
        have hA : s.inA = true := by rw [x.inA]; simp; omega
        unfold axwGo at hgo
        rw [hA, hf] at hgo
        simpa [x.st] using hgo
      rw [hq, Nat.add_mul_div_left _ _ (by omega), Nat.add_mul_mod_self_left, Nat.div_eq_of_lt hlt, Nat.mod_eq_of_lt hlt, Nat.zero_add,
        htake, ← hgl]
      simp

theorem axw_beat_view (c : AxwCfg) (hc : AxwCfgOk c) (s : Axw) (i : AxwIn) (w : AxwIn) (g : List AxwIn) (n : Nat)
    (x : AxwXfer c s w g n) (hgo : axwGo s i = true) :
    axwView (2 ^ c.tb) (axwBeat c s i) = tlpBeatAt c w.hdr (axwGrow s i g) n := by
  unfold axwView tlpBeatAt
  refine Prod.ext ?_ ?_
  · refine List.map_congr_left fun k hk => ?_
    have hk := List.mem_range.1 hk
    dsimp only
    rw [axw_beat_strb c hc s i w g n k x hk, (axwOff_eq c hc w.hdr).1]
    show _ = if 4 * axwO c w.hdr ≤ _ ∧ _ - 4 * axwO c w.hdr < _ ∧ hdrEnables w.hdr (_ - 4 * axwO c w.hdr) = true then some (tlpByte _ _ (_ - 4 * axwO c w.hdr)) else none
    simp only [decide_eq_true_eq]
    split
    · next h => rw [axw_beat_data c hc s i w g n k x hgo hk h.1 h.2.1]
    · rfl
  · show s.last = _
    rw [x.last, x.outC]
    have := x.lt
    rw [Bool.eq_iff_iff]; simp; omega

end Verif.Proofs
