import Verif.Spec.UsIfTx
import Verif.Proofs.UsIfRx
/-! Proofs about the UltraScale CC and RQ interfaces: one segment. -/
namespace Verif.Proofs
open Verif.Model Verif.Spec

/-- Descriptor and payload. -/
def utxDws (c : UtxCfg) (t : UtxTlp) : List Nat := (List.range c.D).map (c.conv t.hdr) ++ t.payload

theorem utxDws_length (c : UtxCfg) (t : UtxTlp) : (utxDws c t).length = c.D + t.payload.length := by
  simp [utxDws]

theorem utxDws_lt {c : UtxCfg} {t : UtxTlp} {j : Nat} (h : j < c.D) : (utxDws c t).getD j 0 = c.conv t.hdr j := by
  unfold utxDws
  rw [List.getD_eq_getElem?_getD, List.getElem?_append_left (by simpa using h)]
  simp [h]

theorem utxDws_ge {c : UtxCfg} {t : UtxTlp} {j : Nat} (h : c.D ≤ j) : (utxDws c t).getD j 0 = t.payload.getD (j - c.D) 0 := by
  unfold utxDws
  rw [List.getD_eq_getElem?_getD, List.getElem?_append_right (by simpa using h)]
  simp [List.getD_eq_getElem?_getD]

/-- What the proofs use of a configuration; `H` segments hold nothing but descriptor. -/
structure UtxGeo (c : UtxCfg) (H : Nat) : Prop where
  D : c.D = 3 ∨ c.D = 4
  split : c.D = c.W * H + c.r
  rlt : c.r < c.W
  H0 : H = 0 → c.W ≠ 2 ∧ c.r = c.D
  H1 : H = 1 → c.W = 2 ∧ c.r = 1 ∨ c.W = 4 ∧ c.r = 0
  H2 : H = 2 → c.W = 2 ∧ c.r = 0
  H3 : H < 3
  S : c.S = 1 ∨ c.S = 2 ∧ H = 0

/-- The position in a packet: segment `i` is at the FIFO, piece `n` of the packet comes next; flags and shift register. -/
inductive UtxAt (c : UtxCfg) (H : Nat) (t : UtxTlp) (sd : Nat → Nat) (ss : Nat → Bool) :
    Nat → Nat → Bool → Bool → Bool → Prop
  | hdr1 : UtxAt c H t sd ss 0 0 true false false
  | hdr2 : c.W = 2 → UtxAt c H t sd ss 0 1 false true false
  | go (i) : (i = 0 ∨ c.W * i < t.payload.length) →
      (c.r = 0 → c.W * i < t.payload.length) →
      (c.r ≠ 0 → 0 < i ∧ ∀ j, j < c.r → ss j = true ∧ sd j = (utxDws c t).getD (c.W * (i + H) + j) 0) →
      UtxAt c H t sd ss i (i + H) false false false
  | split (i) : (i = 0 ∨ c.W * i < t.payload.length) → c.r ≠ 0 → t.payload.length ≤ c.W * i + c.W → c.W * i + c.W < t.payload.length + c.r →
      (∀ j, j < c.r → ss j = decide (c.W * (i + H + 1) + j < c.D + t.payload.length) ∧
        (c.W * (i + H + 1) + j < c.D + t.payload.length → sd j = (utxDws c t).getD (c.W * (i + H + 1) + j) 0)) →
      UtxAt c H t sd ss i (i + H + 1) false false true

theorem utx_last_iff {W L n : Nat} (hW : 0 < W) (hn : n = 0 ∨ W * n < L) : (n + 1 == urxCount W L) = decide (L ≤ W * n + W) := by
  have h1 := @urxCount_lt W L n hW
  have h2 := @urxCount_le W L (n + 1) hW
  rw [Nat.mul_succ] at h2
  have h3 := h1.2 hn
  rw [Bool.eq_iff_iff]
  simp only [beq_iff_eq, decide_eq_true_eq]
  omega

theorem utx_is_eop {W : Nat} (hW : 0 < W) {t : UtxTlp} {i : Nat} {g : UtxSeg} (h : UtxIs W t i g)
    (hi : i = 0 ∨ W * i < t.payload.length) : g.eop = decide (t.payload.length ≤ W * i + W) := by
  rw [h.eop, utx_last_iff hW hi]

theorem utx_extra {c : UtxCfg} (hr : c.r ≠ 0) (hlt : c.r < c.W) {t : UtxTlp} {i : Nat} {g : UtxSeg} (h : UtxIs c.W t i g)
    (hi : i = 0 ∨ c.W * i < t.payload.length) :
    utxExtra c g = decide (t.payload.length ≤ c.W * i + c.W ∧ c.W * i + c.W < t.payload.length + c.r) := by
  unfold utxExtra
  rw [utx_is_eop (by omega) h hi]
  rw [Bool.eq_iff_iff]
  simp only [Bool.and_eq_true, decide_eq_true_eq, List.any_eq_true, List.mem_range]
  constructor
  · rintro ⟨h1, j, hj, hs⟩
    rw [h.strb _ (by omega), decide_eq_true_eq] at hs
    omega
  · rintro ⟨h1, h2⟩
    refine ⟨h1, 0, by omega, ?_⟩
    rw [h.strb _ (by omega), decide_eq_true_eq]
    omega

theorem utx_empty {W : Nat} (hW : 0 < W) {t : UtxTlp} {g : UtxSeg} (h : UtxIs W t 0 g) :
    (g.eop && !(List.range W).any g.strb) = decide (t.payload.length = 0) := by
  rw [utx_is_eop hW h (Or.inl rfl)]
  rw [Bool.eq_iff_iff]
  simp only [Bool.and_eq_true, decide_eq_true_eq, Bool.not_eq_true', List.any_eq_false, List.mem_range]
  constructor
  · rintro ⟨_, h2⟩
    have := h2 0 hW
    rw [h.strb 0 hW, decide_eq_true_eq] at this
    omega
  · intro h0
    refine ⟨by omega, fun j hj => ?_⟩
    rw [h.strb j hj, decide_eq_true_eq]
    omega

/-- The result of routing a segment. -/
structure UtxRouted (c : UtxCfg) (H : Nat) (t : UtxTlp) (i n : Nat) (env : UtxIn) (x : UtxCyc) (sd : Nat → Nat) (ss : Nat → Bool)
    (g : UtxSeg) (adv h2 s1 s2 e : Bool) : Prop where
  eq : utxRoute c env x =
    ({ (if adv then x.advance else x) with frame := !e, hdr1 := false, hdr2 := h2, split1 := s1, split2 := s2 }, e)
  last : e = (n + 1 == urxCount c.W (c.D + t.payload.length))
  fin : e = true → adv = true ∧ i + 1 = urxCount c.W t.payload.length
  next : e = false → s2 = false ∧ UtxAt c H t (fun j => g.data (c.W - c.r + j)) (fun j => g.strb (c.W - c.r + j))
    (if adv then i + 1 else i) (n + 1) false h2 s1
  eop : g.eop = true → adv = e
  noeop : g.eop = false → c.S ≠ 1 → adv = true
  lanes : ∀ sl : UtxSlot, sl.port = x.port → sl.idx = x.cnt → sl.hdr1 = x.hdr1 → sl.hdr2 = x.hdr2 → sl.split2 = s2 →
    ∀ j, j < c.W → (utxLane c env (sd, ss) sl j).2 = decide (c.W * n + j < c.D + t.payload.length) ∧
      (c.W * n + j < c.D + t.payload.length → (utxLane c env (sd, ss) sl j).1 = (utxDws c t).getD (c.W * n + j) 0)

theorem utx_route {c : UtxCfg} {H : Nat} (hg : UtxGeo c H) {t : UtxTlp} {i n : Nat} {env : UtxIn} {x : UtxCyc} {sd : Nat → Nat}
    {ss : Nat → Bool} (hat : UtxAt c H t sd ss i n x.hdr1 x.hdr2 x.split1) (hs2 : x.split2 = false) (hf : x.frame = true)
    (hcnt : x.cnt = x.off x.port) {g : UtxSeg} (hgd : utxView c env x.port (x.off x.port) = g) (his : UtxIs c.W t i g) :
    ∃ adv h2 s1 s2 e, UtxRouted c H t i n env x sd ss g adv h2 s1 s2 e := by
  have hW : 0 < c.W := by have := hg.rlt; omega
  have hD := hg.D
  have hsplit := hg.split
  have hrlt := hg.rlt
  generalize hm : t.payload.length = m at *
  generalize hx1 : x.hdr1 = b1 at hat
  generalize hx2 : x.hdr2 = b2 at hat
  generalize hx3 : x.split1 = b3 at hat
  have hview : utxView c env x.port x.cnt = g := by rw [hcnt]; exact hgd
  have lane_eq : ∀ sl : UtxSlot, sl.port = x.port → sl.idx = x.cnt → sl.hdr1 = x.hdr1 → sl.hdr2 = x.hdr2 → ∀ j,
      utxLane c env (sd, ss) sl j = (if b1 && decide (j < c.D) then (c.conv g.hdr j, true)
        else if c.W == 2 && b2 && decide (j + 2 < c.D) then (c.conv g.hdr (j + 2), true)
        else if j < c.r then (sd j, ss j)
        else (g.data (j - c.r), g.strb (j - c.r) && (c.r == 0 || !sl.split2))) := by
    intro sl e1 e2 e3 e4 j
    unfold utxLane
    rw [e1, e2, e3, e4, hview, hx1, hx2]
  have hstrb := his.strb
  have hdata := his.data
  have hhdr := his.hdr
  rw [hm] at hstrb hdata
  cases hat with
  | hdr1 =>
    have heop := utx_is_eop hW his (Or.inl rfl)
    rw [hm] at heop
    simp only [Nat.mul_zero, Nat.zero_add] at *
    by_cases h2 : c.W = 2
    · -- first of two header words
      have hne : (0 + 1 == urxCount c.W (c.D + m)) = false := by
        rw [utx_last_iff hW (Or.inl rfl)]; simp; omega
      refine ⟨false, true, false, false, false, ?_, ?_, by simp, ?_, fun _ => rfl, ?_, ?_⟩
      · unfold utxRoute
        rw [hx1, hx3, hs2, hf]
        simp [h2]
      · rw [hm]; simpa using hne.symm
      · intro _
        exact ⟨rfl, .hdr2 h2⟩
      · intro _ hS
        rcases hg.S with h | ⟨_, h⟩
        · exact absurd h hS
        · exact absurd h2 (hg.H0 h).1
      · intro sl e1 e2 e3 e4 e5 j hj
        rw [lane_eq sl e1 e2 e3 e4, if_pos (by simp; omega), hm]
        refine ⟨by simp; omega, fun _ => ?_⟩
        rw [utxDws_lt (by omega), (hhdr trivial).1, Nat.mul_zero, Nat.zero_add]
    · by_cases hr : c.r = 0
      · have hW4 : c.W = 4 ∧ H = 1 := by
          have := hg.H0; have := hg.H1; have := hg.H2; have := hg.H3; omega
        have hD4 : c.D = 4 := by rw [hW4.1, hW4.2] at hsplit; omega
        have hem := utx_empty hW his
        rw [hm] at hem
        refine ⟨decide (m = 0), false, false, false, decide (m = 0), ?_, ?_, ?_, ?_, fun _ => rfl, ?_, ?_⟩
        · unfold utxRoute
          rw [hgd, hview, hx1, hx3, hs2, hf]
          dsimp only
          rw [hem]
          by_cases h0 : m = 0
          · simp [h2, hr, h0, UtxCyc.advance]
          · simp [h2, hr, h0]
        · rw [hm]
          have := @utx_last_iff c.W (c.D + m) 0 hW (Or.inl rfl)
          rw [this]
          by_cases h0 : m = 0 <;> simp [h0] <;> omega
        · intro h
          refine ⟨h, ?_⟩
          rw [decide_eq_true_eq] at h
          rw [hm, h]; simp [urxCount]
        · intro h
          rw [decide_eq_false_iff_not] at h
          refine ⟨rfl, ?_⟩
          rw [if_neg (by simpa using h)]
          have := UtxAt.go (c := c) (H := H) (t := t) (sd := fun j => g.data (c.W - c.r + j)) (ss := fun j => g.strb (c.W - c.r + j)) 0
            (Or.inl rfl) (fun _ => by omega) (fun hh => absurd hr hh)
          rw [hW4.2] at this ⊢
          exact this
        · intro _ hS
          rcases hg.S with h | ⟨_, h⟩
          · exact absurd h hS
          · omega
        · intro sl e1 e2 e3 e4 e5 j hj
          rw [lane_eq sl e1 e2 e3 e4, if_pos (by simp; omega), hm]
          refine ⟨by simp; omega, fun _ => ?_⟩
          rw [utxDws_lt (by omega), (hhdr trivial).1, Nat.mul_zero, Nat.zero_add]
      · have hH : H = 0 := by
          have := hg.H1; have := hg.H2; have := hg.H3; omega
        have hrD := (hg.H0 hH).2
        have hex := utx_extra hr hrlt his (Or.inl rfl)
        rw [hm] at hex
        simp only [Nat.mul_zero, Nat.zero_add] at hex
        have lanes : ∀ s2 : Bool, s2 = false → ∀ sl : UtxSlot, sl.port = x.port → sl.idx = x.cnt → sl.hdr1 = x.hdr1 → sl.hdr2 = x.hdr2 → sl.split2 = s2 →
            ∀ j, j < c.W → (utxLane c env (sd, ss) sl j).2 = decide (j < c.D + m) ∧
            (j < c.D + m → (utxLane c env (sd, ss) sl j).1 = (utxDws c t).getD j 0) := by
          intro s2 hs sl e1 e2 e3 e4 e5 j hj
          rw [lane_eq sl e1 e2 e3 e4]
          by_cases hjD : j < c.D
          · rw [if_pos (by simp [hjD])]
            refine ⟨by simp; omega, fun _ => ?_⟩
            rw [utxDws_lt hjD, (hhdr trivial).1]
          · rw [if_neg (by simp [hjD]), if_neg (by simp [h2]), if_neg (by omega), e5, hs]
            simp only [Bool.not_false, Bool.or_true, Bool.and_true]
            rw [hstrb _ (by omega)]
            refine ⟨by rw [decide_eq_decide]; omega, fun hlt => ?_⟩
            rw [hdata _ (by omega) (by omega), utxDws_ge (by omega), hrD]
        by_cases hx : m ≤ c.W ∧ c.W < m + c.r
        · rw [decide_eq_true hx] at hex
          refine ⟨false, false, true, false, false, ?_, ?_, by simp, ?_, fun _ => rfl, ?_, ?_⟩
          · unfold utxRoute
            rw [hgd, hx1, hx3, hs2, hf]
            simp [h2, hr, hex]
          · rw [hm, utx_last_iff hW (Or.inl rfl)]; simp; omega
          · intro _
            refine ⟨rfl, ?_⟩
            have := UtxAt.split (c := c) (H := H) (t := t) (sd := fun j => g.data (c.W - c.r + j)) (ss := fun j => g.strb (c.W - c.r + j)) 0
              (Or.inl rfl) hr (by omega) (by omega) (by
                intro j hj
                rw [hH, hm, Nat.zero_add, Nat.mul_one]
                rw [hstrb _ (by omega)]
                refine ⟨by rw [decide_eq_decide]; omega, fun hlt => ?_⟩
                rw [hdata _ (by omega) (by omega), utxDws_ge (by omega)]
                congr 1; omega)
            rw [hH] at this ⊢
            exact this
          · intro hne _
            rw [heop, decide_eq_false_iff_not] at hne; omega
          · intro sl e1 e2 e3 e4 e5 j hj
            rw [hm]; simpa using lanes false rfl sl e1 e2 e3 e4 e5 j hj
        · rw [decide_eq_false hx] at hex
          refine ⟨true, false, false, false, decide (m ≤ c.W), ?_, ?_, ?_, ?_, ?_, fun _ _ => rfl, ?_⟩
          · unfold utxRoute
            rw [hgd, hx1, hx3, hs2, hf]
            dsimp only
            rw [heop]
            simp [h2, hr, hex, UtxCyc.advance]
          · rw [hm, utx_last_iff hW (Or.inl rfl), decide_eq_decide]; omega
          · intro h
            rw [decide_eq_true_eq] at h
            refine ⟨rfl, ?_⟩
            rw [hm]
            have := @utx_last_iff c.W m 0 hW (Or.inl rfl)
            rw [Nat.mul_zero, Nat.zero_add, decide_eq_true (by omega)] at this
            simpa using this
          · intro h
            rw [decide_eq_false_iff_not] at h
            refine ⟨rfl, ?_⟩
            have := UtxAt.go (c := c) (H := H) (t := t) (sd := fun j => g.data (c.W - c.r + j)) (ss := fun j => g.strb (c.W - c.r + j)) 1
              (Or.inr (by omega)) (fun hh => absurd hh hr) (fun _ => ⟨by omega, by
                intro j hj
                rw [hH, Nat.add_zero, Nat.mul_one]
                refine ⟨?_, ?_⟩
                · rw [hstrb _ (by omega), decide_eq_true_eq]; omega
                · rw [hdata _ (by omega) (by omega), utxDws_ge (by omega)]
                  congr 1; omega⟩)
            rw [hH] at this ⊢
            exact this
          · intro h
            rw [heop] at h
            exact h.symm
          · intro sl e1 e2 e3 e4 e5 j hj
            rw [hm]; simpa using lanes false rfl sl e1 e2 e3 e4 e5 j hj
  | hdr2 h2 =>
    have heop := utx_is_eop hW his (Or.inl rfl)
    rw [hm] at heop
    simp only [Nat.mul_zero, Nat.zero_add, Nat.mul_one] at *
    have hS1 : c.S = 1 := by
      rcases hg.S with h | ⟨_, h⟩
      · exact h
      · exact absurd h2 (hg.H0 h).1
    by_cases hr : c.r = 0
    · have hH : H = 2 := by
        have := hg.H0; have := hg.H1; have := hg.H3; omega
      have hD4 : c.D = 4 := by rw [h2, hH] at hsplit; omega
      have hem := utx_empty hW his
      rw [hm] at hem
      refine ⟨decide (m = 0), false, false, false, decide (m = 0), ?_, ?_, ?_, ?_, fun _ => rfl, fun _ h => absurd hS1 h, ?_⟩
      · unfold utxRoute
        rw [hgd, hview, hx1, hx2, hx3, hs2, hf]
        dsimp only
        rw [hem]
        by_cases h0 : m = 0
        · simp [hr, h0, UtxCyc.advance]
        · simp [hr, h0]
      · rw [hm, utx_last_iff hW (Or.inr (by omega)), decide_eq_decide]; omega
      · intro h
        refine ⟨h, ?_⟩
        rw [decide_eq_true_eq] at h
        rw [hm, h]; simp [urxCount]
      · intro h
        rw [decide_eq_false_iff_not] at h
        refine ⟨rfl, ?_⟩
        rw [if_neg (by simpa using h)]
        have := UtxAt.go (c := c) (H := H) (t := t) (sd := fun j => g.data (c.W - c.r + j)) (ss := fun j => g.strb (c.W - c.r + j)) 0
          (Or.inl rfl) (fun _ => by omega) (fun hh => absurd hr hh)
        rw [hH] at this ⊢
        exact this
      · intro sl e1 e2 e3 e4 e5 j hj
        rw [lane_eq sl e1 e2 e3 e4, if_neg (by simp), if_pos (by simp [h2]; omega), hm]
        refine ⟨by simp; omega, fun _ => ?_⟩
        rw [utxDws_lt (by omega), (hhdr trivial).1, h2, Nat.mul_one, Nat.add_comm]
    · have hH : H = 1 := by
        have := hg.H0; have := hg.H2; have := hg.H3; omega
      have hr1 : c.r = 1 := by have := hg.H1 hH; omega
      have hD3 : c.D = 3 := by rw [h2, hH] at hsplit; omega
      have hex := utx_extra hr hrlt his (Or.inl rfl)
      rw [hm] at hex
      simp only [Nat.mul_zero, Nat.zero_add] at hex
      have lanes : ∀ sl : UtxSlot, sl.port = x.port → sl.idx = x.cnt → sl.hdr1 = x.hdr1 → sl.hdr2 = x.hdr2 → sl.split2 = false →
          ∀ j, j < c.W → (utxLane c env (sd, ss) sl j).2 = decide (c.W + j < c.D + m) ∧
          (c.W + j < c.D + m → (utxLane c env (sd, ss) sl j).1 = (utxDws c t).getD (c.W + j) 0) := by
        intro sl e1 e2 e3 e4 e5 j hj
        rw [lane_eq sl e1 e2 e3 e4, if_neg (by simp)]
        by_cases hjD : j + 2 < c.D
        · rw [if_pos (by simp [h2, hjD])]
          refine ⟨by simp; omega, fun _ => ?_⟩
          rw [utxDws_lt (by omega), (hhdr trivial).1, h2, Nat.add_comm]
        · rw [if_neg (by simp [hjD]), if_neg (by omega), e5]
          simp only [Bool.not_false, Bool.or_true, Bool.and_true]
          rw [hstrb _ (by omega)]
          refine ⟨by rw [decide_eq_decide]; omega, fun hlt => ?_⟩
          rw [hdata _ (by omega) (by omega), utxDws_ge (by omega)]
          congr 1; omega
      by_cases hx : m ≤ c.W ∧ c.W < m + c.r
      · rw [decide_eq_true hx] at hex
        refine ⟨false, false, true, false, false, ?_, ?_, by simp, ?_, fun _ => rfl, fun _ h => absurd hS1 h, ?_⟩
        · unfold utxRoute
          rw [hgd, hx1, hx2, hx3, hs2, hf]
          simp [hr, hex]
        · rw [hm, utx_last_iff hW (Or.inr (by omega))]; simp; omega
        · intro _
          refine ⟨rfl, ?_⟩
          have := UtxAt.split (c := c) (H := H) (t := t) (sd := fun j => g.data (c.W - c.r + j)) (ss := fun j => g.strb (c.W - c.r + j)) 0
            (Or.inl rfl) hr (by omega) (by omega) (by
              intro j hj
              rw [hH, hm, Nat.zero_add, h2]
              rw [hstrb _ (by omega)]
              refine ⟨by rw [decide_eq_decide]; omega, fun hlt => ?_⟩
              rw [hdata _ (by omega) (by omega), utxDws_ge (by omega)]
              congr 1; omega)
          rw [hH] at this ⊢
          exact this
        · intro sl e1 e2 e3 e4 e5 j hj
          rw [hm]; simpa using lanes sl e1 e2 e3 e4 e5 j hj
      · rw [decide_eq_false hx] at hex
        refine ⟨true, false, false, false, decide (m ≤ c.W), ?_, ?_, ?_, ?_, ?_, fun _ _ => rfl, ?_⟩
        · unfold utxRoute
          rw [hgd, hx1, hx2, hx3, hs2, hf]
          dsimp only
          rw [heop]
          simp [hr, hex, UtxCyc.advance]
        · rw [hm, utx_last_iff hW (Or.inr (by omega)), decide_eq_decide]; omega
        · intro h
          rw [decide_eq_true_eq] at h
          refine ⟨rfl, ?_⟩
          rw [hm]
          have := @utx_last_iff c.W m 0 hW (Or.inl rfl)
          rw [Nat.mul_zero, Nat.zero_add, decide_eq_true (by omega)] at this
          simpa using this
        · intro h
          rw [decide_eq_false_iff_not] at h
          refine ⟨rfl, ?_⟩
          have := UtxAt.go (c := c) (H := H) (t := t) (sd := fun j => g.data (c.W - c.r + j)) (ss := fun j => g.strb (c.W - c.r + j)) 1
            (Or.inr (by omega)) (fun hh => absurd hh hr) (fun _ => ⟨by omega, by
              intro j hj
              rw [hH]
              refine ⟨?_, ?_⟩
              · rw [hstrb _ (by omega), decide_eq_true_eq]; omega
              · rw [hdata _ (by omega) (by omega), utxDws_ge (by omega)]
                congr 1; omega⟩)
          rw [hH] at this ⊢
          exact this
        · intro h
          rw [heop] at h
          exact h.symm
        · intro sl e1 e2 e3 e4 e5 j hj
          rw [hm]; simpa using lanes sl e1 e2 e3 e4 e5 j hj
  | go _ hi hi0 hsh =>
    rw [hm] at hi hi0
    have heop := utx_is_eop hW his (by rw [hm]; exact hi)
    rw [hm] at heop
    have hmul : c.W * (i + H) = c.W * i + c.W * H := Nat.mul_add _ _ _
    have hmul' : c.W * (i + 1) = c.W * i + c.W := Nat.mul_succ _ _
    have hmul'' : c.W * (i + H + 1) = c.W * i + c.W * H + c.W := by rw [Nat.mul_succ, hmul]
    have hmul3 : c.W * (i + 1 + H) = c.W * i + c.W * H + c.W := by rw [Nat.mul_add, hmul']; omega
    generalize hwi : c.W * i = wi at *
    generalize hwH : c.W * H = wH at *
    have hnL : i + H = 0 ∨ c.W * (i + H) < c.D + m := by
      right; rw [hmul]
      by_cases hr : c.r = 0
      · have := hi0 hr; omega
      · have hp := (hsh hr).1
        rcases hi with h | h
        · omega
        · omega
    have lanes : ∀ sl : UtxSlot, sl.port = x.port → sl.idx = x.cnt → sl.hdr1 = x.hdr1 → sl.hdr2 = x.hdr2 → sl.split2 = false →
        ∀ j, j < c.W → (utxLane c env (sd, ss) sl j).2 = decide (c.W * (i + H) + j < c.D + m) ∧
        (c.W * (i + H) + j < c.D + m → (utxLane c env (sd, ss) sl j).1 = (utxDws c t).getD (c.W * (i + H) + j) 0) := by
      intro sl e1 e2 e3 e4 e5 j hj
      rw [lane_eq sl e1 e2 e3 e4, if_neg (by simp), if_neg (by simp)]
      by_cases hjr : j < c.r
      · have hs := (hsh (by omega)).2 j hjr
        rw [if_pos hjr]
        refine ⟨?_, fun _ => hs.2⟩
        rw [hs.1, hmul]; symm; rw [decide_eq_true_eq]
        have hp := (hsh (by omega)).1
        rcases hi with h | h <;> omega
      · rw [if_neg hjr, e5]
        simp only [Bool.not_false, Bool.or_true, Bool.and_true]
        rw [hstrb _ (by omega), hmul]
        refine ⟨by rw [decide_eq_decide]; omega, fun hlt => ?_⟩
        rw [hdata _ (by omega) (by omega), utxDws_ge (by omega)]
        congr 1; omega
    have hfin : ∀ e : Bool, e = true → m ≤ wi + c.W → i + 1 = urxCount c.W m := by
      intro _ _ h
      have := @utx_last_iff c.W m i hW (by rw [hwi]; exact hi)
      rw [hwi, decide_eq_true h] at this
      simpa using this
    by_cases hx : c.r ≠ 0 ∧ m ≤ wi + c.W ∧ wi + c.W < m + c.r
    · obtain ⟨hr, hx⟩ := hx
      have hex := utx_extra hr hrlt his (by rw [hm, hwi]; exact hi)
      rw [hm, hwi, decide_eq_true hx] at hex
      refine ⟨false, false, true, false, false, ?_, ?_, by simp, ?_, fun _ => rfl, ?_, ?_⟩
      · unfold utxRoute
        rw [hgd, hx1, hx2, hx3, hs2, hf]
        simp [hr, hex]
      · rw [hm, utx_last_iff hW hnL, hmul]; simp; omega
      · intro _
        refine ⟨rfl, ?_⟩
        exact UtxAt.split (c := c) (H := H) (t := t) i (by rw [hm, hwi]; exact hi) hr (by omega) (by omega) (by
          intro j hj
          rw [hmul'', hm]
          rw [hstrb _ (by omega)]
          refine ⟨by rw [decide_eq_decide]; omega, fun hlt => ?_⟩
          rw [hdata _ (by omega) (by omega), utxDws_ge (by omega)]
          congr 1; omega)
      · intro hne _
        rw [heop, decide_eq_false_iff_not] at hne; omega
      · intro sl e1 e2 e3 e4 e5 j hj
        rw [hm]; exact lanes sl e1 e2 e3 e4 e5 j hj
    · have hex : (c.r != 0 && utxExtra c g) = false := by
        by_cases hr : c.r = 0
        · simp [hr]
        · have := utx_extra hr hrlt his (by rw [hm, hwi]; exact hi)
          rw [this, hm, hwi, decide_eq_false (by intro h; exact hx ⟨hr, h⟩), Bool.and_false]
      refine ⟨true, false, false, false, decide (m ≤ wi + c.W), ?_, ?_, ?_, ?_, ?_, fun _ _ => rfl, ?_⟩
      · unfold utxRoute
        rw [hgd, hx1, hx2, hx3, hs2, hf]
        dsimp only
        rw [heop, hex]
        simp [UtxCyc.advance]
      · rw [hm, utx_last_iff hW hnL, hmul, decide_eq_decide]
        omega
      · intro h
        rw [decide_eq_true_eq] at h
        rw [hm]
        exact ⟨rfl, hfin true rfl h⟩
      · intro h
        rw [decide_eq_false_iff_not] at h
        refine ⟨rfl, ?_⟩
        have := UtxAt.go (c := c) (H := H) (t := t) (sd := fun j => g.data (c.W - c.r + j)) (ss := fun j => g.strb (c.W - c.r + j)) (i + 1)
          (Or.inr (by omega)) (fun _ => by omega) (fun _ => ⟨by omega, by
            intro j hj
            rw [hmul3]
            refine ⟨?_, ?_⟩
            · rw [hstrb _ (by omega), decide_eq_true_eq]; omega
            · rw [hdata _ (by omega) (by omega), utxDws_ge (by omega)]
              congr 1; omega⟩)
        rw [Nat.add_right_comm] at this
        exact this
      · intro h
        rw [heop] at h
        exact h.symm
      · intro sl e1 e2 e3 e4 e5 j hj
        rw [hm]; exact lanes sl e1 e2 e3 e4 e5 j hj
  | split _ hi hr hle hlt hsh =>
    rw [hm] at hi hle hlt hsh
    have heop := utx_is_eop hW his (by rw [hm]; exact hi)
    rw [hm] at heop
    have hex := utx_extra hr hrlt his (by rw [hm]; exact hi)
    rw [hm, decide_eq_true ⟨hle, hlt⟩] at hex
    have hmul'' : c.W * (i + H + 1) = c.W * i + c.W * H + c.W := by rw [Nat.mul_succ, Nat.mul_add]
    have hfin : i + 1 = urxCount c.W m := by
      have := @utx_last_iff c.W m i hW hi
      rw [decide_eq_true hle] at this
      simpa using this
    generalize hwi : c.W * i = wi at *
    generalize hwH : c.W * H = wH at *
    refine ⟨true, false, false, true, true, ?_, ?_, fun _ => ⟨rfl, by rw [hm]; exact hfin⟩, (fun h => by cases h), fun _ => rfl, fun _ _ => rfl, ?_⟩
    · unfold utxRoute
      rw [hgd, hx1, hx2, hx3]
      simp [hr, hex, UtxCyc.advance]
    · rw [hm, utx_last_iff hW (Or.inr (by omega)), hmul'']; symm; rw [decide_eq_true_eq]; omega
    · intro sl e1 e2 e3 e4 e5 j hj
      rw [lane_eq sl e1 e2 e3 e4, if_neg (by simp), if_neg (by simp), hm]
      by_cases hjr : j < c.r
      · rw [if_pos hjr]
        exact hsh j hjr
      · rw [if_neg hjr, e5]
        have hr' : (c.r == 0) = false := by simp [hr]
        rw [hr']
        simp only [Bool.not_true, Bool.or_false, Bool.and_false]
        refine ⟨?_, fun h => by rw [hmul''] at h; omega⟩
        symm; rw [decide_eq_false_iff_not, hmul'']; omega

end Verif.Proofs
