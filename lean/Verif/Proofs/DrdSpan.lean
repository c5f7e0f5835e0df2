import Verif.Spec.DmaIfPcieRd
import Verif.Proofs.DmaClientSinkWord
/-! Lanes of the write commands of the PCIe DMA read interface. -/
namespace Verif.Proofs
open Verif Verif.Model Verif.Spec

theorem drd_row (c : DrdCfg) : c.rowBytes = 2 * c.tlpBytes := by
  unfold DrdCfg.rowBytes DrdCfg.tlpBytes; rw [Nat.pow_succ]; omega

theorem drd_segs {c : DrdCfg} (hc : DrdCfgOk c) : c.rowBytes = c.segs * c.segBytes := by
  simp only [DrdCfg.rowBytes, DrdCfg.segs, DrdCfg.segBytes, ← Nat.pow_add]
  congr 1; have := hc.sc; omega

theorem drd_seg_le {c : DrdCfg} (hc : DrdCfgOk c) : c.segBytes ≤ c.tlpBytes := by
  unfold DrdCfg.segBytes DrdCfg.tlpBytes
  exact Nat.pow_le_pow_right (by omega) (by have := hc.sc; omega)

theorem drd_ram {c : DrdCfg} (hc : DrdCfgOk c) : 2 ^ c.ramW = c.rowBytes * 2 ^ (c.ramW - (c.tb + 1)) := by
  unfold DrdCfg.rowBytes; rw [← Nat.pow_add]; congr 1; have := hc.ram; omega

/-- The registers describe a write of `cyc` bytes from `a`. -/
structure StageSpan (c : DrdCfg) (r : DrdRx) (a cyc : Nat) : Prop where
  startOff : r.startOff = a % c.rowBytes
  endOff : r.endOff = drdEnd c a cyc % c.rowBytes
  wrap : r.wrap = (drdEnd c a cyc / c.rowBytes != 0)
  mask : ∀ k, r.mask k = if drdEnd c a cyc / c.rowBytes = 0 then
    decide (a % c.rowBytes / c.segBytes ≤ k) && decide (k ≤ drdEnd c a cyc % c.rowBytes / c.segBytes)
    else decide (a % c.rowBytes / c.segBytes ≤ k) || decide (k ≤ drdEnd c a cyc % c.rowBytes / c.segBytes)
  mask1 : ∀ k, r.mask1 k = if drdEnd c a cyc / c.rowBytes = 0 then false else
    decide (k ≤ drdEnd c a cyc % c.rowBytes / c.segBytes)
  addrD : r.addrD = a

theorem drdSpan_stage (c : DrdCfg) (r : DrdRx) (a cyc count : Nat) : StageSpan c (drdSpan c r a cyc count) a cyc := by
  refine ⟨rfl, rfl, rfl, fun k => ?_, fun k => ?_, rfl⟩
  · unfold drdSpan; simp only; split <;> rfl
  · unfold drdSpan; simp only; split <;> rfl

theorem StageSpan.congr {c : DrdCfg} {r r' : DrdRx} {a cyc : Nat} (h : StageSpan c r a cyc) (h1 : r'.startOff = r.startOff)
    (h2 : r'.endOff = r.endOff) (h3 : r'.wrap = r.wrap) (h4 : r'.mask = r.mask) (h5 : r'.mask1 = r.mask1)
    (h6 : r'.addrD = r.addrD) : StageSpan c r' a cyc :=
  ⟨h1 ▸ h.startOff, h2 ▸ h.endOff, h3 ▸ h.wrap, h4 ▸ h.mask, h5 ▸ h.mask1, h6 ▸ h.addrD⟩

theorem drdEnd_eq {c : DrdCfg} {a cyc : Nat} (h1 : 1 ≤ cyc) (h2 : cyc ≤ c.tlpBytes) :
    drdEnd c a cyc = a % c.rowBytes + cyc - 1 ∧ drdEnd c a cyc < 2 * c.rowBytes := by
  have hr := drd_row c
  have hp : 0 < c.rowBytes := Nat.two_pow_pos _
  have hm := Nat.mod_lt a hp
  have e : 2 ^ (c.tb + 2) = 2 * c.rowBytes := by unfold DrdCfg.rowBytes; rw [Nat.pow_succ 2 (c.tb + 1)]; omega
  unfold drdEnd
  rw [e, show a % c.rowBytes + cyc + 2 * c.rowBytes - 1 = a % c.rowBytes + cyc - 1 + 2 * c.rowBytes by omega, Nat.add_mod_right,
    Nat.mod_eq_of_lt (by omega)]
  exact ⟨rfl, by omega⟩

theorem drd_mul_add_mod {R P l : Nat} (x : Nat) (hl : l < R) : (x * R + l) % (R * P) = x % P * R + l := by
  have hR : 0 < R := by omega
  rw [Nat.mod_mul, Nat.mul_comm x R, Nat.mul_add_mod, Nat.mod_eq_of_lt hl, Nat.mul_add_div hR, Nat.div_eq_of_lt hl, Nat.add_zero,
    Nat.mul_comm (x % P)]
  omega

/-- The bytes written by a stage. -/
def spanWrites (c : DrdCfg) (sel a cyc lane : Nat) (data : Nat → UInt8) : List (Nat × Nat × UInt8) :=
  (List.range cyc).map fun q => (sel, (a + q) % 2 ^ c.ramW, data (lane + q))

theorem stage_writes {c : DrdCfg} (hc : DrdCfgOk c) {s : Drd} {a cyc lane : Nat} (h : StageSpan c s.rx a cyc)
    (hc1 : 1 ≤ cyc) (hc2 : lane + cyc ≤ c.tlpBytes)
    (ho1 : s.rx.offset < c.tlpBytes) (ho2 : (s.rx.offset + lane) % c.tlpBytes = a % c.tlpBytes) {k : Nat} (hk : k < c.segs) :
    drdCmdWrites c k (drdPipeCmd c (drdPipeStep c s) k) =
      (spanWrites c s.rx.sel a cyc lane s.rx.data).filter (drdInSeg c k) ∧
    s.rx.mask k = !((spanWrites c s.rx.sel a cyc lane s.rx.data).filter (drdInSeg c k)).isEmpty := by
  have hrow := drd_row c
  have hsegs := drd_segs hc
  have hsle := drd_seg_le hc
  have hram := drd_ram hc
  have hS : 0 < c.segBytes := Nat.two_pow_pos _
  have hT : 0 < c.tlpBytes := Nat.two_pow_pos _
  have hR : 0 < c.rowBytes := Nat.two_pow_pos _
  obtain ⟨he, he2⟩ := drdEnd_eq (c := c) (a := a) hc1 (by omega)
  have ho := Nat.mod_lt a hR
  have hin : k * c.segBytes + c.segBytes ≤ c.rowBytes := by
    rw [hsegs]
    calc k * c.segBytes + c.segBytes = (k + 1) * c.segBytes := by rw [Nat.add_mul, Nat.one_mul]
      _ ≤ _ := Nat.mul_le_mul_right _ hk
  have hoT : (s.rx.offset + lane) % c.tlpBytes = a % c.rowBytes % c.tlpBytes := by
    rw [ho2, Nat.mod_mod_of_dvd _ ⟨2, by rw [hrow]; omega⟩]
  have ha : a = a / c.rowBytes * c.rowBytes + a % c.rowBytes := by
    have := Nat.div_add_mod a c.rowBytes; rw [Nat.mul_comm] at this; omega
  have hstart := h.startOff
  have hend := h.endOff
  have hwrap := h.wrap
  have hmask := h.mask k
  have hmask1 := h.mask1 k
  have haddr := h.addrD
  have hdiv : drdEnd c a cyc / c.rowBytes = if drdEnd c a cyc < c.rowBytes then 0 else 1 := by
    split
    · exact Nat.div_eq_of_lt ‹_›
    · exact Nat.div_eq_of_lt_le (by omega) (by omega)
  have hmodE : drdEnd c a cyc % c.rowBytes = if drdEnd c a cyc < c.rowBytes then drdEnd c a cyc else drdEnd c a cyc - c.rowBytes := by
    split
    · exact Nat.mod_eq_of_lt ‹_›
    · rw [Nat.mod_eq_sub_mod (by omega), Nat.mod_eq_of_lt (by omega)]
  rw [hmodE] at hend hmask hmask1
  rw [hdiv] at hwrap hmask hmask1
  rw [he] at hend hwrap hmask hmask1 he2
  clear hdiv hmodE he h
  generalize hoo : a % c.rowBytes = o at *
  generalize hR' : c.rowBytes = R at *
  generalize hT' : c.tlpBytes = T at *
  generalize hS' : c.segBytes = S at *
  generalize hA : a / R = A at *
  -- the row of segment `k`
  obtain ⟨w, hw⟩ : ∃ w, w = (s.rx.mask1 k).toNat := ⟨_, rfl⟩
  have hkdiv : ∀ x, (k ≤ x / S ↔ k * S ≤ x) := fun x => Nat.le_div_iff_mul_le hS
  have hokdiv : (o / S ≤ k ↔ o < k * S + S) := by
    rw [← Nat.lt_succ_iff, Nat.div_lt_iff_lt_mul hS, Nat.succ_mul]
  have hwcase : (w = 0 ∧ (R ≤ o + cyc - 1 → o + cyc - 1 - R < k * S)) ∨ (w = 1 ∧ R ≤ o + cyc - 1 ∧ k * S ≤ o + cyc - 1 - R) := by
    rw [hmask1] at hw
    by_cases hlt : o + cyc - 1 < R
    · left
      simp only [hlt, if_true] at hw
      exact ⟨hw, fun h => by omega⟩
    · simp only [hlt, if_false, Nat.one_ne_zero] at hw
      by_cases h2 : k * S ≤ o + cyc - 1 - R
      · right; rw [decide_eq_true ((hkdiv _).mpr h2)] at hw; exact ⟨hw, by omega, h2⟩
      · left; rw [decide_eq_false (fun h => h2 ((hkdiv _).mp h))] at hw; exact ⟨hw, fun _ => by omega⟩
  have hw1 : w ≤ 1 := by omega
  have hwR : w * R + k * S + S ≤ 2 * R := by
    rcases hwcase with h | h
    · rw [h.1]; omega
    · rw [h.1]; omega
  have hwR' : w * R = if w = 0 then 0 else R := by
    split
    · rename_i h; rw [h]; omega
    · rw [show w = 1 by omega]; omega
  -- both sides are this list over the lanes of two rows
  let g : Nat → Option (Nat × Nat × UInt8) := fun l =>
    if l % R / S = k ∧ o ≤ l ∧ l < o + cyc then some (s.rx.sel, (A * R + l) % 2 ^ c.ramW, s.rx.data (l - o + lane)) else none
  have hmodl : ∀ l, l < 2 * R → l % R = if l < R then l else l - R := by
    intro l hl
    split
    · exact Nat.mod_eq_of_lt ‹_›
    · rw [Nat.mod_eq_sub_mod (by omega), Nat.mod_eq_of_lt (by omega)]
  have hseg : ∀ l, (l / S = k ↔ k * S ≤ l ∧ l < k * S + S) := by
    intro l
    rw [← hkdiv, ← Nat.succ_mul, ← Nat.div_lt_iff_lt_mul hS]; omega
  have e1 : drdCmdWrites c k (drdPipeCmd c (drdPipeStep c s) k) = (List.range (2 * R)).filterMap g := by
    rw [filterMap_window (2 * R) (w * R + k * S) S g hwR]
    · unfold drdCmdWrites drdPipeCmd drdPipeStep
      simp only [hS', hR', hT']
      apply filterMap_same
      intro b hb
      have hb := List.mem_range.mp hb
      have hlane : k * S + b < R := by omega
      have hlk : (w * R + k * S + b) % R / S = k := by
        rw [hseg, hmodl _ (by omega)]
        rw [hwR']
        split <;> split <;> omega
      simp only [g, hlk, true_and]
      have hbe : (if s.rx.wrap then decide (s.rx.startOff ≤ k * S + b) || decide (k * S + b ≤ s.rx.endOff)
          else decide (s.rx.startOff ≤ k * S + b) && decide (k * S + b ≤ s.rx.endOff)) =
          decide (o ≤ w * R + k * S + b ∧ w * R + k * S + b < o + cyc) := by
        rw [hwrap, hstart, hend, hwR']
        by_cases hlt : o + cyc - 1 < R
        · simp only [hlt, if_true]
          rw [show w = 0 by omega]
          simp only [bne_self_eq_false, Bool.false_eq_true, if_false, if_true]
          rw [← Bool.decide_and, decide_eq_decide]; omega
        · simp only [hlt, if_false]
          simp only [show ((1 : Nat) != 0) = true from rfl, if_true]
          rw [← Bool.decide_or, decide_eq_decide]
          rcases hwcase with h | h
          · have := h.2 (by omega)
            rw [h.1]; simp only [if_true]; omega
          · rw [h.1]; simp only [Nat.one_ne_zero, if_false]; omega
      rw [hbe]
      by_cases hh : o ≤ w * R + k * S + b ∧ w * R + k * S + b < o + cyc
      · rw [if_pos (decide_eq_true hh), if_pos hh]
        congr 2
        congr 1
        · rw [haddr, hA, ← hw, hram, show A * R + (w * R + k * S + b) = (A + w) * R + (k * S + b) by rw [Nat.add_mul]; omega,
            drd_mul_add_mod _ hlane]
        · congr 1
          obtain ⟨h1, h2⟩ := hh
          have m1 := Nat.div_add_mod (s.rx.offset + lane) T
          have m2 := Nat.div_add_mod o T
          rw [hoT] at m1
          generalize (s.rx.offset + lane) / T = α at *
          generalize o / T = β at *
          have key : (k * S + b + T - s.rx.offset) + T * (α + 2 * w) = (w * R + k * S + b - o + lane) + T * (1 + β) := by
            rw [hrow] at *
            have : w * (2 * T) = T * (2 * w) := by rw [Nat.mul_comm w, Nat.mul_comm 2 T, Nat.mul_assoc]
            rw [Nat.mul_add, Nat.mul_add, Nat.mul_one, ← this]
            omega
          have := congrArg (· % T) key
          simp only [Nat.add_mul_mod_self_left] at this
          rw [this, Nat.mod_eq_of_lt (by omega)]
      · rw [if_neg (by simpa using hh), if_neg hh]
    · intro l hl
      simp only [g]
      rw [if_neg]
      rintro ⟨h1, h2, h3⟩
      rw [hseg, hmodl _ (by omega)] at h1
      rw [hwR'] at hl
      split at h1
      · rcases hwcase with h | h
        · rw [h.1] at hl; simp only [if_true] at hl; omega
        · omega
      · rcases hwcase with h | h
        · have := h.2 (by omega); omega
        · rw [h.1] at hl; simp only [Nat.one_ne_zero, if_false] at hl; omega
  have e2 : (spanWrites c s.rx.sel a cyc lane s.rx.data).filter (drdInSeg c k) = (List.range (2 * R)).filterMap g := by
    rw [filterMap_window (2 * R) o cyc g (by omega)]
    · unfold spanWrites
      rw [List.filter_map, ← List.filterMap_eq_map, ← List.filterMap_eq_filter, List.filterMap_filterMap]
      apply filterMap_same
      intro q hq
      have hq := List.mem_range.mp hq
      have hm : (a + q) % 2 ^ c.ramW % R = (o + q) % R := by
        rw [hram, Nat.mod_mod_of_dvd _ ⟨_, rfl⟩, ha, Nat.add_assoc, Nat.mul_comm A, Nat.mul_add_mod]
      simp only [g, Nat.le_add_right, true_and, show o + q < o + cyc by omega, and_true, Nat.add_sub_cancel_left]
      by_cases hd : (o + q) % R / S = k
      · rw [if_pos hd]
        have hi : drdInSeg c k (s.rx.sel, (a + q) % 2 ^ c.ramW, s.rx.data (lane + q)) = true := by
          unfold drdInSeg; rw [hR', hS']; simp only [hm, hd, beq_self_eq_true]
        simp only [Function.comp, Option.guard, hi, if_true, Option.bind_some]
        rw [show A * R + (o + q) = a + q by omega, Nat.add_comm q lane]
      · rw [if_neg hd]
        have hi : drdInSeg c k (s.rx.sel, (a + q) % 2 ^ c.ramW, s.rx.data (lane + q)) = false := by
          unfold drdInSeg; rw [hR', hS']; simp only [hm]; simpa using hd
        simp [Function.comp, Option.guard, hi]
    · intro l hl
      simp only [g]
      rw [if_neg]
      rintro ⟨-, h1, h2⟩
      omega
  refine ⟨by rw [e1, e2], ?_⟩
  rw [e2]
  clear e1 e2
  have hex : s.rx.mask k = true ↔ ∃ l, l % R / S = k ∧ o ≤ l ∧ l < o + cyc := by
    rw [hmask]
    by_cases hlt : o + cyc - 1 < R
    · simp only [hlt, if_true, Bool.and_eq_true, decide_eq_true_eq, hkdiv, hokdiv]
      constructor
      · intro ⟨h1, h2⟩
        refine ⟨max o (k * S), ?_, by omega, by omega⟩
        rw [hseg, hmodl _ (by omega)]; split <;> omega
      · rintro ⟨l, h1, h2, h3⟩
        rw [hseg, hmodl _ (by omega)] at h1
        split at h1 <;> omega
    · simp only [hlt, if_false, Nat.one_ne_zero, Bool.or_eq_true, decide_eq_true_eq, hkdiv, hokdiv]
      constructor
      · rintro (h1 | h1)
        · refine ⟨max o (k * S), ?_, by omega, by omega⟩
          rw [hseg, hmodl _ (by omega)]; split <;> omega
        · refine ⟨R + k * S, ?_, by omega, by omega⟩
          rw [hseg, hmodl _ (by omega)]; split <;> omega
      · rintro ⟨l, h1, h2, h3⟩
        rw [hseg, hmodl _ (by omega)] at h1
        split at h1 <;> omega
  have hne : (List.range (2 * R)).filterMap g ≠ [] ↔ ∃ l, l % R / S = k ∧ o ≤ l ∧ l < o + cyc := by
    rw [Ne, List.filterMap_eq_nil_iff]
    constructor
    · intro hh
      false_or_by_contra
      rename_i hno
      exact hh fun l _ => if_neg fun h => hno ⟨l, h⟩
    · rintro ⟨l, hl⟩ hh
      have := hh l (List.mem_range.mpr (by omega))
      simp only [g] at this
      rw [if_pos hl] at this
      simp at this
  rw [Bool.eq_iff_iff, hex, ← hne]
  simp

end Verif.Proofs
