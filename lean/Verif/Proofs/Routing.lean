import Verif.Spec.Routing
import Verif.Proofs.Bar
/-! Helper lemmas for routing. -/
namespace Verif.Proofs
open Verif Verif.Model Verif.Spec

theorem pair_beq (a b c d : Nat) : ((a, b) == (c, d)) = (decide (a = c) && decide (b = d)) := by
  by_cases h1 : a = c <;> by_cases h2 : b = d <;> simp [h1, h2]

theorem isCfg0_eq (t : Tlp) : t.isCfg0 = decide (kind t = .cfg0) := by
  unfold Tlp.isCfg0 Tlp.fmt_type kind
  simp only [pair_beq]
  grind (splits := 25)
theorem isCfg1_eq (t : Tlp) : t.isCfg1 = decide (kind t = .cfg1) := by
  unfold Tlp.isCfg1 Tlp.fmt_type kind
  simp only [pair_beq]
  grind (splits := 25)
theorem isCpl_eq (t : Tlp) : t.isCpl = decide (kind t = .cpl) := by
  unfold Tlp.isCpl Tlp.fmt_type kind
  simp only [pair_beq]
  grind (splits := 25)
theorem isMsgId_eq (t : Tlp) : t.isMsgId = decide (kind t = .msgId) := by
  unfold Tlp.isMsgId Tlp.fmt_type kind
  simp only [pair_beq]
  grind (splits := 25)
theorem isIo_eq (t : Tlp) : t.isIo = decide (kind t = .io) := by
  unfold Tlp.isIo Tlp.fmt_type kind
  simp only [pair_beq]
  grind (splits := 25)
theorem isMem_eq (t : Tlp) : t.isMem = decide (kind t = .mem) := by
  unfold Tlp.isMem Tlp.fmt_type kind
  simp only [pair_beq]
  grind (splits := 25)
theorem isMsgToRc_eq (t : Tlp) : t.isMsgToRc = decide (kind t = .msgToRc) := by
  unfold Tlp.isMsgToRc Tlp.fmt_type kind
  simp only [pair_beq]
  grind (splits := 25)
theorem isMsgBcast_eq (t : Tlp) : t.isMsgBcast = decide (kind t = .msgBcast) := by
  unfold Tlp.isMsgBcast Tlp.fmt_type kind
  simp only [pair_beq]
  grind (splits := 25)
theorem isMsgLocal_eq (t : Tlp) : t.isMsgLocal = decide (kind t = .msgLocal) := by
  unfold Tlp.isMsgLocal Tlp.fmt_type kind
  simp only [pair_beq]
  grind (splits := 25)
theorem isMsgGather_eq (t : Tlp) : t.isMsgGather = decide (kind t = .msgGather) := by
  unfold Tlp.isMsgGather Tlp.fmt_type kind
  simp only [pair_beq]
  grind (splits := 25)

theorem toType0_eq (b : Bridge) (t : Tlp) (h : kind t = .cfg1) :
    (if t.dest_id.bus = b.sec_bus_num then t.toType0 else t) = onSecondary b t := by
  unfold onSecondary
  simp only [h, true_and]
  split
  · have : t.type = 5 ∧ (t.fmt = 0 ∨ t.fmt = 2) := by
      unfold kind at h
      grind (splits := 25)
    obtain ⟨h1, h2⟩ := this
    unfold Tlp.toType0 Tlp.fmt_type Tlp.setFmtType
    rcases h2 with h2 | h2 <;> simp [h1, h2] <;> cases t <;> simp_all
  · rfl

theorem busBehind_iff (b : Bridge) (n : Nat) : b.busBehind n = true ↔ b.sec_bus_num ≤ n ∧ n ≤ b.sub_bus_num := by
  simp [Bridge.busBehind]
theorem ioBehind_iff (b : Bridge) (n : Nat) : b.ioBehind n = true ↔ b.io_base ≤ n ∧ n ≤ b.io_limit := by
  simp [Bridge.ioBehind]
theorem memBehind_iff (b : Bridge) (n : Nat) : b.memBehind n = true ↔ (b.mem_base ≤ n ∧ n ≤ b.mem_limit) ∨
    (b.prefetchable_mem_base ≤ n ∧ n ≤ b.prefetchable_mem_limit) := by
  simp [Bridge.memBehind]

theorem barHits_ne_nil (addr : Nat) (io : Bool) : ∀ (ds : List BarDesc) (idx : Nat),
    barHits addr io idx ds ≠ [] ↔ claimedBy ds io addr
  | [], idx => by simp [barHits, claimedBy]
  | d :: ds, idx => by
    have ih := barHits_ne_nil addr io ds (idx + d.values.length)
    unfold barHits
    unfold claimedBy at ih ⊢
    rw [ne_eq, List.append_eq_nil_iff, Classical.not_and_iff_not_or_not, ← ne_eq, ← ne_eq, ih]
    simp only [List.mem_cons, exists_eq_or_imp]
    apply or_congr _ Iff.rfl
    cases h : d.window io with
    | none => simp
    | some w =>
      obtain ⟨base, size⟩ := w
      simp only [Option.some.injEq, Prod.mk.injEq]
      by_cases hc : base ≤ addr ∧ addr < base + size
      · rw [if_pos hc]
        simp only [ne_eq, reduceCtorEq, not_false_eq_true, List.cons_ne_nil, true_iff]
        exact ⟨base, size, ⟨rfl, rfl⟩, hc⟩
      · rw [if_neg hc]
        simp only [ne_eq, not_true_eq_false, false_iff]
        rintro ⟨b, s, ⟨rfl, rfl⟩, h⟩
        exact hc h

/-- The registers of a function hold the BARs described by `bars`. -/
structure BarsAre (s : ConfigState) (bars : List BarDesc) : Prop where
  valid : ∀ d ∈ bars, d.Valid
  bar : s.bar = bars.flatMap BarDesc.values
  mask : s.bar_mask = bars.flatMap BarDesc.masks

/-- An address that 32-bit BARs decode fully (see `C18_bar_decode_fails`). -/
def Decodable (bars : List BarDesc) (addr : Nat) : Prop :=
  addr < 2 ^ 64 ∧ (addr < 2 ^ 32 ∨ ∀ d ∈ bars, ∀ k b p, d ≠ .mem32 k b p ∧ d ≠ .io k b)

theorem hitsBar_spec (s : ConfigState) (bars : List BarDesc) (h : BarsAre s bars) (addr : Nat) (io : Bool)
    (ha : Decodable bars addr) :
    ∃ r, hitsBar s addr io = some r ∧ (r = true ↔ claimedBy bars io addr) := by
  unfold hitsBar
  rw [h.bar, h.mask, matchBar_spec addr io bars 0 h.valid ha.1 ha.2]
  refine ⟨_, rfl, ?_⟩
  rw [← barHits_ne_nil addr io bars 0]
  cases barHits addr io 0 bars <;> simp

end Verif.Proofs
