import Verif.Proofs.Arbiter
/-!
C30, C31, C32: priority encoder and arbiter.

`arbRun c {} is` is the state of an arbiter with parameters `c` after any history `is` of clock edges
(each with any `rst`, `request` and `acknowledge`).
-/
namespace Verif.Props
open Verif Verif.Model Verif.Spec Verif.Proofs

/-- C30: `output_valid` is high iff some input is high. -/
theorem C30_valid (width : Nat) (lsb : Bool) (x : Nat) (hw : 0 < width) :
    (priorityEncoder width lsb x).valid = true ↔ ∃ i, i < width ∧ x.testBit i = true :=
  pe_valid width lsb x hw

/-- C30: then `output_encoded` is the index of the lowest (`lsb`) or highest set input, and
`output_unencoded` its one-hot code. -/
theorem C30_encoded (width : Nat) (lsb : Bool) (x : Nat) (hw : 0 < width)
    (hx : ∃ i, i < width ∧ x.testBit i = true) :
    Selects width lsb x (priorityEncoder width lsb x).encoded ∧
    (priorityEncoder width lsb x).unencoded = 2 ^ (priorityEncoder width lsb x).encoded :=
  pe_selects width lsb x hw ((pe_valid width lsb x hw).mpr hx)

example : priorityEncoder 5 true 0b10100 = ⟨true, 2, 0b00100⟩ := by decide
example : priorityEncoder 5 false 0b10100 = ⟨true, 4, 0b10000⟩ := by decide
example : (priorityEncoder 5 false 0).valid = false := by decide
example : priorityEncoder 1 true 1 = ⟨true, 0, 1⟩ := by decide

/-- C31: at every cycle at most one grant is high, and `grant_valid` and `grant_encoded` agree with
it. -/
theorem C31_onehot (c : ArbCfg) (hp : 0 < c.ports) (is : List ArbIn) :
    let s := arbRun c {} is
    (s.valid = false ∧ s.grant = 0) ∨ (s.valid = true ∧ s.encoded < c.ports ∧ s.grant = 2 ^ s.encoded) := by
  rcases run_ok c hp is {} (Or.inl ⟨rfl, rfl, rfl⟩) with h | h
  · exact Or.inl ⟨h.1, h.2.1⟩
  · exact Or.inr h

/-- C31: a grant that is not yet released persists. -/
theorem C31_held (c : ArbCfg) (hp : 0 < c.ports) (is : List ArbIn) (i : ArbIn) (hr : i.rst = false)
    (h : Unreleased c (arbRun c {} is) i) :
    let s := arbRun c {} is
    let s' := arbRun c {} (is ++ [i])
    s'.grant = s.grant ∧ s'.valid = true ∧ s'.encoded = s.encoded := by
  have e := arbRun_snoc c {} is i
  have hh := (hold_iff c _ i (run_ok c hp is {} (Or.inl ⟨rfl, rfl, rfl⟩))).mpr h
  simp only
  rw [e]
  unfold arbStep
  rw [if_neg (by simp [hr]), if_pos hh]
  exact ⟨rfl, h.2.1, rfl⟩

/-- C31: otherwise a grant is given iff some port requests, and to a port that requests in that
cycle. -/
theorem C31_requested (c : ArbCfg) (hp : 0 < c.ports) (is : List ArbIn) (i : ArbIn) (hr : i.rst = false)
    (h : ¬ Unreleased c (arbRun c {} is) i) :
    let s' := arbRun c {} (is ++ [i])
    (s'.valid = true ↔ ∃ j, j < c.ports ∧ i.request.testBit j = true) ∧
    (s'.valid = true → i.request.testBit s'.encoded = true) := by
  have e := arbRun_snoc c {} is i
  have hh : ¬ arbHold c (arbRun c {} is) i = true :=
    fun x => h ((hold_iff c _ i (run_ok c hp is {} (Or.inl ⟨rfl, rfl, rfl⟩))).mp x)
  simp only
  rw [e]
  unfold arbStep
  rw [if_neg (by simp [hr]), if_neg hh]
  refine ⟨?_, fun hv => (choose_request c hp _ i hv).2.1⟩
  rcases choose_cases c hp (arbRun c {} is) i with ⟨hn, e⟩ | ⟨hx, -, k, -, e⟩ | ⟨hx, -, k, -, e⟩
  · rw [e]
    constructor
    · intro h; simp at h
    · rintro ⟨j, hj, hb⟩; rw [hn j hj] at hb; simp at hb
  · rw [e]; exact ⟨fun _ => hx, fun _ => rfl⟩
  · rw [e]; exact ⟨fun _ => hx, fun _ => rfl⟩

/-- C31: without round robin a fresh grant goes to the highest-priority request. -/
theorem C31_priority (c : ArbCfg) (hp : 0 < c.ports) (hc : c.roundRobin = false) (is : List ArbIn)
    (i : ArbIn) (hr : i.rst = false) (h : ¬ Unreleased c (arbRun c {} is) i) :
    let s' := arbRun c {} (is ++ [i])
    s'.valid = true → Selects c.ports c.lsb i.request s'.encoded := by
  have e := arbRun_snoc c {} is i
  have hh : ¬ arbHold c (arbRun c {} is) i = true :=
    fun x => h ((hold_iff c _ i (run_ok c hp is {} (Or.inl ⟨rfl, rfl, rfl⟩))).mp x)
  simp only
  rw [e]
  unfold arbStep
  rw [if_neg (by simp [hr]), if_neg hh]
  intro hv
  rcases choose_cases c hp (arbRun c {} is) i with ⟨hn, e⟩ | ⟨hx, -, k, hk, e⟩ | ⟨-, hx, -⟩
  · rw [e] at hv; simp at hv
  · rw [e]; exact hk
  · rw [hc] at hx; simp at hx

/-- A blocking round-robin arbiter: port 2 keeps its grant until it acknowledges. -/
def exampleArb : ArbCfg := ⟨3, true, true, true, true⟩

example : Unreleased exampleArb (arbRun exampleArb {} [⟨false, 0b100, 0⟩]) ⟨false, 0b111, 0b011⟩ := by
  unfold Unreleased; decide
example : ¬ Unreleased exampleArb (arbRun exampleArb {} [⟨false, 0b100, 0⟩]) ⟨false, 0b111, 0b100⟩ := by
  unfold Unreleased; decide

/-- C32: after any history, let `is` be any number of further cycles without reset in which port `p`
keeps requesting. Then among any `PORTS` successive choices the arbiter makes, one is `p`: at most
`PORTS - 1` grants go to other ports first. -/
theorem C32_no_starvation (c : ArbCfg) (hrr : c.roundRobin = true) (before is : List ArbIn) (p : Nat)
    (hp : p < c.ports) (hr : ∀ i ∈ is, i.rst = false ∧ i.request.testBit p = true)
    (hn : c.ports ≤ (choices c (arbRun c {} before) is).length) :
    p ∈ (choices c (arbRun c {} before) is).take c.ports := by
  obtain ⟨m, hm⟩ := mask_run c hrr (by omega) before {} (mask_init c)
  have hk := rank_le c _ p m hp hm
  have := choices_rank c hrr is _ p m hp hm hr (by omega)
  exact List.mem_of_mem_take (i := rank c p m) (by
    rw [List.take_take, Nat.min_eq_left (by omega)]; exact this)

/-- C32: an arbiter that is not held back chooses in every cycle in which some port requests, so the
bound on choices is a bound on such cycles. -/
theorem C32_choices (c : ArbCfg) (hp : 0 < c.ports) (s : Arb) (is : List ArbIn) (p : Nat)
    (hp' : p < c.ports) (hr : ∀ i ∈ is, i.rst = false ∧ i.request.testBit p = true)
    (hb : c.block = false) : (choices c s is).length = is.length := by
  induction is generalizing s with
  | nil => rfl
  | cons i is ih =>
    obtain ⟨h1, h2⟩ := hr i List.mem_cons_self
    have hh : arbHold c s i = false := by simp [arbHold, hb]
    have hs : arbStep c s i = arbChoose c s i := by simp [arbStep, h1, hh]
    have hv : (arbChoose c s i).valid = true := by
      rcases choose_cases c hp s i with ⟨h, -⟩ | ⟨-, -, k, -, e⟩ | ⟨-, -, k, -, e⟩
      · rw [h p hp'] at h2; simp at h2
      · rw [e]
      · rw [e]
    simp only [choices, h1, hh, hs, hv, Bool.not_false, Bool.and_true, if_true, List.length_append,
      List.length_cons, List.length_nil]
    rw [ih _ (fun j hj => hr j (List.mem_cons_of_mem _ hj))]
    omega

example : choices ⟨3, true, false, false, true⟩ {} (List.replicate 5 ⟨false, 0b111, 0⟩) = [0, 1, 2, 0, 1] := by
  decide
example : choices ⟨3, true, false, false, false⟩ {} (List.replicate 5 ⟨false, 0b101, 0⟩) = [2, 0, 2, 0, 2] := by
  decide
/-- Without round robin, port 0 starves. -/
example : choices ⟨2, false, false, false, false⟩ {} (List.replicate 4 ⟨false, 0b11, 0⟩) = [1, 1, 1, 1] := by
  decide

end Verif.Props
