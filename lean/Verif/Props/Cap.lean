import Verif.Proofs.Cap
/-!
C15: capabilities never overlap. C16: walking the capability chain through configuration reads.
-/
namespace Verif.Props
open Verif.Model Verif.Spec Verif.Proofs

/-- Example registrations: MSI (id 5, 4 registers), power management (id 1, 2 registers), PCIe
(id 0x10, 16 registers) at an explicit register that evicts power management, MSI again. -/
def exampleRegs : List CapArgs :=
  [⟨5, none, 4, some 0, some 0, 0⟩, ⟨1, none, 2, some 1, some 1, 0⟩,
   ⟨0x10, none, 16, some 2, some 2, 0x12⟩, ⟨5, none, 0, none, none, 0⟩]

/-- The resulting list. -/
def exampleCaps : List Cap :=
  [⟨1, none, 2, some 1, some 1, 0x10, some 0x48⟩, ⟨0x10, none, 16, some 2, some 2, 0x12, some 0x88⟩,
   ⟨5, none, 4, some 0, some 0, 0x22, some 0⟩]

/-- C15, failure: with automatic placement two capabilities of length 1 are put at the same
register, and a capability is placed over the first register of an existing one. -/
theorem C15_cap_disjoint_fails :
    (∃ l, registerCaps capStart [] [⟨1, none, 1, some 0, some 0, 0⟩, ⟨2, none, 1, some 0, some 0, 0⟩] = some l ∧
      ¬ DisjointCaps l) ∧
    (∃ l, registerCaps capStart [] [⟨1, none, 2, some 0, some 0, 0x13⟩, ⟨2, none, 4, some 0, some 0, 0⟩] = some l ∧
      ¬ DisjointCaps l) := by
  refine ⟨⟨[⟨1, none, 1, some 0, some 0, 0x10, some 0x40⟩, ⟨2, none, 1, some 0, some 0, 0x10, some 0⟩],
      by decide +kernel, ?_⟩,
    ⟨[⟨2, none, 4, some 0, some 0, 0x10, some 0x4c⟩, ⟨1, none, 2, some 0, some 0, 0x13, some 0⟩],
      by decide +kernel, ?_⟩⟩
  · intro h
    rw [DisjointCaps, List.pairwise_iff_getElem] at h
    exact h 0 1 (by decide) (by decide) (by decide) 0x10 (by simp [InCap])
  · intro h
    rw [DisjointCaps, List.pairwise_iff_getElem] at h
    exact h 0 1 (by decide) (by decide) (by decide) 0x13 (by simp [InCap])

/-- C15 for even lengths and even requested offsets: after any sequence of registrations —
automatic, explicit, evicting others, re-registering — no register belongs to two capabilities,
and the identifiers in the list are exactly the registered ones, each once. Missing: odd lengths
and offsets, where the property is false. -/
theorem C15_cap_disjoint_partial (start : Nat) (hstart : 0 < start ∧ start % 2 = 0) (args : List CapArgs)
    (h : ∀ a ∈ args, a.length % 2 = 0 ∧ a.offset % 2 = 0) (l : List Cap)
    (hl : registerCaps start [] args = some l) :
    DisjointCaps l ∧ (l.map (·.cap_id)).Nodup ∧
    ∀ i, i ∈ l.map (·.cap_id) ↔ i ∈ args.map (·.cap_id) := by
  obtain ⟨h1, _, h3, _⟩ := registerCaps_even start hstart args [] l ⟨by simp, List.Pairwise.nil, by simp⟩
    (by intro c hc; cases hc) h hl
  exact ⟨disjoint_of_inv h1, h1.ids, by intro i; rw [h3]; simp⟩

example : registerCaps capStart [] exampleRegs = some exampleCaps ∧
    ∀ a ∈ exampleRegs, a.length % 2 = 0 ∧ a.offset % 2 = 0 := ⟨by decide +kernel, by decide⟩

/-- C15 for automatic placement: registering distinct capabilities of at least two registers
without offsets always succeeds, in order, from the first register on and without gaps, so
nothing overlaps. Missing: length-1 capabilities (see the failure). -/
theorem C15_cap_auto_partial (start : Nat) (hstart : 0 < start) (args : List CapArgs)
    (hid : (args.map (·.cap_id)).Nodup)
    (h : ∀ a ∈ args, a.offset = 0 ∧ 2 ≤ a.length ∧ a.read ≠ none ∧ a.write ≠ none) :
    ∃ l, registerCaps start [] args = some l ∧ DisjointCaps l ∧
      l.map (fun c => (c.cap_id, c.length)) = args.map (fun a => (a.cap_id, a.length)) ∧
      ∀ i : Nat, ∀ hi : i < l.length, l[i].offset = start + ((args.take i).map (·.length)).sum := by
  obtain ⟨l, h1, h2, h3, h4, h5⟩ := registerCaps_auto start hstart args [] ⟨by simp, List.Pairwise.nil, by simp⟩
    trivial (by simpa using hid) h
  simp only [List.map_nil, List.nil_append] at h4
  refine ⟨l, h1, disjoint_of_inv h2, h4, ?_⟩
  clear h1 h2 h hid hstart h5
  induction l generalizing start args with
  | nil => intro i hi; simp at hi
  | cons c l ih =>
    cases args with
    | nil => simp at h4
    | cons a args =>
      simp only [List.map_cons, List.cons.injEq, Prod.mk.injEq] at h4
      intro i hi
      cases i with
      | zero => simpa using h3.1
      | succ i =>
        have := ih (start + c.length) args h3.2 h4.2 i (by simpa using hi)
        simp only [List.getElem_cons_succ, List.take_succ_cons, List.map_cons, List.sum_cons]
        rw [this, h4.1.2]; omega

example : (registerCaps capStart [] [⟨5, none, 6, some 0, some 0, 0⟩, ⟨1, none, 2, some 0, some 0, 0⟩,
    ⟨0x11, none, 3, some 0, some 0, 0⟩]).map (·.map (·.offset)) = some [0x10, 0x16, 0x18] := by
  decide +kernel

/-- C16, failure: with a single capability registered, reading its header raises. -/
theorem C16_cap_chain_fails :
    ∃ l, registerCaps capStart [] [⟨1, none, 2, some 0, some 0, 0⟩] = some l ∧
      capPtr l = 0x40 ∧ ∀ cb, readCapRegister cb l 0x10 = none := by
  refine ⟨[⟨1, none, 2, some 0, some 0, 0x10, none⟩], by decide +kernel, rfl, fun cb => ?_⟩
  show (cb 0 0).bind (fun _ => none) = none
  cases cb 0 0 <;> rfl

/-- C16 with at least two capabilities, all in configuration space: after any sequence of
registrations (even sizes and offsets, see C15), walking from the capability pointer through
configuration reads terminates, visits every capability exactly once in increasing register
order, reading its ID, and every register of a capability is routed to that capability.
Missing: lists with a single capability, which fail. -/
theorem C16_cap_chain_partial (start : Nat) (hstart : 0 < start ∧ start % 2 = 0) (args : List CapArgs)
    (h : ∀ a ∈ args, a.length % 2 = 0 ∧ a.offset % 2 = 0) (l : List Cap)
    (hl : registerCaps start [] args = some l) (h2 : 2 ≤ l.length)
    (hspace : ∀ c ∈ l, c.offset < 64 ∧ c.cap_id < 256) (cb : Nat → Nat → Option Nat)
    (hcb : ∀ c ∈ l, cb (c.read.getD 0) 0 ≠ none) :
    Walk (readCapRegister cb l) (capPtr l) (l.map fun c => (c.offset, c.cap_id)) ∧
    (l.map (·.offset)).Pairwise (· < ·) ∧
    (∀ i, i ∈ l.map (·.cap_id) ↔ i ∈ args.map (·.cap_id)) ∧
    ∀ c ∈ l, ∀ r, c.offset < r → r < c.offset + c.length →
      readCapRegister cb l r = cb (c.read.getD 0) (r - c.offset) := by
  obtain ⟨h1, _, h3, h4⟩ := registerCaps_even start hstart args [] l ⟨by simp, List.Pairwise.nil, by simp⟩
    (by intro c hc; cases hc) h hl
  refine ⟨walk_caps cb l h1 hspace hcb l (fun _ h => h) (h4 (by simp) h2), ?_, by intro i; rw [h3]; simp, ?_⟩
  · rw [List.pairwise_map]
    refine h1.ord.imp_of_mem ?_
    intro a b ha hb hab
    have := (h1.pos a ha).1
    unfold Before at hab
    omega
  · intro c hc r hr1 hr2
    unfold readCapRegister
    rw [findByReg_of_mem (disjoint_of_inv h1) hc ⟨by omega, hr2⟩]
    simp only [Cap.readRegister]
    rw [if_neg (by omega)]

example : registerCaps capStart [] exampleRegs = some exampleCaps ∧ 2 ≤ exampleCaps.length ∧
    ∀ c ∈ exampleCaps, c.offset < 64 ∧ c.cap_id < 256 := by decide +kernel

/-- C16 for extended capabilities (identifier, version, 12-bit pointers), same restrictions. -/
theorem C16_ext_cap_chain_partial (start : Nat) (hstart : 0 < start ∧ start % 2 = 0) (args : List CapArgs)
    (h : ∀ a ∈ args, a.length % 2 = 0 ∧ a.offset % 2 = 0) (l : List Cap)
    (hl : registerCaps start [] args = some l) (h2 : 2 ≤ l.length)
    (hspace : ∀ c ∈ l, c.offset < 1024 ∧ c.cap_id < 65536 ∧ c.cap_ver ≠ none) (cb : Nat → Nat → Option Nat) :
    ExtWalk (readExtCapRegister cb l) (capPtr l) (l.map fun c => (c.offset, c.cap_id)) ∧
    (l.map (·.offset)).Pairwise (· < ·) ∧
    (∀ i, i ∈ l.map (·.cap_id) ↔ i ∈ args.map (·.cap_id)) ∧
    ∀ c ∈ l, ∀ r, c.offset < r → r < c.offset + c.length →
      readExtCapRegister cb l r = cb (c.read.getD 0) (r - c.offset) := by
  obtain ⟨h1, _, h3, h4⟩ := registerCaps_even start hstart args [] l ⟨by simp, List.Pairwise.nil, by simp⟩
    (by intro c hc; cases hc) h hl
  refine ⟨walk_ext_caps cb l h1 hspace l (fun _ h => h) (h4 (by simp) h2), ?_, by intro i; rw [h3]; simp, ?_⟩
  · rw [List.pairwise_map]
    refine h1.ord.imp_of_mem ?_
    intro a b ha hb hab
    have := (h1.pos a ha).1
    unfold Before at hab
    omega
  · intro c hc r hr1 hr2
    unfold readExtCapRegister
    rw [findByReg_of_mem (disjoint_of_inv h1) hc ⟨by omega, hr2⟩]
    simp only [Cap.readExtRegister]
    rw [if_neg (by omega)]

example : registerCaps extCapStart [] [⟨1, some 2, 12, some 0, some 0, 0⟩, ⟨0x19, some 1, 4, some 1, some 1, 0⟩] =
    some [⟨1, some 2, 12, some 0, some 0, 0x40, some 0x130⟩, ⟨0x19, some 1, 4, some 1, some 1, 0x4c, some 0⟩] := by
  decide +kernel

end Verif.Props
