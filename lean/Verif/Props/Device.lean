import Verif.Proofs.Device
/-! Properties of devices: function numbers and configuration requests. -/
namespace Verif.Props
open Verif Verif.Model Verif.Proofs

/-- The two ways to add a function to a device. -/
inductive AddOp where
  | add (f : Func)
  | append (f : Func)

/-- Perform a sequence of additions, starting from a device without functions. -/
def addAll (d : Device) : List AddOp → Option Device
  | [] => some d
  | .add f :: ops => (d.addFunction f).bind (addAll · ops)
  | .append f :: ops => (d.appendFunction f).bind (addAll · ops)

/-- The function numbers of a device. -/
def numbers (d : Device) : List Nat := d.functions.map Func.num

theorem addAll_numbers (ops : List AddOp) (d d' : Device) (h8 : ∀ f, AddOp.add f ∈ ops → f.num < 8)
    (h : addAll d ops = some d') (hs : d.functions.Pairwise fun a b => a.num < b.num)
    (hd : ∀ n ∈ numbers d, n < 8) :
    d'.functions.Pairwise (fun a b => a.num < b.num) ∧ (∀ n ∈ numbers d', n < 8) := by
  have key : ∀ (d d' : Device) (f : Func), f.num < 8 → d.addFunction f = some d' →
      (d.functions.Pairwise fun a b => a.num < b.num) → (∀ n ∈ numbers d, n < 8) →
      (d'.functions.Pairwise fun a b => a.num < b.num) ∧ ∀ n ∈ numbers d', n < 8 := by
    intro d d' f hf h hs hd
    obtain ⟨h1, h2, h3, -⟩ := addFunction_nums d d' f h
    have hn : (numbers d').Nodup := by
      refine h2.nodup_iff.2 (List.nodup_cons.2 ⟨?_, ?_⟩)
      · intro hm
        obtain ⟨g, hg, e⟩ := List.mem_map.1 hm
        exact h1 g hg e
      · rw [List.Nodup, List.pairwise_map]
        exact hs.imp fun h => by omega
    rw [numbers, List.Nodup, List.pairwise_map] at hn
    refine ⟨(h3.and hn).imp fun ⟨a, b⟩ => by omega, fun n hn => ?_⟩
    rcases List.mem_cons.1 (h2.mem_iff.1 hn) with rfl | hn
    · exact hf
    · exact hd n hn
  induction ops generalizing d with
  | nil => cases h; exact ⟨hs, hd⟩
  | cons op ops ih =>
    cases op with
    | add f =>
      rw [addAll] at h
      cases he : d.addFunction f with
      | none => rw [he] at h; cases h
      | some e =>
        rw [he] at h
        obtain ⟨a, b⟩ := key d e f (h8 f (by simp)) he hs hd
        exact ih e (fun g hg => h8 g (by simp [hg])) h a b
    | append f =>
      rw [addAll] at h
      cases he : d.appendFunction f with
      | none => rw [he] at h; cases h
      | some e =>
        rw [he] at h
        have hspec := nextFreeFunction_spec d.functions
          (by rw [List.Nodup, List.pairwise_map]; exact hs.imp fun h => by omega)
          (fun f hf => hd _ (List.mem_map.2 ⟨f, hf, rfl⟩))
        unfold Device.appendFunction at he
        cases hn : nextFreeFunction d.functions with
        | none => rw [hn] at he; cases he
        | some n =>
          rw [hn] at he hspec
          obtain ⟨a, b⟩ := key d e { f with id := { f.id with function := n } } hspec.1 he hs hd
          exact ih e (fun g hg => h8 g (by simp [hg])) h a b

/-- C24: after any sequence of additions the function numbers are in ascending order without
duplicates, and below 8. Missing from C24: numbers chosen by the caller of `add_function` must be
below 8, which `add_function` does not check (`C24_range_fails`). -/
theorem C24_numbers_partial (ops : List AddOp) (d : Device) (h8 : ∀ f, AddOp.add f ∈ ops → f.num < 8)
    (h : addAll {} ops = some d) : (numbers d).Pairwise (· < ·) ∧ ∀ n ∈ numbers d, n < 8 := by
  obtain ⟨a, b⟩ := addAll_numbers ops {} d h8 h .nil (by simp [numbers])
  exact ⟨by rw [numbers, List.pairwise_map]; exact a, b⟩

/-- Function 5, then three appended functions, then function 3 explicitly. -/
example : (addAll {} [.add { id := ⟨0, 0, 5⟩ }, .append {}, .append {}, .append {}, .add { id := ⟨0, 0, 3⟩ }]).map numbers
    = some [0, 1, 2, 3, 5] := by decide +kernel

/-- C24: `add_function` accepts function numbers that do not exist in PCI Express. -/
theorem C24_range_fails : ∃ d, addAll {} [.add { id := ⟨0, 0, 8⟩ }] = some d ∧ 8 ∈ numbers d :=
  ⟨_, rfl, by decide⟩

/-- C24: `append_function` gives the function the smallest number not in use, and fails only
if all eight are in use. -/
theorem C24_append (ops : List AddOp) (d : Device) (h8 : ∀ f, AddOp.add f ∈ ops → f.num < 8)
    (h : addAll {} ops = some d) (f : Func) :
    match d.appendFunction f with
    | some d' => ∃ n, n ∉ numbers d ∧ (∀ k < n, k ∈ numbers d) ∧ (numbers d').Perm (n :: numbers d)
    | none => ∀ k < 8, k ∈ numbers d := by
  obtain ⟨hs, hd⟩ := addAll_numbers ops {} d h8 h .nil (by simp [numbers])
  have hspec := nextFreeFunction_spec d.functions
    (by rw [List.Nodup, List.pairwise_map]; exact hs.imp fun h => by omega)
    (fun f hf => hd _ (List.mem_map.2 ⟨f, hf, rfl⟩))
  have hmem : ∀ k, (∃ f ∈ d.functions, f.num = k) → k ∈ numbers d := fun k ⟨f, hf, e⟩ => List.mem_map.2 ⟨f, hf, e⟩
  have hmem' : ∀ k, k ∈ numbers d → ∃ f ∈ d.functions, f.num = k := fun k h => List.mem_map.1 h
  split
  · rename_i d' he
    unfold Device.appendFunction at he
    cases hn : nextFreeFunction d.functions with
    | none => rw [hn] at he; cases he
    | some n =>
      rw [hn] at he hspec
      have := addFunction_nums d d' _ he
      refine ⟨n, fun hm => ?_, fun k hk => hmem k (hspec.2.2 k hk), this.2.1⟩
      obtain ⟨g, hg, e⟩ := hmem' n hm
      exact hspec.2.1 g hg e
  · rename_i he
    unfold Device.appendFunction at he
    cases hn : nextFreeFunction d.functions with
    | none =>
      rw [hn] at hspec
      exact fun k hk => hmem k (hspec k hk)
    | some n =>
      rw [hn] at he hspec
      exfalso
      simp only [Option.bind_eq_bind, Option.bind_some, Device.addFunction] at he
      split at he
      · rename_i hany
        obtain ⟨g, hg, e⟩ := List.any_eq_true.1 hany
        exact hspec.2.1 g hg (by simpa [Func.num] using e)
      · cases he

example : ∃ d, addAll {} [.add { id := ⟨0, 0, 5⟩ }, .append {}] = some d ∧ numbers d = [0, 5] := ⟨_, rfl, by decide⟩

/-- The configuration spaces of a device by function number. -/
def spaces (d : Device) : List (Nat × ConfigState) := d.functions.map fun f => (f.num, f.cfg)

/-- The fields every answer to request `t` carries, and its completer. -/
def answers (t cpl : Tlp) (completer : PcieId) : Prop :=
  cpl.requester_id = t.requester_id ∧ cpl.tag = t.tag ∧ cpl.tc = t.tc ∧ cpl.attr = t.attr ∧
    cpl.completer_id = completer

theorem configSplit (d : Device) (f : Func) (hf : f ∈ d.functions) (hn : (numbers d).Nodup) :
    ∃ pre post, d.functions = pre ++ f :: post ∧ (∀ g ∈ pre, g.num ≠ f.num) ∧ (∀ g ∈ post, g.num ≠ f.num) := by
  obtain ⟨pre, post, e⟩ := List.append_of_mem hf
  rw [numbers, e, List.map_append, List.map_cons, List.nodup_append] at hn
  refine ⟨pre, post, e, fun g hg h => ?_, fun g hg h => ?_⟩
  · exact hn.2.2 g.num (List.mem_map.2 ⟨g, hg, rfl⟩) f.num (by simp) h
  · have := (List.nodup_cons.1 hn.2.1).1
    exact this (List.mem_map.2 ⟨g, hg, h⟩)

/-- C24: a configuration read for an existing function is answered by exactly that function, with
the register's value, and changes no configuration space. -/
theorem C24_config_read (d : Device) (f : Func) (hf : f ∈ d.functions) (hn : (numbers d).Nodup)
    (hdev : f.id.device = d.device_num) (t : Tlp) (hc : t.check = true) (ht : t.fmt_type = TLP_CFG_READ_0)
    (h1 : t.dest_id.device = d.device_num) (h2 : t.dest_id.function = f.num) (v : Nat)
    (hv : readConfig f.cfg t.register_number = some v) :
    ∃ d' cpl, d.recv t = some (d', [.reply cpl]) ∧ spaces d' = spaces d ∧ d'.bus_num = t.dest_id.bus ∧
      cpl.fmt_type = TLP_CPL_DATA ∧ cpl.status = CPL_STATUS_SC ∧ cpl.data = [v] ∧ cpl.length = 1 ∧
      cpl.byte_count = 4 ∧ answers t cpl t.dest_id := by
  obtain ⟨pre, post, e, hpre, -⟩ := configSplit d f hf hn
  refine ⟨_, _, device_config_read d pre post f e hpre hdev t hc ht h1 h2 v hv, ?_⟩
  exact ⟨by simp [spaces, Func.num, onBus], rfl, rfl, rfl, rfl, rfl, rfl, rfl, rfl, rfl, rfl, rfl⟩

/-- C24: a configuration write for an existing function is answered by exactly that function and
changes no other function's configuration space. -/
theorem C24_config_write (d : Device) (f : Func) (hf : f ∈ d.functions) (hn : (numbers d).Nodup)
    (hdev : f.id.device = d.device_num) (t : Tlp) (hc : t.check = true) (ht : t.fmt_type = TLP_CFG_WRITE_0)
    (h1 : t.dest_id.device = d.device_num) (h2 : t.dest_id.function = f.num) (w : Nat) (hw : t.data = [w])
    (c : ConfigState) (hv : writeConfig f.cfg t.register_number w t.first_be = some c) :
    ∃ d' cpl, d.recv t = some (d', [.reply cpl]) ∧
      spaces d' = (spaces d).map (fun x => (x.1, if x.1 = f.num then c else x.2)) ∧ d'.bus_num = t.dest_id.bus ∧
      cpl.fmt_type = TLP_CPL ∧ cpl.status = CPL_STATUS_SC ∧ answers t cpl t.dest_id := by
  obtain ⟨pre, post, e, hpre, hpost⟩ := configSplit d f hf hn
  refine ⟨_, _, device_config_write d pre post f e hpre hdev t hc ht h1 h2 w hw c hv, ?_⟩
  refine ⟨?_, rfl, rfl, rfl, rfl, rfl, rfl, rfl, rfl⟩
  simp only [spaces, e, List.map_append, List.map_cons, List.map_map]
  refine congr (congrArg _ ?_) (congr (congrArg _ ?_) ?_)
  · exact List.map_congr_left fun g hg => by
      simp only [Function.comp_apply, onBus, Func.num, Prod.mk.injEq, true_and]; exact (if_neg (hpre g hg)).symm
  · simp [Func.num]
  · exact List.map_congr_left fun g hg => by
      simp only [Function.comp_apply, onBus, Func.num, Prod.mk.injEq, true_and]; exact (if_neg (hpost g hg)).symm

/-- C24: a configuration request for a device or function number that does not exist is answered
with an unsupported-request completion and changes no configuration space. -/
theorem C24_config_other (d : Device) (t : Tlp) (hc : t.check = true)
    (ht : t.fmt_type = TLP_CFG_READ_0 ∨ t.fmt_type = TLP_CFG_WRITE_0)
    (h : t.dest_id.device ≠ d.device_num ∨ t.dest_id.function ∉ numbers d) :
    ∃ d' cpl, d.recv t = some (d', [.reply cpl]) ∧ spaces d' = spaces d ∧
      cpl.fmt_type = TLP_CPL ∧ cpl.status = CPL_STATUS_UR ∧ answers t cpl ⟨d'.bus_num, d'.device_num, 0⟩ := by
  have hcfg : t.isCfg0 = true := by rcases ht with ht | ht <;> simp [Tlp.isCfg0, ht]
  by_cases h1 : t.dest_id.device = d.device_num
  · have h2 := h.resolve_left (fun h => h h1)
    refine ⟨_, _, device_config_other d t hc hcfg h1 (fun g hg e => h2 (List.mem_map.2 ⟨g, hg, e⟩)), ?_⟩
    exact ⟨by simp [spaces, Func.num, onBus], rfl, rfl, rfl, rfl, rfl, rfl, rfl⟩
  · refine ⟨d, urCompletion t ⟨d.bus_num, d.device_num, 0⟩, ?_, rfl, rfl, rfl, rfl, rfl, rfl, rfl, rfl⟩
    unfold Device.recv
    rw [if_neg (by simp [hc]), if_pos hcfg, if_neg h1]

/-- A device with functions 0 and 1. -/
def exampleDevice : Device :=
  { functions := [{ id := ⟨0, 0, 0⟩, cfg := { vendor_id := 0x1234, device_id := 1 } },
      { id := ⟨0, 0, 1⟩, cfg := { vendor_id := 0x1234, device_id := 2 } }] }

/-- A configuration read of register 0 of function `f` on bus 7. -/
def exampleConfigRead (f : Nat) : Tlp :=
  { fmt := 0, type := 4, length := 1, first_be := 15, dest_id := ⟨7, 0, f⟩, tag := 3 }

example : ∃ d' cpl, exampleDevice.recv (exampleConfigRead 1) = some (d', [.reply cpl]) ∧ cpl.data = [0x21234] ∧
    d'.bus_num = 7 := by
  obtain ⟨d', cpl, h1, _, h2, _, _, h3, _⟩ := C24_config_read exampleDevice
    { id := ⟨0, 0, 1⟩, cfg := { vendor_id := 0x1234, device_id := 2 } } (by simp [exampleDevice]) (by decide) rfl
    (exampleConfigRead 1) (by decide +kernel) (by decide) rfl rfl 0x21234 (by decide)
  exact ⟨d', cpl, h1, h3, h2⟩

example : ∃ d' cpl, exampleDevice.recv (exampleConfigRead 2) = some (d', [.reply cpl]) ∧ cpl.status = CPL_STATUS_UR := by
  obtain ⟨d', cpl, h1, _, _, h2, _⟩ := C24_config_other exampleDevice (exampleConfigRead 2) (by decide +kernel)
    (.inl (by decide)) (.inr (by decide))
  exact ⟨d', cpl, h1, h2⟩

end Verif.Props
