import Verif.Model.Fabric
/-! Function numbers of a device and configuration requests to its functions. -/
namespace Verif.Proofs
open Verif Verif.Model

/-! ### Sorting -/

theorem insertBy_perm {α} (key : α → Nat) (x : α) (l : List α) : (insertBy key x l).Perm (x :: l) := by
  induction l with
  | nil => exact .refl _
  | cons y ys ih =>
    rw [insertBy]
    split
    · exact .refl _
    · exact (ih.cons y).trans (.swap x y ys)

theorem sortBy_perm {α} (key : α → Nat) (l : List α) : (sortBy key l).Perm l := by
  induction l with
  | nil => exact .refl _
  | cons x xs ih => exact (insertBy_perm key x _).trans (ih.cons x)

theorem insertBy_sorted {α} (key : α → Nat) (x : α) (l : List α)
    (h : l.Pairwise fun a b => key a ≤ key b) : (insertBy key x l).Pairwise fun a b => key a ≤ key b := by
  induction l with
  | nil => simp [insertBy]
  | cons y ys ih =>
    rw [List.pairwise_cons] at h
    rw [insertBy]
    split
    · rename_i hle
      rw [List.pairwise_cons]
      refine ⟨?_, List.pairwise_cons.2 h⟩
      intro b hb
      rcases List.mem_cons.1 hb with rfl | hb
      · exact hle
      · exact Nat.le_trans hle (h.1 b hb)
    · rename_i hle
      rw [List.pairwise_cons]
      refine ⟨?_, ih h.2⟩
      intro b hb
      rcases List.mem_cons.1 ((insertBy_perm key x ys).mem_iff.1 hb) with rfl | hb
      · omega
      · exact h.1 b hb

theorem sortBy_sorted {α} (key : α → Nat) (l : List α) :
    (sortBy key l).Pairwise fun a b => key a ≤ key b := by
  induction l with
  | nil => exact .nil
  | cons x xs ih => exact insertBy_sorted key x _ ih

theorem sortBy_length {α} (key : α → Nat) (l : List α) : (sortBy key l).length = l.length :=
  (sortBy_perm key l).length_eq

/-- Sorted with distinct keys is strictly sorted. -/
theorem sortBy_strict {α} (key : α → Nat) (l : List α) (h : (l.map key).Nodup) :
    (sortBy key l).Pairwise fun a b => key a < key b := by
  have h1 := sortBy_sorted key l
  have h2 : ((sortBy key l).map key).Nodup := ((sortBy_perm key l).map key).nodup_iff.2 h
  rw [List.Nodup, List.pairwise_map] at h2
  exact (h1.and h2).imp fun ⟨a, b⟩ => by omega

theorem strict_length {α} (key : α → Nat) (x n : Nat) (l : List α) (hs : l.Pairwise fun a b => key a < key b)
    (hx : ∀ a ∈ l, x ≤ key a) (hn : ∀ a ∈ l, key a < n) : l = [] ∨ x + l.length ≤ n := by
  induction l generalizing x with
  | nil => exact .inl rfl
  | cons a l ih =>
    rw [List.pairwise_cons] at hs
    have h1 := hx a (by simp)
    have h2 := hn a (by simp)
    right
    rcases ih (x + 1) hs.2 (fun b hb => by have := hs.1 b hb; omega) (fun b hb => hn b (by simp [hb])) with rfl | h
    · simp; omega
    · simp; omega

/-! ### Function numbers -/

theorem firstGap_spec (x : Nat) (fs : List Func) (hs : fs.Pairwise fun a b => a.num < b.num)
    (hx : ∀ f ∈ fs, x ≤ f.num) :
    x ≤ firstGap x fs ∧ firstGap x fs ≤ x + fs.length ∧ (∀ f ∈ fs, f.num ≠ firstGap x fs) ∧
      (∀ k, x ≤ k → k < firstGap x fs → ∃ f ∈ fs, f.num = k) := by
  induction fs generalizing x with
  | nil => simp [firstGap]
  | cons f fs ih =>
    rw [List.pairwise_cons] at hs
    rw [firstGap]
    split
    · rename_i hne
      have := hx f (by simp)
      refine ⟨by omega, by omega, ?_, by intros; omega⟩
      intro g hg
      rcases List.mem_cons.1 hg with rfl | hg
      · exact hne
      · have := hs.1 g hg; omega
    · rename_i he
      have he : f.num = x := Classical.byContradiction he
      obtain ⟨a, b, c, d⟩ := ih (x + 1) hs.2 (fun g hg => by have := hs.1 g hg; omega)
      refine ⟨by omega, by simp; omega, ?_, ?_⟩
      · intro g hg
        rcases List.mem_cons.1 hg with rfl | hg
        · omega
        · exact c g hg
      · intro k h1 h2
        by_cases hk : k = x
        · exact ⟨f, by simp, by omega⟩
        · obtain ⟨g, hg, e⟩ := d k (by omega) h2
          exact ⟨g, by simp [hg], e⟩

/-- The smallest number not in use, if below 8. -/
theorem nextFreeFunction_spec (fs : List Func) (hn : (fs.map Func.num).Nodup)
    (h8 : ∀ f ∈ fs, f.num < 8) :
    match nextFreeFunction fs with
    | some n => n < 8 ∧ (∀ f ∈ fs, f.num ≠ n) ∧ ∀ k < n, ∃ f ∈ fs, f.num = k
    | none => ∀ k < 8, ∃ f ∈ fs, f.num = k := by
  have hs := sortBy_strict Func.num fs hn
  obtain ⟨_, h2, h3, h4⟩ := firstGap_spec 0 (sortBy Func.num fs) hs (by simp)
  have hm : ∀ f, f ∈ sortBy Func.num fs ↔ f ∈ fs := fun f => (sortBy_perm _ _).mem_iff
  simp only [hm] at h3 h4
  have hlen := sortBy_length Func.num fs
  -- at most eight functions
  have hle : fs.length ≤ 8 := by
    have := strict_length Func.num 0 8 (sortBy Func.num fs) hs (by simp)
      (fun f hf => h8 f ((hm f).1 hf))
    rcases this with h | h
    · rw [h] at hlen; simp at hlen; omega
    · omega
  unfold nextFreeFunction
  simp only
  split
  · rename_i n hsome
    split at hsome
    · cases hsome
      exact ⟨by omega, h3, fun k hk => h4 k (by omega) hk⟩
    · split at hsome
      · cases hsome
        have : firstGap 0 (sortBy Func.num fs) = (sortBy Func.num fs).length := by omega
        rw [this] at h3 h4
        exact ⟨by omega, h3, fun k hk => h4 k (by omega) hk⟩
      · cases hsome
  · rename_i hnone
    split at hnone
    · cases hnone
    · split at hnone
      · cases hnone
      · intro k hk
        exact h4 k (by omega) (by omega)

/-- Numbers used by a device. -/
theorem addFunction_nums (d d' : Device) (f : Func) (h : d.addFunction f = some d') :
    (∀ g ∈ d.functions, g.num ≠ f.num) ∧
      (d'.functions.map Func.num).Perm (f.num :: d.functions.map Func.num) ∧
      d'.functions.Pairwise (fun a b => a.num ≤ b.num) ∧
      d'.functions.length = d.functions.length + 1 := by
  unfold Device.addFunction at h
  split at h
  · cases h
  · rename_i hany
    have hs := sortBy_sorted Func.num (d.functions ++ [f])
    have hp := (sortBy_perm Func.num (d.functions ++ [f])).map Func.num
    have hl := sortBy_length Func.num (d.functions ++ [f])
    have hp2 : ((d.functions ++ [f]).map Func.num).Perm (f.num :: d.functions.map Func.num) := by
      rw [List.map_append]
      exact List.perm_append_comm
    refine ⟨?_, ?_⟩
    · intro g hg e
      exact hany (List.any_eq_true.2 ⟨g, hg, by simp [e]⟩)
    · cases h
      dsimp only
      split
      · refine ⟨?_, ?_, ?_⟩
        · rw [List.map_map]
          exact (show List.Perm _ _ from hp).trans hp2
        · rw [List.pairwise_map]
          exact hs
        · simpa using hl
      · exact ⟨hp.trans hp2, hs, by simpa using hl⟩

/-! ### Configuration requests -/

/-- Only the addressed function is involved. -/
theorem configFunction_at (n : Nat) (t : Tlp) (pre post : List Func) (f : Func) (hf : f.num = n)
    (hpre : ∀ g ∈ pre, g.num ≠ n) :
    configFunction n t (pre ++ f :: post) =
      (handleConfig0 f.id f.cfg readConfig writeConfig t).map fun (id, cfg, cpls) =>
        some (pre ++ { id := id, cfg := cfg } :: post, cpls) := by
  induction pre with
  | nil =>
    rw [List.nil_append, configFunction, if_pos hf]
    cases handleConfig0 f.id f.cfg readConfig writeConfig t <;> rfl
  | cons g pre ih =>
    rw [List.cons_append, configFunction, if_neg (hpre g (by simp)),
      ih (fun x hx => hpre x (by simp [hx]))]
    cases handleConfig0 f.id f.cfg readConfig writeConfig t <;> rfl

theorem configFunction_none (n : Nat) (t : Tlp) (fs : List Func) (h : ∀ g ∈ fs, g.num ≠ n) :
    configFunction n t fs = some none := by
  induction fs with
  | nil => rfl
  | cons g fs ih =>
    rw [configFunction, if_neg (h g (by simp)), ih (fun x hx => h x (by simp [hx]))]
    rfl

/-- The function after its bus number has been captured. -/
def onBus (bus : Nat) (f : Func) : Func := { f with id := { f.id with bus := bus } }

/-- The completion of a configuration read. -/
def cfgReadCpl (t : Tlp) (v : Nat) : Tlp :=
  { ({} : Tlp).setCompletionData t t.dest_id with data := [v], byte_count := 4, length := 1 }

theorem device_config_read (d : Device) (pre post : List Func) (f : Func) (e : d.functions = pre ++ f :: post)
    (hpre : ∀ g ∈ pre, g.num ≠ f.num) (hdev : f.id.device = d.device_num) (t : Tlp) (hc : t.check = true)
    (ht : t.fmt_type = TLP_CFG_READ_0) (h1 : t.dest_id.device = d.device_num) (h2 : t.dest_id.function = f.num)
    (v : Nat) (hv : readConfig f.cfg t.register_number = some v) :
    d.recv t = some ({ d with bus_num := t.dest_id.bus, functions := d.functions.map (onBus t.dest_id.bus) },
      [.reply (cfgReadCpl t v)]) := by
  have hid : (⟨t.dest_id.bus, f.id.device, f.id.function⟩ : PcieId) = t.dest_id := by
    have : t.dest_id.function = f.id.function := h2
    rw [hdev, ← h1, ← this]
  unfold Device.recv
  rw [if_neg (by simp [hc]), if_pos (by simp [Tlp.isCfg0, ht]), if_pos h1]
  dsimp only
  rw [e, List.map_append, List.map_cons, configFunction_at _ t _ _ _ (by exact h2.symm)
    (by intro g hg; obtain ⟨g', hg', rfl⟩ := List.mem_map.1 hg; rw [h2]; exact hpre g' hg')]
  dsimp only
  rw [handleConfig0]
  dsimp only
  rw [if_pos ⟨by rw [h1, hdev], h2⟩, if_pos ht, hv]
  have hcpl : cfgReadCpl t v = { ({} : Tlp).setCompletionData t ⟨t.dest_id.bus, f.id.device, f.id.function⟩ with
      data := [v], byte_count := 4, length := 1 } := by rw [cfgReadCpl, hid]
  rw [hcpl]
  simp only [Option.bind_eq_bind, Option.bind_some, Option.map_some, List.map_append, List.map_cons, List.map_nil]
  rfl

theorem device_config_write (d : Device) (pre post : List Func) (f : Func) (e : d.functions = pre ++ f :: post)
    (hpre : ∀ g ∈ pre, g.num ≠ f.num) (hdev : f.id.device = d.device_num) (t : Tlp) (hc : t.check = true)
    (ht : t.fmt_type = TLP_CFG_WRITE_0) (h1 : t.dest_id.device = d.device_num) (h2 : t.dest_id.function = f.num)
    (w : Nat) (hw : t.data = [w]) (c : ConfigState)
    (hv : writeConfig f.cfg t.register_number w t.first_be = some c) :
    d.recv t = some ({ d with
        bus_num := t.dest_id.bus
        functions := pre.map (onBus t.dest_id.bus) ++ ⟨{ f.id with bus := t.dest_id.bus }, c⟩ :: post.map (onBus t.dest_id.bus) },
      [.reply (({} : Tlp).setCompletion t t.dest_id)]) := by
  have hid : (⟨t.dest_id.bus, f.id.device, f.id.function⟩ : PcieId) = t.dest_id := by
    have : t.dest_id.function = f.id.function := h2
    rw [hdev, ← h1, ← this]
  unfold Device.recv
  rw [if_neg (by simp [hc]), if_pos (by simp [Tlp.isCfg0, ht]), if_pos h1]
  dsimp only
  rw [e, List.map_append, List.map_cons, configFunction_at _ t _ _ _ (by exact h2.symm)
    (by intro g hg; obtain ⟨g', hg', rfl⟩ := List.mem_map.1 hg; rw [h2]; exact hpre g' hg')]
  dsimp only
  rw [handleConfig0]
  dsimp only
  rw [if_pos ⟨by rw [h1, hdev], h2⟩, if_neg (by rw [ht]; decide), hw]
  simp only [List.getElem?_cons_zero, Option.bind_eq_bind, Option.bind_some, hv, Option.map_some]
  have hcpl : ({} : Tlp).setCompletion t t.dest_id =
    ({} : Tlp).setCompletion t ⟨t.dest_id.bus, f.id.device, f.id.function⟩ := by rw [hid]
  rw [hcpl]
  rfl

theorem device_config_other (d : Device) (t : Tlp) (hc : t.check = true) (hcfg : t.isCfg0 = true)
    (h1 : t.dest_id.device = d.device_num) (h2 : ∀ g ∈ d.functions, g.num ≠ t.dest_id.function) :
    d.recv t = some ({ d with bus_num := t.dest_id.bus, functions := d.functions.map (onBus t.dest_id.bus) },
      [.reply (urCompletion t ⟨t.dest_id.bus, d.device_num, 0⟩)]) := by
  unfold Device.recv
  rw [if_neg (by simp [hc]), if_pos hcfg, if_pos h1]
  dsimp only
  rw [configFunction_none _ t _ (by
    intro g hg e
    obtain ⟨g', hg', rfl⟩ := List.mem_map.1 hg
    exact h2 g' hg' e)]
  rfl

end Verif.Proofs
