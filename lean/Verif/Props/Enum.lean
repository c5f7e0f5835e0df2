import Verif.Proofs.EnumTree
import Verif.Model.Root
/-!
Properties of bus enumeration: what `enumerate` reports in the device tree. They hold for any hardware
(`Bus σ`), however it answers the configuration requests, whenever enumeration completes.
-/
namespace Verif.Props
open Verif Verif.Model Verif.Spec Verif.Proofs

/-- First address available to enumeration in each address space. -/
def rootBase {σ : Type} (rc : Rc σ) : Space → Nat
  | .io => rc.io_base
  | .mem => rc.mem_base
  | .pref => rc.prefetchable_mem_base

theorem enumerate_post {σ : Type} (bus : Bus σ) (opts : EnumOpts) (rc rc' : Rc σ) (root : TreeItem)
    (hpos : ∀ sp, 0 < rootBase rc sp) (h : enumerate bus opts rc = some (root, rc')) :
    ∃ rc1 : Rc σ, limOf rc1 = rootBase rc ∧ SegPost rc1 0 {} root rc' := by
  have hp : Post (enumerate bus opts) rc fun root rc' =>
      ∃ rc1 : Rc σ, limOf rc1 = rootBase rc ∧ SegPost rc1 0 {} root rc' := by
    unfold enumerate
    refine Post.bind (Post.modify ?_)
    have e : limOf { rc with
        io_limit := rc.io_base
        mem_limit := rc.mem_base
        prefetchable_mem_limit := rc.prefetchable_mem_base } = rootBase rc := by
      funext sp; cases sp <;> rfl
    exact (enumSegment_post bus opts 257 0 {} _ (by decide) (by rw [e]; exact hpos)).mono fun _ _ h => ⟨_, e, h⟩
  exact hp _ _ h

/-- C21: all ranges assigned to BARs are pairwise disjoint; each is not empty, lies between the base
of its address space and the limit that the root complex ends up with, inside the window reported
for the root, and starts at a multiple of its size if the size is a power of two. -/
theorem C21_placement {σ : Type} (bus : Bus σ) (opts : EnumOpts) (rc rc' : Rc σ) (root : TreeItem)
    (hpos : ∀ sp, 0 < rootBase rc sp) (h : enumerate bus opts rc = some (root, rc')) :
    (windows root).Pairwise Win.disjoint ∧
    ∀ w ∈ windows root, 0 < w.size ∧ rootBase rc w.space ≤ w.base ∧
      w.inside root.info ∧
      w.base + w.size ≤ (match w.space with
        | .io => rc'.io_limit
        | .mem => rc'.mem_limit
        | .pref => rc'.prefetchable_mem_limit) ∧
      ∀ k, w.size = 2 ^ k → w.size ∣ w.base := by
  obtain ⟨rc1, e, ti, cs, rfl, -, -, -, how, -, hlo, hl, hhi, -⟩ := enumerate_post bus opts rc rc' root hpos h
  have hw : windows (.mk ti cs) = windowsBelow cs := by
    rw [windows, how, ownWindows_none _ rfl rfl, List.nil_append]
  rw [hw]
  have hl' := laidList_windows cs _ _ hl
  refine ⟨laidW_disjoint _ _ _ hl', fun w hm => ?_⟩
  obtain ⟨a, b, c, d⟩ := laidW_mem _ _ _ hl' w hm
  refine ⟨c, ?_, ⟨a, b⟩, ?_, d⟩
  · rw [← e]; exact Nat.le_trans (hlo _) a
  · rw [← hhi] at b
    cases hsp : w.space <;> rw [hsp] at b <;> exact b

/-- C21: for every bridge in the tree, the ranges of the BARs below it (on its secondary side) lie
inside the window reported for the bridge, all other BAR ranges lie outside of it, and the
window can be represented in the registers of a bridge. -/
theorem C21_bridge_windows {σ : Type} (bus : Bus σ) (opts : EnumOpts) (rc rc' : Rc σ) (root : TreeItem)
    (hpos : ∀ sp, 0 < rootBase rc sp) (h : enumerate bus opts rc = some (root, rc')) (n : TreeItem)
    (hn : n ∈ nodesBelow root.children) (hb : isBridge n) :
    WinAligned n.info ∧ ∃ pre post, windows root = pre ++ windowsBelow n.children ++ post ∧
      (∀ w ∈ windowsBelow n.children, w.inside n.info) ∧ ∀ w ∈ pre ++ post, w.outside n.info := by
  obtain ⟨rc1, e, ti, cs, rfl, -, -, -, how, -, hlo, hl, hhi, -⟩ := enumerate_post bus opts rc rc' root hpos h
  have hw : windows (.mk ti cs) = windowsBelow cs := by
    rw [windows, how, ownWindows_none _ rfl rfl, List.nil_append]
  rw [hw]
  obtain ⟨pre, post, h1, h2, h3, h4, h5⟩ := laidList_nested cs n _ _ hl hn hb
  refine ⟨h5, pre, post, h1, fun w hm => ?_, fun w hm => ?_⟩
  · obtain ⟨a, b, -⟩ := laidW_mem _ _ _ (laidList_windows _ _ _ h3) w hm
    exact ⟨a, b⟩
  · rcases List.mem_append.1 hm with hm | hm
    · exact Or.inl (laidW_mem _ _ _ h2 w hm).2.1
    · exact Or.inr (Or.inl (laidW_mem _ _ _ h4 w hm).1)

/-- C21: the windows of bridges are nested: a bridge's window lies within the window of the bridge (or
root) above it, and the windows of two bridges on the same bus have no address in common. -/
theorem C21_windows_nested {σ : Type} (bus : Bus σ) (opts : EnumOpts) (rc rc' : Rc σ) (root : TreeItem)
    (hpos : ∀ sp, 0 < rootBase rc sp) (h : enumerate bus opts rc = some (root, rc')) (p : TreeItem)
    (hp : p = root ∨ (p ∈ nodesBelow root.children ∧ isBridge p)) (sp : Space) :
    (∀ c ∈ p.children, isBridge c → winBase p.info sp ≤ winBase c.info sp ∧ winLimit c.info sp ≤ winLimit p.info sp) ∧
    ∀ pre a mid b post, p.children = pre ++ a :: mid ++ b :: post → isBridge a → isBridge b →
      winLimit a.info sp < winBase b.info sp := by
  obtain ⟨rc1, e, ti, cs, rfl, -, -, -, how, -, hlo, hl, hhi, -⟩ := enumerate_post bus opts rc rc' root hpos h
  have hpl : laidList (winBase p.info) (winEnd p.info) p.children := by
    rcases hp with rfl | ⟨hp, hb⟩
    · exact hl
    · obtain ⟨_, _, _, _, h3, _⟩ := laidList_nested cs p _ _ hl hp hb
      exact h3
  obtain ⟨h1, h2⟩ := laidList_siblings _ _ _ hpl
  constructor
  · intro c hc hb
    obtain ⟨a, b⟩ := h2 c hc hb
    have := b sp
    unfold winEnd at this
    exact ⟨a sp, by omega⟩
  · intro pre a mid b post hch ha hb
    rw [hch] at h1
    have ha' : (a.info.sec_bus_num != 0) = true := by simpa [isBridge] using ha
    have hb' : (b.info.sec_bus_num != 0) = true := by simpa [isBridge] using hb
    simp only [List.filter_append, List.filter_cons, ha', hb', if_true] at h1
    simp only [List.append_assoc, List.cons_append, List.pairwise_append, List.pairwise_cons] at h1
    have := h1.2.1.1 b (by simp) sp
    unfold winEnd at this
    omega

/-- C22: the bus numbers assigned, in order of discovery, are 0 (below the root), 1, 2, ... without
gaps or repetition, and at most 255. -/
theorem C22_unique {σ : Type} (bus : Bus σ) (opts : EnumOpts) (rc rc' : Rc σ) (root : TreeItem)
    (hpos : ∀ sp, 0 < rootBase rc sp) (h : enumerate bus opts rc = some (root, rc')) :
    buses true root = List.range (root.info.sub_bus_num + 1) ∧ root.info.sub_bus_num < 256 := by
  obtain ⟨rc1, e, ti, cs, rfl, -, -, -, -, h0, -, -, -, hb, -, -, -, h256⟩ := enumerate_post bus opts rc rc' root hpos h
  refine ⟨?_, h256⟩
  rw [buses, h0, (busList_buses cs _ _ _ hb).2]
  simp [TreeItem.info, List.range_eq_range', List.range'_succ]

/-- C22: the secondary to subordinate range of every bridge consists exactly of the buses at or below
its secondary side. -/
theorem C22_ranges {σ : Type} (bus : Bus σ) (opts : EnumOpts) (rc rc' : Rc σ) (root : TreeItem)
    (hpos : ∀ sp, 0 < rootBase rc sp) (h : enumerate bus opts rc = some (root, rc')) (n : TreeItem)
    (hn : n ∈ nodesBelow root.children) (hb : isBridge n) :
    n.info.bus_num < n.info.sec_bus_num ∧ n.info.sec_bus_num ≤ n.info.sub_bus_num ∧
    ∀ b, b ∈ buses false n ↔ n.info.sec_bus_num ≤ b ∧ b ≤ n.info.sub_bus_num := by
  obtain ⟨rc1, e, ti, cs, rfl, -, -, -, -, h0, -, -, -, hbl, -⟩ := enumerate_post bus opts rc rc' root hpos h
  have key : ∃ p l q, busItem p l q n ∧ p ≤ l := by
    clear h hb
    have : ∀ (cs : List TreeItem) (pri lo hi : Nat), pri ≤ lo → busList pri lo hi cs → n ∈ nodesBelow cs →
        ∃ p l q, busItem p l q n ∧ p ≤ l := by
      intro cs pri lo hi a b c
      exact busList_node_le cs n pri lo hi a b c
    exact this cs 0 0 _ (Nat.le_refl _) hbl hn
  obtain ⟨p, l, q, hi, hpl⟩ := key
  have hbu := busItem_buses n p l q hi
  have hpr := busItem_bus n p l q hi
  cases n with
  | mk ti' cs' =>
    rw [busItem] at hi
    rcases hi with ⟨_, ⟨h1, _⟩ | ⟨h1, h2, h3⟩⟩
    · exact absurd h1 hb
    · have hle := (busList_buses cs' _ _ _ h3).1
      simp only [TreeItem.info] at *
      refine ⟨by omega, by omega, fun b => ?_⟩
      rw [hbu.2, List.mem_range'_1]
      omega

/-- C22: sibling bridges have disjoint ranges. -/
theorem C22_siblings {σ : Type} (bus : Bus σ) (opts : EnumOpts) (rc rc' : Rc σ) (root : TreeItem)
    (hpos : ∀ sp, 0 < rootBase rc sp) (h : enumerate bus opts rc = some (root, rc')) (p : TreeItem)
    (hp : p ∈ nodes root) (pre mid post : List TreeItem) (a b : TreeItem)
    (hc : p.children = pre ++ a :: mid ++ b :: post) (ha : isBridge a) (hb : isBridge b) :
    a.info.sub_bus_num < b.info.sec_bus_num := by
  obtain ⟨rc1, e, ti, cs, rfl, -, -, -, -, h0, -, -, -, hbl, -⟩ := enumerate_post bus opts rc rc' root hpos h
  have hch : ∃ p' lo hi, busList p' lo hi p.children := by
    rw [nodes] at hp
    rcases List.mem_cons.1 hp with rfl | hp
    · exact ⟨_, _, _, hbl⟩
    · obtain ⟨q, l, r, h1, -⟩ := busList_node cs p _ _ _ hbl hp
      cases p with
      | mk ti' cs' =>
        rw [busItem] at h1
        rcases h1 with ⟨_, ⟨_, h2, _⟩ | ⟨_, _, h2⟩⟩
        · rw [TreeItem.children, h2] at hc; simp at hc
        · exact ⟨_, _, _, h2⟩
  obtain ⟨p', lo, hi, hch⟩ := hch
  rw [hc] at hch
  exact busList_siblings _ _ _ _ _ _ _ _ hch ha hb

/-- C22: every function is on the secondary bus of the bridge above it, and all functions have
different identifiers, none of which is that of the root complex (0:0.0). -/
theorem C22_identifiers {σ : Type} (bus : Bus σ) (opts : EnumOpts) (rc rc' : Rc σ) (root : TreeItem)
    (hpos : ∀ sp, 0 < rootBase rc sp) (h : enumerate bus opts rc = some (root, rc')) :
    (∀ p ∈ nodes root, ∀ c ∈ p.children, c.info.bus_num = p.info.sec_bus_num) ∧
    ((nodesBelow root.children).map (·.info.id)).Nodup ∧
    (∀ n ∈ nodesBelow root.children, n.info.device_num < 32 ∧ n.info.function_num < 8 ∧ n.info.id ≠ ⟨0, 0, 0⟩) := by
  obtain ⟨rc1, e, ti, cs, rfl, -, -, -, -, h0, -, -, -, hbl, hasc, h8, -⟩ := enumerate_post bus opts rc rc' root hpos h
  rw [ascItem] at hasc
  refine ⟨?_, ?_, ?_⟩
  · intro p hp c hc
    rw [nodes] at hp
    rcases List.mem_cons.1 hp with rfl | hp
    · rw [show (TreeItem.mk ti cs).info.sec_bus_num = 0 from h0]
      exact busList_bus cs _ _ _ hbl c hc
    · obtain ⟨q, l, r, h1, -⟩ := busList_node cs p _ _ _ hbl hp
      cases p with
      | mk ti' cs' =>
        rw [busItem] at h1
        rcases h1 with ⟨_, ⟨_, h2, _⟩ | ⟨h3, _, h2⟩⟩
        · rw [TreeItem.children, h2] at hc; cases hc
        · rw [show (TreeItem.mk ti' cs').info.sec_bus_num = l + 1 from h3]
          exact busList_bus cs' _ _ _ h2 c hc
  · rw [List.Nodup, List.pairwise_map]
    exact ids_nodup_list cs _ _ _ hbl (Nat.le_refl _) hasc.1 hasc.2.1 hasc.2.2
  · intro n hn
    obtain ⟨a, b⟩ := ascList_node cs n hasc.2.1 hasc.2.2 hn
    refine ⟨a, b, ?_⟩
    intro hid
    simp only [TreeInfo.id, PcieId.mk.injEq] at hid
    have hm : n ∈ cs := busList_onbus cs n 0 0 _ (Nat.le_refl _) hbl hn hid.1
    have := h8 rfl n hm
    unfold devfn at this
    omega

/-! ### A concrete system

A root complex with two root ports: an endpoint with a memory BAR of 4 KiB, a 64-bit prefetchable BAR
of 1 MiB and an I/O BAR of 256 bytes, and a switch with an endpoint with a 64 KiB BAR. -/

/-- A new endpoint function. -/
def exampleFunc (bar mask : List Nat) : Func :=
  { cfg := (withCaps (functionCaps ++ msiCaps) { vendor_id := 0x1234, device_id := 1, bar := bar, bar_mask := mask }).getD {} }

/-- A new bridge with device number `d`. -/
def examplePort (d : Nat) : Bridge :=
  { id := ⟨0, d, 0⟩
    fn := (withCaps functionCaps
      { vendor_id := 0x1234, device_id := 2, header_type := 1, bar := [0, 0], bar_mask := [0, 0] }).getD {} }

/-- The system. -/
def exampleNet : Net :=
  .switch hostBridge
    (.cons (examplePort 1)
      (.device { functions := [exampleFunc [0, 0xc, 0, 1, 0, 0] [0xfffff000, 0xfff00000, 0xffffffff, 0xffffff00, 0, 0]] })
    (.cons (examplePort 2)
      (.switch (examplePort 0)
        (.cons (examplePort 1) (.device { functions := [exampleFunc [0, 0, 0, 0, 0, 0] [0xffff0000, 0, 0, 0, 0, 0]] }) .nil))
    .nil))

/-- The result of enumerating it: ranges of the BARs and identifiers with bus ranges. -/
def exampleEnum : Option (List Win × List (PcieId × Nat × Nat)) :=
  (enumerate netBus { configure_msi := true } { net := exampleNet }).map fun x =>
    (windows x.1, (nodes x.1).map fun n => (n.info.id, n.info.sec_bus_num, n.info.sub_bus_num))

theorem exampleEnum_eq : exampleEnum = some
    ([⟨.mem, 0x80000000, 0x1000⟩, ⟨.pref, 0x8000000000000000, 0x100000⟩, ⟨.io, 0x80000000, 0x100⟩,
      ⟨.mem, 0x80100000, 0x10000⟩],
     [(⟨0, 0, 0⟩, 0, 4), (⟨0, 1, 0⟩, 1, 1), (⟨1, 0, 0⟩, 0, 0), (⟨0, 2, 0⟩, 2, 4), (⟨2, 0, 0⟩, 3, 4), (⟨3, 1, 0⟩, 4, 4),
      (⟨4, 0, 0⟩, 0, 0)]) := by decide +kernel

/-- Enumeration of the system completes, so the theorems apply to it. -/
theorem exampleEnum_done : ∃ root rc', enumerate netBus { configure_msi := true } { net := exampleNet } = some (root, rc') := by
  have h := exampleEnum_eq
  unfold exampleEnum at h
  cases he : enumerate netBus { configure_msi := true } { net := exampleNet } with
  | none => rw [he] at h; cases h
  | some x => exact ⟨x.1, x.2, rfl⟩

example : ∃ root rc', enumerate netBus { configure_msi := true } { net := exampleNet } = some (root, rc') ∧
    (windows root).Pairwise Win.disjoint ∧ buses true root = List.range (root.info.sub_bus_num + 1) := by
  obtain ⟨root, rc', h⟩ := exampleEnum_done
  have hp : ∀ sp, 0 < rootBase ({ net := exampleNet } : Rc Net) sp := by intro sp; cases sp <;> decide
  exact ⟨root, rc', h, (C21_placement _ _ _ _ _ hp h).1, (C22_unique _ _ _ _ _ hp h).1⟩

end Verif.Props
