import Verif.Proofs.MemRead
import Verif.Spec.Region
/-! Regions: reading, writing and allocation (C14, C20). -/
namespace Verif.Proofs
open Verif Verif.Model Verif.Spec

theorem pySetSlice_length {α : Type} (l d : List α) (a : Nat) (h : a + d.length ≤ l.length) :
    (pySetSlice l a (a + d.length) d).length = l.length := by
  simp [pySetSlice]; omega

theorem pySetSlice_getD (l d : List UInt8) (a i : Nat) (h : a + d.length ≤ l.length) :
    (pySetSlice l a (a + d.length) d).getD i 0 =
      if a ≤ i ∧ i < a + d.length then d.getD (i - a) 0 else l.getD i 0 := by
  simp only [pySetSlice, List.getD_eq_getElem?_getD]
  have ht : (l.take a).length = a := by simp; omega
  have hmax : max a (a + d.length) = a + d.length := by omega
  rw [hmax]
  by_cases h1 : i < a
  · rw [if_neg (by omega), List.append_assoc, List.getElem?_append_left (by omega),
      List.getElem?_take_of_lt h1]
  · by_cases h2 : i < a + d.length
    · rw [if_pos (by omega), List.getElem?_append_left (by simp; omega),
        List.getElem?_append_right (by omega), ht]
    · rw [if_neg (by omega), List.getElem?_append_right (by simp; omega), List.getElem?_drop]
      congr 2
      simp; omega

/-- The memory seen through an endpoint region. -/
def epView (r : List UInt8) : Mem := fun a => r.getD a 0

theorem epWriter (S : Nat) :
    WriterOk MemoryEndpoint.writeRegion epView (fun r => r.length = S) 0 S := by
  intro r a d hr hd _ hle
  have hlen : 0 < d.length := List.length_pos_iff.2 hd
  have hne : r ≠ [] := by intro h; rw [h] at hr; simp at hr; omega
  refine ⟨_, if_neg hne, ?_, ?_⟩
  · show (pySetSlice r a (a + d.length) d).length = S
    rw [pySetSlice_length _ _ _ (by omega), hr]
  · funext i
    exact pySetSlice_getD r d a i (by omega)

/-- The memory seen through the root complex's regions. -/
def rcView (rs : List Region) : Mem := fun a =>
  match findRegion rs a with
  | some r => r.mem.getD (a - r.base) 0
  | none => 0

theorem contains_iff (r : Region) (a : Nat) : r.contains a = true ↔ InRegion r a := by
  simp [Region.contains, InRegion]

theorem findRegion_some {rs : List Region} {a : Nat} {r : Region} (hd : DisjointRegions rs)
    (hr : r ∈ rs) (ha : InRegion r a) : findRegion rs a = some r := by
  induction rs with
  | nil => cases hr
  | cons r0 rs ih =>
    rw [DisjointRegions, List.pairwise_cons] at hd
    unfold findRegion
    rw [List.find?_cons]
    rcases List.mem_cons.1 hr with rfl | hr'
    · rw [(contains_iff r a).2 ha]
    · have : r0.contains a = false := by
        rw [← Bool.not_eq_true, contains_iff]
        intro h; exact hd.1 r hr' a ⟨h, ha⟩
      rw [this]
      exact ih hd.2 hr'

theorem rcView_eq {rs : List Region} {a : Nat} {r : Region} (hd : DisjointRegions rs)
    (hr : r ∈ rs) (ha : InRegion r a) : rcView rs a = r.mem.getD (a - r.base) 0 := by
  unfold rcView; rw [findRegion_some hd hr ha]

theorem memoryOf_rcView {rs : List Region} (hd : DisjointRegions rs) : MemoryOf rs (rcView rs) :=
  fun _ hr _ ha => rcView_eq hd hr ha

theorem rcView_cons (r : Region) (rs : List Region) (a : Nat) :
    rcView (r :: rs) a = if r.contains a then r.mem.getD (a - r.base) 0 else rcView rs a := by
  unfold rcView findRegion
  rw [List.find?_cons]
  cases r.contains a <;> rfl

theorem writeRegion_spec : ∀ (rs : List Region) (r : Region) (a : Nat) (d : List UInt8),
    DisjointRegions rs → Backed rs → r ∈ rs → d ≠ [] → r.base ≤ a → a + d.length ≤ r.base + r.size →
    ∃ rs', writeRegion rs a d = some rs' ∧ SameLayout rs rs' ∧ Backed rs' ∧
      rcView rs' = store (rcView rs) a d
  | r0 :: rs, r, a, d, hd, hb, hr, hne, h1, h2 => by
    have hlen : 0 < d.length := List.length_pos_iff.2 hne
    have hra : InRegion r a := ⟨h1, by omega⟩
    rw [DisjointRegions, List.pairwise_cons] at hd
    by_cases hc : r0.contains a = true
    · have hrr : r = r0 := by
        rcases List.mem_cons.1 hr with h | h
        · exact h
        · exact absurd ⟨(contains_iff r0 a).1 hc, hra⟩ (hd.1 r h a)
      subst hrr
      have hml := hb r List.mem_cons_self
      have hsl : (pySlice r.mem (a - r.base) (a - r.base + d.length)).length = d.length := by
        rw [pySlice_length _ _ _ (by omega)]; omega
      refine ⟨{ r with mem := pySetSlice r.mem (a - r.base) (a - r.base + d.length) d } :: rs,
        ?_, ?_, ?_, ?_⟩
      · simp [writeRegion, hc, hsl]
      · simp [SameLayout]
      · intro x hx
        rcases List.mem_cons.1 hx with rfl | hx
        · simp only; rw [pySetSlice_length _ _ _ (by omega), hml]
        · exact hb x (List.mem_cons_of_mem _ hx)
      · funext x
        rw [rcView_cons]
        have hc' : Region.contains { r with mem := pySetSlice r.mem (a - r.base) (a - r.base + d.length) d } x
            = r.contains x := rfl
        rw [hc']
        unfold store
        rw [rcView_cons]
        by_cases hx : r.contains x = true
        · have hx' := (contains_iff r x).1 hx
          unfold InRegion at hx'
          rw [if_pos hx, if_pos hx, pySetSlice_getD _ _ _ _ (by omega)]
          simp only
          by_cases hax : a ≤ x ∧ x < a + d.length
          · rw [if_pos hax, if_pos (by omega)]; congr 1; omega
          · rw [if_neg hax, if_neg (by omega)]
        · have hx' : ¬ InRegion r x := fun h => hx ((contains_iff r x).2 h)
          unfold InRegion at hx'
          rw [if_neg hx, if_neg hx, if_neg (by omega)]
    · have hrr : r ∈ rs := by
        rcases List.mem_cons.1 hr with h | h
        · subst h; exact absurd ((contains_iff r a).2 hra) hc
        · exact h
      obtain ⟨rs', e1, e2, e3, e4⟩ := writeRegion_spec rs r a d hd.2
        (fun x hx => hb x (List.mem_cons_of_mem _ hx)) hrr hne h1 h2
      refine ⟨r0 :: rs', ?_, ?_, ?_, ?_⟩
      · simp [writeRegion, hc, e1]
      · unfold SameLayout at e2 ⊢; simp [e2]
      · intro x hx
        rcases List.mem_cons.1 hx with rfl | hx
        · exact hb x List.mem_cons_self
        · exact e3 x hx
      · funext x
        unfold store
        rw [rcView_cons, rcView_cons, e4]
        unfold store
        by_cases hx : r0.contains x = true
        · have hx' := (contains_iff r0 x).1 hx
          rw [if_pos hx, if_pos hx, if_neg]
          intro h
          exact hd.1 r hrr x ⟨hx', by unfold InRegion; omega⟩
        · rw [if_neg hx, if_neg hx]

theorem disjoint_of_sameLayout {rs rs' : List Region} (h : SameLayout rs rs')
    (hd : DisjointRegions rs) : DisjointRegions rs' := by
  unfold DisjointRegions at *
  have key : ∀ l : List Region, l.Pairwise (fun r s => ∀ a, ¬ (InRegion r a ∧ InRegion s a)) ↔
      (l.map fun r => (r.base, r.size)).Pairwise
        (fun x y => ∀ a, ¬ ((x.1 ≤ a ∧ a < x.1 + x.2) ∧ (y.1 ≤ a ∧ a < y.1 + y.2))) := by
    intro l; rw [List.pairwise_map]; rfl
  rw [key] at hd ⊢
  rwa [← h]

theorem mem_of_sameLayout {rs rs' : List Region} (h : SameLayout rs rs') {r : Region} (hr : r ∈ rs) :
    ∃ r' ∈ rs', r'.base = r.base ∧ r'.size = r.size := by
  have : (r.base, r.size) ∈ rs'.map (fun r => (r.base, r.size)) := by
    rw [← h]; exact List.mem_map.2 ⟨r, hr, rfl⟩
  obtain ⟨r', h1, h2⟩ := List.mem_map.1 this
  simp only [Prod.mk.injEq] at h2
  exact ⟨r', h1, h2.1, h2.2⟩

theorem rcWriter (rs0 : List Region) (r0 : Region) (hd : DisjointRegions rs0) (hr : r0 ∈ rs0) :
    WriterOk writeRegion rcView (fun rs => SameLayout rs0 rs ∧ Backed rs) r0.base (r0.base + r0.size) := by
  rintro rs a d ⟨h1, h2⟩ hne hlo hhi
  obtain ⟨r', m1, m2, m3⟩ := mem_of_sameLayout h1 hr
  obtain ⟨rs', e1, e2, e3, e4⟩ := writeRegion_spec rs r' a d (disjoint_of_sameLayout h1 hd) h2 m1 hne
    (by omega) (by omega)
  exact ⟨rs', e1, ⟨Eq.trans h1 e2, e3⟩, e4⟩

theorem readRegion_spec {rs : List Region} {r : Region} (hd : DisjointRegions rs) (hb : Backed rs)
    (hr : r ∈ rs) (a n : Nat) (hpos : 0 < n) (h1 : r.base ≤ a) (h2 : a + n ≤ r.base + r.size)
    (m : Mem) (hm : MemoryOf rs m) :
    readRegion rs a n = some (load m a n) := by
  have hin : InRegion r a := ⟨h1, by omega⟩
  unfold readRegion
  rw [findRegion_some hd hr hin]
  simp only [Option.some.injEq]
  apply eq_load
  · rw [pySlice_length _ _ _ (by rw [hb r hr]; omega)]; omega
  · intro i hi
    rw [pySlice_getD _ _ _ _ (by omega), hm r hr (a + i) (by unfold InRegion; omega)]
    congr 1; omega

theorem epRead_spec (region : List UInt8) (a n : Nat) (hpos : 0 < n) (h : a + n ≤ region.length)
    (m : Mem) (base : Nat) (hm : ∀ i, i < region.length → m (base + i) = region.getD i 0) :
    MemoryEndpoint.readRegion region a n = some (load m (base + a) n) := by
  unfold MemoryEndpoint.readRegion
  rw [if_neg (by intro h'; rw [h'] at h; simp at h; omega)]
  simp only [Option.some.injEq]
  apply eq_load
  · rw [pySlice_length _ _ _ h]; omega
  · intro i hi
    rw [pySlice_getD _ _ _ _ (by omega), Nat.add_assoc, hm _ (by omega)]

/-! ### Allocation -/

theorem align_spec (v k : Nat) : v ≤ align v (2 ^ k - 1) ∧ 2 ^ k ∣ align v (2 ^ k - 1) := by
  have hp : 0 < 2 ^ k := Nat.two_pow_pos k
  unfold align
  rw [and_mod]
  have hlt := Nat.mod_lt v hp
  have hdm := Nat.div_add_mod v (2 ^ k)
  split
  · refine ⟨by omega, ⟨v / 2 ^ k + 1, ?_⟩⟩
    rw [Nat.mul_add]; omega
  · rename_i h
    have h : v % 2 ^ k = 0 := Decidable.not_not.1 h
    exact ⟨Nat.le_refl _, Nat.dvd_of_mod_eq_zero h⟩

theorem ceilLog2_spec (size : Nat) : size ≤ 2 ^ ceilLog2 size ∧
    ∀ j, size ≤ 2 ^ j → ceilLog2 size ≤ j := by
  unfold ceilLog2
  split
  · refine ⟨by simp; omega, fun j _ => Nat.zero_le _⟩
  · rename_i h
    refine ⟨?_, fun j hj => ?_⟩
    · have := Nat.lt_log2_self (n := size - 1)
      omega
    · have hne : size - 1 ≠ 0 := by omega
      have := (Nat.log2_lt hne).2 (show size - 1 < 2 ^ j by omega)
      omega

structure AllocInv (s : Alloc) : Prop where
  below : ∀ r ∈ s.regions, r.base + r.size ≤ s.limit + 1
  odd : s.regions = [] ∨ s.limit % 2 = 1
  disj : DisjointRegions s.regions
  aligned : ∀ r ∈ s.regions, 2 ^ ceilLog2 r.size ∣ r.base
  backed : Backed s.regions

theorem alloc_inv (s : Alloc) (size : Nat) (hs : 2 ≤ size) (he : size % 2 = 0) (h : AllocInv s) :
    ∃ s' addr, s.alloc size = some (s', addr) ∧ AllocInv s' ∧
      s'.regions.map (·.size) = s.regions.map (·.size) ++ [size] := by
  obtain ⟨hb, ho, hd, ha, hk⟩ := h
  have hal := align_spec s.limit (ceilLog2 size)
  have hk1 : 1 ≤ ceilLog2 size := by
    have := (ceilLog2_spec size).1
    rcases Nat.eq_zero_or_pos (ceilLog2 size) with h0 | h0
    · rw [h0] at this; simp at this; omega
    · exact h0
  have heven : align s.limit (2 ^ ceilLog2 size - 1) % 2 = 0 := by
    have : 2 ∣ 2 ^ ceilLog2 size := by
      obtain ⟨j, hj⟩ : ∃ j, ceilLog2 size = j + 1 := ⟨ceilLog2 size - 1, by omega⟩
      rw [hj, Nat.pow_succ]; exact Nat.dvd_mul_left _ _
    exact Nat.mod_eq_zero_of_dvd (Nat.dvd_trans this hal.2)
  refine ⟨_, _, if_neg (by omega), ⟨?_, ?_, ?_, ?_, ?_⟩, ?_⟩
  · intro r hr
    simp only [List.mem_append, List.mem_singleton] at hr
    rcases hr with hr | rfl
    · have := hb r hr; simp only; omega
    · simp only; omega
  · right; simp only; omega
  · unfold DisjointRegions at *
    rw [List.pairwise_append]
    refine ⟨hd, List.pairwise_singleton _ _, ?_⟩
    intro r hr s' hs' a ⟨h1, h2⟩
    rw [List.mem_singleton] at hs'
    subst hs'
    unfold InRegion at h1 h2
    simp only at h2
    have hbr := hb r hr
    have hodd : s.limit % 2 = 1 := by
      rcases ho with h0 | h0
      · rw [h0] at hr; cases hr
      · exact h0
    omega
  · intro r hr
    simp only [List.mem_append, List.mem_singleton] at hr
    rcases hr with hr | rfl
    · exact ha r hr
    · exact hal.2
  · intro r hr
    simp only [List.mem_append, List.mem_singleton] at hr
    rcases hr with hr | rfl
    · exact hk r hr
    · simp
  · simp

theorem allocs_inv : ∀ (sizes : List Nat) (s : Alloc), AllocInv s →
    (∀ n ∈ sizes, 2 ≤ n ∧ n % 2 = 0) →
    ∃ s', s.allocs sizes = some s' ∧ AllocInv s' ∧
      s'.regions.map (·.size) = s.regions.map (·.size) ++ sizes
  | [], s, h, _ => ⟨s, rfl, h, by simp⟩
  | n :: ns, s, h, hn => by
    obtain ⟨s1, a, e1, i1, m1⟩ := alloc_inv s n (hn n List.mem_cons_self).1 (hn n List.mem_cons_self).2 h
    obtain ⟨s2, e2, i2, m2⟩ := allocs_inv ns s1 i1 (fun x hx => hn x (List.mem_cons_of_mem _ hx))
    refine ⟨s2, ?_, i2, ?_⟩
    · simp [Alloc.allocs, e1, e2]
    · rw [m2, m1]; simp

end Verif.Proofs
