import Verif.Proofs.Region
/-! End-to-end lemmas for memory operations (C11, C12, C14). -/
namespace Verif.Proofs
open Verif Verif.Model Verif.Spec

theorem ep_conforming (regions : Nat → List UInt8) (b base mps maxDw : Nat) (id : PcieId) (mem : Mem)
    (hpage : 4096 ∣ base ∨ (regions b).length ≤ 4096)
    (hm : ∀ i, i < (regions b).length → mem (base + i) = (regions b).getD i 0) :
    Conforming 128 mem base (base + (regions b).length) maxDw
      (fun t => MemoryEndpoint.handleMemRead regions id mps [(b, t.address - base)] t) := by
  apply handleMemRead_conforming (MemoryEndpoint.readRegion (regions b)) (fun a => a - base) mem id mps
  · intros; rfl
  · intro a n h1 h2 h3
    have := epRead_spec (regions b) (a - base) n h3 (by omega) mem base hm
    have e : base + (a - base) = a := by omega
    rwa [e] at this
  · intro a n h1 h2 h3
    rcases hpage with ⟨q, hq⟩ | h
    · show (a - base) % 4096 + n ≤ 4096
      omega
    · show (a - base) % 4096 + n ≤ 4096
      omega

theorem rc_conforming (rs : List Region) (r : Region) (hd : DisjointRegions rs) (hb : Backed rs)
    (hr : r ∈ rs) (mps maxDw : Nat) (mem : Mem) (hm : MemoryOf rs mem) :
    Conforming 128 mem r.base (r.base + r.size) maxDw (RootComplex.handleMemRead rs mps) := by
  apply handleMemRead_conforming (readRegion rs) (fun a => a) mem ⟨0, 0, 0⟩ mps
  · intro t h1 h2 h3
    unfold RootComplex.handleMemRead
    rw [findRegion_some hd hr ⟨h1, by omega⟩]
  · intro a n h1 h2 h3
    exact readRegion_spec hd hb hr a n h3 h1 h2 mem hm
  · intro a n _ _ h; exact h

theorem consumeCpls_mismatch (bl : Nat) (c : Tlp) (cs : List Tlp) (acc : List UInt8) (hpos : 0 < bl)
    (h : c.byte_count ≠ bl) : consumeCpls bl 0 acc (c :: cs) = none := by
  unfold consumeCpls
  rw [if_pos hpos]
  have h' : ¬ (c.byte_count = bl - 0) := by omega
  by_cases h1 : c.status = CPL_STATUS_SC
  · by_cases h2 : c.byte_count + 3 + (c.lower_address &&& 3) ≥ c.length * 4
    · simp only [h1, h2, h']; rfl
    · simp only [h1, h2]; rfl
  · rw [if_pos h1]; rfl

/-- A device read whose length exceeds the first chunk fails. -/
theorem function_memRead_multi (rcb : Nat) (mem : Mem) (respond : Tlp → Option (List Tlp))
    (nextTag : Nat → Nat) (id : PcieId) (mrrs attr tc tag addr length : Nat)
    (hlong : chunkLen addr length mrrs < length)
    (lo hi : Nat) (hlo4 : 4 ∣ lo) (hhi4 : 4 ∣ hi) (hlo : lo ≤ addr) (hhi : addr + length ≤ hi)
    (hr : Conforming rcb mem lo hi 1024 respond) :
    Function.memReadLoop respond nextTag id mrrs attr tc length tag addr length = none := by
  unfold Function.memReadLoop
  rw [dif_pos (by omega)]
  by_cases hp : addr % 4096 + length ≤ 4096
  · obtain ⟨f1, f2, f3, f4, f5, f6, _⟩ := readRequest_facts id (nextTag tag) attr tc addr length 5
      (by omega) (by omega) hp
    have hta : (readRequest id (nextTag tag) attr tc addr length).address = addr - addr % 4 :=
      setBe_address _ _ _
    have htl : (readRequest id (nextTag tag) attr tc addr length).length = (addr % 4 + length + 3) / 4 :=
      setBe_length _ _ _ (by omega)
    obtain ⟨cs, e1, e2, e3⟩ := hr _ addr length f2 f3 (by omega) f4 (by omega) (by omega)
    simp only [f1, if_true, e1, Option.bind_eq_bind, Option.bind_some]
    have hc : consumeCpls (chunkLen addr length mrrs) 0 [] cs = none := by
      have hpos := chunkLen_pos addr length mrrs (by omega)
      cases e2 with
      | last a n c h1 h2 =>
        exact consumeCpls_mismatch _ _ _ _ hpos (by omega)
      | more a k n c cs h1 h2 =>
        exact consumeCpls_mismatch _ _ _ _ hpos (by omega)
    rw [hc]; rfl
  · have hck : (readRequest id (nextTag tag) attr tc addr length).check = false := by
      have hta : (readRequest id (nextTag tag) attr tc addr length).address = addr - addr % 4 :=
        setBe_address _ _ _
      have htl : (readRequest id (nextTag tag) attr tc addr length).length = (addr % 4 + length + 3) / 4 :=
        setBe_length _ _ _ (by omega)
      have hft : (readRequest id (nextTag tag) attr tc addr length).fmt_type =
          (if addr > 0xffffffff then TLP_MEM_READ_64 else TLP_MEM_READ) := by
        unfold readRequest Tlp.setBe Tlp.fmt_type Tlp.setFmtType
        simp only []
        split <;> split <;> rfl
      have h4k : (readRequest id (nextTag tag) attr tc addr length).length * 4 >
          4096 - ((readRequest id (nextTag tag) attr tc addr length).address &&& 4095) := by
        rw [and_4095]; omega
      unfold Tlp.check
      rw [hft]
      simp only [h4k, decide_true, Bool.not_true]
      by_cases ha : addr > 0xffffffff
      · simp [ha]
      · simp [ha]
    simp [hck]

theorem function_memRead_single (rcb : Nat) (mem : Mem) (respond : Tlp → Option (List Tlp))
    (nextTag : Nat → Nat) (id : PcieId) (mrrs attr tc tag addr length : Nat)
    (h1 : addr % 4 + length ≤ 128 * 2 ^ mrrs) (h2 : addr % 4096 + length ≤ 4096)
    (lo hi : Nat) (hlo4 : 4 ∣ lo) (hhi4 : 4 ∣ hi) (hlo : lo ≤ addr) (hhi : addr + length ≤ hi)
    (hr : Conforming rcb mem lo hi (32 * 2 ^ mrrs) respond) :
    ∃ reqs, Function.memReadLoop respond nextTag id mrrs attr tc length tag addr length =
        some (load mem addr length, reqs) ∧ Asks addr length reqs ∧
      ∀ t ∈ reqs, LegalMemRequest (32 * 2 ^ mrrs) t ∧ LegalByteEnables t ∧ t.check = true ∧
        t.requester_id = id := by
  unfold Function.memReadLoop
  by_cases hz : 0 < length
  · rw [dif_pos hz]
    obtain ⟨f1, f2, f3, f4, f5, f6, f7, _⟩ := readRequest_facts id (nextTag tag) attr tc addr length mrrs
      hz h1 h2
    have hta : (readRequest id (nextTag tag) attr tc addr length).address = addr - addr % 4 :=
      setBe_address _ _ _
    have htl : (readRequest id (nextTag tag) attr tc addr length).length = (addr % 4 + length + 3) / 4 :=
      setBe_length _ _ _ (by omega)
    obtain ⟨cs, e1, e2, e3⟩ := hr _ addr length f2 f3 hz f4 (by omega) (by omega)
    have hcl : chunkLen addr length mrrs = length := by
      unfold chunkLen firstPad
      have : addr &&& 0xfff = addr % 4096 := and_4095 addr
      rw [this, Nat.shiftLeft_eq]; omega
    have e4 := consumeCpls_spec e2 length 0 [] (by omega) e3
    refine ⟨[readRequest id (nextTag tag) attr tc addr length], ?_, ?_, ?_⟩
    · simp only [f1, if_true, e1, Option.bind_eq_bind, Option.bind_some, hcl, e4, List.nil_append,
        Nat.sub_self]
      have : Function.memReadLoop respond nextTag id mrrs attr tc length (nextTag tag) (addr + length) 0
          = some ([], []) := by
        unfold Function.memReadLoop; rw [dif_neg (by omega)]
      rw [this]; simp
    · have := Asks.cons addr length 0 (readRequest id (nextTag tag) attr tc addr length) [] hz f4 (Asks.nil _)
      simpa using this
    · intro t ht
      rw [List.mem_singleton] at ht
      subst ht
      exact ⟨f2, f3, f1, f7⟩
  · rw [dif_neg hz]
    have : length = 0 := by omega
    subst this
    exact ⟨[], by simp [load], Asks.nil _, by simp⟩

/-- Root complex writes. -/
theorem rc_handleMemWrite (rs : List Region) (r : Region) (hd : DisjointRegions rs) (hb : Backed rs)
    (hr : r ∈ rs) (tlp : Tlp) (hal : 4 ∣ tlp.address) (hlo : r.base ≤ tlp.address)
    (hhi : tlp.address + 4 * tlp.length ≤ r.base + r.size) (hlen : 1 ≤ tlp.length)
    (hdl : tlp.data.length = tlp.length) (hdw : ∀ w ∈ tlp.data, w < 2 ^ 32)
    (h4k : tlp.address % 4096 + 4 * tlp.length ≤ 4096) :
    ∃ rs', RootComplex.handleMemWrite rs tlp = some rs' ∧ SameLayout rs rs' ∧ Backed rs' ∧
      rcView rs' = perform (rcView rs) tlp := by
  obtain ⟨rs', e1, ⟨e2, e3⟩, e4⟩ := handleMemWrite_spec (rcWriter rs r hd hr) tlp hal hlo hhi hlen hdl hdw
    h4k rs ⟨rfl, hb⟩
  refine ⟨rs', ?_, e2, e3, e4⟩
  unfold RootComplex.handleMemWrite
  rw [findRegion_some hd hr ⟨hlo, by omega⟩]
  exact e1

theorem rc_handleMemWrites (r : Region) : ∀ (ts : List Tlp) (rs : List Region),
    DisjointRegions rs → Backed rs → r ∈ rs →
    (∀ tlp ∈ ts, 4 ∣ tlp.address ∧ r.base ≤ tlp.address ∧
      tlp.address + 4 * tlp.length ≤ r.base + r.size ∧ 1 ≤ tlp.length ∧
      tlp.data.length = tlp.length ∧ (∀ w ∈ tlp.data, w < 2 ^ 32) ∧
      tlp.address % 4096 + 4 * tlp.length ≤ 4096) →
    ∃ rs', ts.foldlM RootComplex.handleMemWrite rs = some rs' ∧ SameLayout rs rs' ∧ Backed rs' ∧
      rcView rs' = ts.foldl perform (rcView rs) := by
  intro ts
  induction ts generalizing r with
  | nil => intro rs hd hb hr _; exact ⟨rs, rfl, rfl, hb, rfl⟩
  | cons t ts ih =>
    intro rs hd hb hr h
    obtain ⟨a1, a2, a3, a4, a5, a6, a7⟩ := h t List.mem_cons_self
    obtain ⟨rs1, b1, b2, b3, b4⟩ := rc_handleMemWrite rs r hd hb hr t a1 a2 a3 a4 a5 a6 a7
    obtain ⟨r', m1, m2, m3⟩ := mem_of_sameLayout b2 hr
    obtain ⟨rs2, c1, c2, c3, c4⟩ := ih r' rs1 (disjoint_of_sameLayout b2 hd) b3 m1 (by
      intro x hx; rw [m2, m3]; exact h x (List.mem_cons_of_mem _ hx))
    refine ⟨rs2, ?_, Eq.trans b2 c2, c3, ?_⟩
    · simp [List.foldlM_cons, b1, c1]
    · rw [c4, b4]; rfl

theorem ep_handleMemWrite (regions : Nat → List UInt8) (b off : Nat) (tlp : Tlp)
    (hal : 4 ∣ off) (hhi : off + 4 * tlp.length ≤ (regions b).length) (hlen : 1 ≤ tlp.length)
    (hdl : tlp.data.length = tlp.length) (hdw : ∀ w ∈ tlp.data, w < 2 ^ 32)
    (h4k : off % 4096 + 4 * tlp.length ≤ 4096) :
    ∃ regions', MemoryEndpoint.handleMemWrite regions [(b, off)] tlp = some regions' ∧
      (regions' b).length = (regions b).length ∧ (∀ k, k ≠ b → regions' k = regions k) ∧
      ∀ i, (regions' b).getD i 0 = if enabled off tlp.length tlp.first_be tlp.last_be i
        then payloadByte tlp.data (i - off) else (regions b).getD i 0 := by
  obtain ⟨r', e1, e2, e4⟩ := handleMemWrite_spec (epWriter (regions b).length) tlp hal (Nat.zero_le _)
    hhi hlen hdl hdw h4k (regions b) rfl
  refine ⟨fun k => if k = b then r' else regions k, ?_, ?_, ?_, ?_⟩
  · simp [MemoryEndpoint.handleMemWrite, e1]
  · simpa using e2
  · intro k hk; simp [hk]
  · intro i
    have := congrFun e4 i
    simpa [epView] using this

end Verif.Proofs
