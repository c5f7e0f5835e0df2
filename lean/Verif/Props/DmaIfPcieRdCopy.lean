import Verif.Props.DmaIfPcieRdStatus
import Verif.Proofs.DrdCopy
/-!
C65: the PCIe DMA read interface copies.
-/
namespace Verif.Props
open Verif Verif.Model Verif.Spec Verif.Proofs

/-- C65. Under the conditions of C63, whatever completions bring: every byte written to the RAM is at the place of a byte of a
descriptor that has been accepted, so nothing outside the buffers is changed.

Missing from the property: the cases missing from C60, C61 and C63. -/
theorem C65_inside_partial (c : DrdCfg) (hc : DrdCfgOk c) (mrrs rid : Nat) (hm : mrrs ≤ 4) (hrid : rid < 2 ^ 16) (s : Drd)
    (r1 r2 : DrdIn) (is : List DrdIn) (h1 : r1.rst = true) (h2 : r2.rst = true) (his : ∀ i ∈ is, i.rst = false)
    (hin : ∀ i ∈ r2 :: is, i.mrrs = mrrs ∧ i.requesterId = rid)
    (hd : ∀ d ∈ drdAccepted c (drdStep c (drdStep c s r1) r2) is, d.addr % 4 + d.len < 2 ^ max c.lenW 13)
    (hk : CplsOk c rdEnv0 (drdStep c (drdStep c s r1) r2) is) (k : Nat) (hs : k < c.segs)
    (x : DrdCmd) (hx : x ∈ drdTakenCmds c k (drdStep c (drdStep c s r1) r2) is) (w : Nat × Nat × UInt8) (hw : w ∈ drdCmdWrites c k x) :
    ∃ d ∈ drdAccepted c (drdStep c (drdStep c s r1) r2) is, ∃ q < d.len, w.1 = d.sel ∧ w.2.1 = (d.ram + q) % 2 ^ c.ramW := by
  have hi := List.forall_mem_cons.mp hin
  have hh : DrdHist c mrrs rid rdEnv0 (drdStep c (drdStep c s r1) r2) is := ⟨his, hi.2, hd, hk⟩
  obtain ⟨f, g1, -, g3, -⟩ := drd_copy hc hm hrid (fun _ _ _ => 0) is (drdStep c s r1) r2 h2 hi.1.1 hh
  have hwr := drd_writes hc hm hrid is s r1 r2 h1 h2 hi.1.1 hh hs
  have hmem : w ∈ (drdSegParts c k (rdEnv0.run c (drdStep c (drdStep c s r1) r2) is).evs).flatten := by
    rw [← hwr, List.mem_flatten]
    exact ⟨_, List.mem_map.2 ⟨x, List.mem_append_left _ hx, rfl⟩, hw⟩
  obtain ⟨-, v, hv, hwv⟩ := segParts_mem.1 hmem
  obtain ⟨d, k1, -, k3⟩ := g3.ev v (by rw [g1]; exact hv)
  exact ⟨d, List.mem_of_getElem? k1, k3 w hwv⟩

/-- C65. Under the conditions of C64, if completions bring the bytes `data`, for instance those of a memory: the statuses are for
different descriptors; each has the tag of its descriptor; and when a status without error has been given, every byte of the
descriptor has been written to its place in the RAM by a command that the RAM has taken and reported as done (the RAM reports
the commands of a segment in order).

Missing from the property: fewer than 32 tags, and the cases missing from C60, C61 and C63. -/
theorem C65_copy_partial (c : DrdCfg) (hc : DrdCfgOk c) (hw : 5 ≤ c.tagW) (mrrs rid : Nat) (hm : mrrs ≤ 4) (hrid : rid < 2 ^ 16)
    (s : Drd) (r1 r2 : DrdIn) (is : List DrdIn) (h1 : r1.rst = true) (h2 : r2.rst = true) (his : ∀ i ∈ is, i.rst = false)
    (hin : ∀ i ∈ r2 :: is, i.mrrs = mrrs ∧ i.requesterId = rid)
    (hd : ∀ d ∈ drdAccepted c (drdStep c (drdStep c s r1) r2) is, d.addr % 4 + d.len < 2 ^ max c.lenW 13)
    (hk : CplsOk c rdEnv0 (drdStep c (drdStep c s r1) r2) is)
    (hram : DrdRamOk c (fun _ => 0) (drdStep c (drdStep c s r1) r2) is)
    (data : Nat → RdDesc → Nat → UInt8) (hb : CplsBytes c data rdEnv0 (drdStep c (drdStep c s r1) r2) is) :
    ∃ nums : List Nat, nums.Nodup ∧ nums.length = (drdStatuses c (drdStep c (drdStep c s r1) r2) is).length ∧
      ∀ p ∈ nums.zip (drdStatuses c (drdStep c (drdStep c s r1) r2) is),
        ∃ d, (drdAccepted c (drdStep c (drdStep c s r1) r2) is)[p.1]? = some d ∧ p.2.1 = d.tag ∧
          (p.2.2 = 0 → ∀ q < d.len, ∃ k < c.segs,
            ∃ x ∈ (drdTakenCmds c k (drdStep c (drdStep c s r1) r2) is).take (drdDoneCount k is),
              (d.sel, (d.ram + q) % 2 ^ c.ramW, data p.1 d q) ∈ drdCmdWrites c k x) := by
  have hi := List.forall_mem_cons.mp hin
  have hh : DrdHist c mrrs rid rdEnv0 (drdStep c (drdStep c s r1) r2) is := ⟨his, hi.2, hd, hk⟩
  obtain ⟨opOf, n, pend, A, g1, g2, g3, g4, g5, g6⟩ := drd_status hc hw hm hrid is s r1 r2 h1 h2 hi.1.1 hh hram
  obtain ⟨f, f1, f2, f3, f4⟩ := drd_copy hc hm hrid data is (drdStep c s r1) r2 h2 hi.1.1 hh
  have f4 := f4 hb
  have hev := g4.ev
  rw [← f2] at hev
  have hwr := fun k (hk : k < c.segs) => drd_writes hc hm hrid is s r1 r2 h1 h2 hi.1.1 hh hk
  generalize drdStep c (drdStep c s r1) r2 = s0 at *
  generalize hevs : (rdEnv0.run c s0 is).evs = evs at *
  refine ⟨((evs.take n).filter (·.status.isSome)).map (·.num), ?_, ?_, ?_⟩
  · have := once_nodup hev.later
    rw [f1] at this
    exact this.sublist (List.Sublist.map _ (List.Sublist.filter _ (List.take_sublist n evs)))
  · rw [g2, List.length_map]
    exact status_length _
  · intro p hp
    rw [g2] at hp
    obtain ⟨v, hv, hv1, hv2⟩ := status_zip hp
    have hvm : v ∈ f.evs := by rw [f1]; exact List.mem_of_mem_take hv
    obtain ⟨d, d1, d2, -⟩ := f3.ev v hvm
    refine ⟨d, by rw [hv1]; exact d1, d2 _ hv2, fun h0 q hq => ?_⟩
    obtain ⟨d', k1, -, k3⟩ := copy_done f3 f4 hev hvm (tag := p.2.1) (by rw [hv2, ← h0])
    rw [d1, Option.some.injEq] at k1
    subst k1
    have hmem : (d.sel, (d.ram + q) % 2 ^ c.ramW, data p.1 d q) ∈ evW f v.num := by
      rw [k3.mem_iff, hv1]
      exact List.mem_map.2 ⟨q, List.mem_range.2 hq, rfl⟩
    unfold evW at hmem
    obtain ⟨u, hu, huw⟩ := List.mem_flatMap.1 hmem
    obtain ⟨hu1, hu2⟩ := List.mem_filter.1 hu
    have hu2 : u.num = v.num := by simpa using hu2
    have hut : u ∈ evs.take n := by
      obtain ⟨a, b, hab⟩ := List.append_of_mem hv
      have he : f.evs = a ++ v :: (b ++ evs.drop n) := by
        have := (List.take_append_drop n evs).symm
        rw [hab] at this
        rw [f1]
        exact this.trans (by simp)
      have hl := hev.later a v _ he (by rw [hv2]; rfl)
      rw [he] at hu1
      rw [hab]
      simp only [List.mem_append, List.mem_cons] at hu1 ⊢
      rcases hu1 with hu1 | hu1 | hu1
      · exact .inl hu1
      · exact .inr (.inl hu1)
      · exact absurd hu2 (hl u (by simpa using hu1))
    obtain ⟨kk, hkk, hseg⟩ := inSeg_exists hc (d.sel, (d.ram + q) % 2 ^ c.ramW, data p.1 d q)
    refine ⟨kk, hkk, ?_⟩
    have h5 := g5 kk hkk
    have hL := status_done hkk g3 h5 (by
      have := congrArg List.length (hwr kk hkk)
      rw [List.length_map, List.length_append] at this
      exact this)
    have hmem2 := segParts_mem.2 ⟨hseg, u, hut, huw⟩
    exact done_mem (hwr kk hkk) (by omega) hL hmem2

/-! ### Examples -/

instance (c : DrdCfg) (out : List RdReq) (i : DrdIn) (P : RdReq → Prop) [h : ∀ r, Decidable (P r)] :
    Decidable (∀ r, rdKind c out i = .data r → P r) :=
  match h : rdKind c out i with
  | .unexpected => isTrue (by intro r h'; simp at h')
  | .malformed => isTrue (by intro r h'; simp at h')
  | .error _ _ => isTrue (by intro r h'; simp at h')
  | .data r => decidable_of_iff (P r) ⟨fun h1 r' h' => by simp only [RdKind.data.injEq] at h'; exact h' ▸ h1, fun h1 => h1 r rfl⟩

instance (c : DrdCfg) (data : Nat → RdDesc → Nat → UInt8) (e : RdEnv) (i : DrdIn) : Decidable (CplBytesOk c data e i) := by
  unfold CplBytesOk; split <;> infer_instance

instance decCplsBytes (c : DrdCfg) (data : Nat → RdDesc → Nat → UInt8) :
    (e : RdEnv) → (s : Drd) → (is : List DrdIn) → Decidable (CplsBytes c data e s is)
  | _, _, [] => isTrue trivial
  | e, s, i :: is =>
    have := decCplsBytes c data (e.step c s i) (drdStep c s i) is
    inferInstanceAs (Decidable ((drdTransfer s i = true → CplBytesOk c data e i) ∧ CplsBytes c data (e.step c s i) (drdStep c s i) is))

/-- The contents of a memory. -/
def memEx (a : Nat) : UInt8 := if a < 0x1000 then 0x32 + (a - 0xffe).toUInt8 else 0x20 + (a - 0x1000).toUInt8

/-- The example for C64, in which the second descriptor fails, with completions that bring the contents of a memory. -/
def drdCopyEx : List DrdIn := (drdStatEx.take 42) ++ [cplUr 2] ++ (drdStatEx.drop 43).take 7 ++ [drdIdle, drdIdle, drdDone0, drdIdle, drdIdle]

theorem drdCopyEx_ok : (∀ i ∈ drdCopyEx, i.rst = false) ∧ (∀ i ∈ drdR :: drdCopyEx, i.mrrs = 0 ∧ i.requesterId = 0x123) ∧
    (∀ d ∈ drdAccepted (drdCw 5) (drdSw 5) drdCopyEx, d.addr % 4 + d.len < 2 ^ max (drdCw 5).lenW 13) ∧
    CplsOk (drdCw 5) rdEnv0 (drdSw 5) drdCopyEx ∧ DrdRamOk (drdCw 5) (fun _ => 0) (drdSw 5) drdCopyEx ∧
    CplsBytes (drdCw 5) (fun _ d q => memEx (d.addr + q)) rdEnv0 (drdSw 5) drdCopyEx := by
  refine ⟨by decide +kernel, by decide +kernel, by decide +kernel, by decide +kernel, by decide +kernel, by decide +kernel⟩

/-- The first descriptor is copied. -/
example : drdStatuses (drdCw 5) (drdSw 5) drdCopyEx = [(2, 10), (1, 0)] ∧
    (drdTakenCmds (drdCw 5) 0 (drdSw 5) drdCopyEx).flatMap (drdCmdWrites (drdCw 5) 0) =
      [(0, 2, 0x20), (0, 3, 0x21), (0, 0, 0x32), (0, 1, 0x33)] := by
  decide +kernel

end Verif.Props
