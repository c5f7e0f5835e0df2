import Verif.Props.DmaIfPcieRd
import Verif.Proofs.DrdCoreRun
/-!
C61 and C62: tags and completion errors of the PCIe DMA read interface.
-/
namespace Verif.Props
open Verif Verif.Model Verif.Spec Verif.Proofs

/-- C61. After reset, with a fixed requester ID and a maximum read request size of at most 2048 bytes, descriptors as in C60,
and completions as they should be (`CplsOk`): the tags of the requests that are outstanding, and of the one that is offered,
are all different and less than `2^PCIE_TAG_WIDTH`, so there are at most as many; and they are less than 32 if extended tags
have not been enabled.

Missing from the property: a completion for a tag that was finished in the cycle before, see `C61_duplicate_fails`; and the
cases missing from C60. -/
theorem C61_tags_partial (c : DrdCfg) (hc : DrdCfgOk c) (mrrs rid : Nat) (hm : mrrs ≤ 4) (hrid : rid < 2 ^ 16) (s : Drd)
    (r : DrdIn) (is : List DrdIn) (hr : r.rst = true) (his : ∀ i ∈ is, i.rst = false)
    (hin : ∀ i ∈ r :: is, i.mrrs = mrrs ∧ i.requesterId = rid)
    (hd : ∀ d ∈ drdAccepted c (drdStep c s r) is, d.addr % 4 + d.len < 2 ^ max c.lenW 13)
    (hk : CplsOk c rdEnv0 (drdStep c s r) is) :
    let s' := drdRun c (drdStep c s r) is
    let tags := (rdEnv0.run c (drdStep c s r) is).out.map (·.tag) ++ if s'.txV then [rdHdrTag s'.tx] else []
    tags.Nodup ∧ (∀ t ∈ tags, t < 2 ^ c.tagW) ∧ tags.length ≤ 2 ^ c.tagW ∧
      ((∀ i ∈ is, i.extTag = false) → ∀ t ∈ tags, t < 32) := by
  have hi := List.forall_mem_cons.mp hin
  obtain ⟨opOf, h1, h2⟩ := drd_tags hc hm hrid is s r hr hi.1.1 ⟨his, hi.2, hd, hk⟩
  have ht : (rdEnv0.run c (drdStep c s r) is).out.map (·.tag) ++
      (if (drdRun c (drdStep c s r) is).txV then [rdHdrTag (drdRun c (drdStep c s r) is).tx] else []) =
      (pendEnv (drdRun c (drdStep c s r) is) (rdEnv0.run c (drdStep c s r) is)).out.map (·.tag) := by
    rw [(pendEnv_same _ _).2.2.2.2, List.map_append]
    by_cases hv : (drdRun c (drdStep c s r) is).txV = true
    · obtain ⟨x, g1, g2⟩ := h1.pend hv
      rw [if_pos hv, g1, List.map_singleton, g2]
    · unfold pendReq; rw [if_neg hv, if_neg hv]; rfl
  have hn : ((pendEnv (drdRun c (drdStep c s r) is) (rdEnv0.run c (drdStep c s r) is)).out.map (·.tag)).Nodup :=
    List.nodup_iff_count.2 h1.inv.nodup
  have hlt : ∀ t ∈ (pendEnv (drdRun c (drdStep c s r) is) (rdEnv0.run c (drdStep c s r) is)).out.map (·.tag), t < 2 ^ c.tagW := by
    intro t ht
    obtain ⟨x, hx, rfl⟩ := List.mem_map.1 ht
    exact (h1.inv.tag_lt hx).2
  intro s' tags
  show tags.Nodup ∧ _
  rw [show tags = _ from ht]
  refine ⟨hn, hlt, (by simpa using nodup_length_le _ (List.range (2 ^ c.tagW)) hn (fun t ht => List.mem_range.2 (hlt t ht))), fun hx t ht => ?_⟩
  obtain ⟨x, hx', rfl⟩ := List.mem_map.1 ht
  have h5 : 2 ^ c.tagW1 ≤ 2 ^ 5 := Nat.pow_le_pow_right (by omega) (by unfold DrdCfg.tagW1; split <;> omega)
  exact Nat.lt_of_lt_of_le ((h2 hx).out x hx') h5

/-- C62. Under the conditions of C61, the outputs `status_error_cor` and `status_error_uncor` after a cycle are as specified
by `rdPulse`: a pulse on the first for a completion that is unexpected, poisoned or not successful, and on the second for one
that is malformed or stands for a timeout; otherwise none.

Missing from the property: a completion for a tag that was finished in the cycle before, which is not recognized as
unexpected, see `C62_duplicate_fails`; and the cases missing from C60. -/
theorem C62_errors_partial (c : DrdCfg) (hc : DrdCfgOk c) (mrrs rid : Nat) (hm : mrrs ≤ 4) (hrid : rid < 2 ^ 16) (s : Drd)
    (r : DrdIn) (is : List DrdIn) (i : DrdIn) (hr : r.rst = true) (his : ∀ i ∈ is, i.rst = false)
    (hin : ∀ i ∈ r :: is, i.mrrs = mrrs ∧ i.requesterId = rid)
    (hd : ∀ d ∈ drdAccepted c (drdStep c s r) is, d.addr % 4 + d.len < 2 ^ max c.lenW 13)
    (hk : CplsOk c rdEnv0 (drdStep c s r) is) (hir : i.rst = false)
    (hik : drdTransfer (drdRun c (drdStep c s r) is) i = true →
      CplOk c (rdEnv0.run c (drdStep c s r) is) (drdRun c (drdStep c s r) is) i) :
    let s' := drdRun c (drdStep c s r) is
    ((drdStep c s' i).rx.errCor, (drdStep c s' i).rx.errUncor) = rdPulse c (rdEnv0.run c (drdStep c s r) is) s' i := by
  have hi := List.forall_mem_cons.mp hin
  exact drd_errors hc hm hrid is i s r hr hi.1.1 ⟨his, hi.2, hd, hk⟩ hir hik

/-! ### Examples -/

instance (c : DrdCfg) (r : RdReq) (i : DrdIn) : Decidable (CplDataOk c r i) :=
  decidable_of_iff (bits i.rxHdr.dw1 11 0 = (r.stop - r.off) % 4096 ∧ (r.d.len ≠ 0 → bits i.rxHdr.dw2 6 0 = (r.d.addr + r.off) % 128) ∧
    4 * hdrLen i.rxHdr < cplOffset i.rxHdr + (r.stop - r.off) + 4 ∧ (i.rxEop = true ↔ cplCount r i.rxHdr = cplFirst c r i.rxHdr))
    ⟨fun h => ⟨h.1, h.2.1, h.2.2.1, h.2.2.2⟩, fun h => ⟨h.count, h.lower, h.len, h.eop⟩⟩

instance (c : DrdCfg) (out : List RdReq) (i : DrdIn) : Decidable (∀ r, rdKind c out i = .data r → CplDataOk c r i) :=
  match h : rdKind c out i with
  | .unexpected => isTrue (by intro r h'; simp at h')
  | .malformed => isTrue (by intro r h'; simp at h')
  | .error _ _ => isTrue (by intro r h'; simp at h')
  | .data r => decidable_of_iff (CplDataOk c r i) ⟨fun h1 r' h' => by simp only [RdKind.data.injEq] at h'; exact h' ▸ h1, fun h1 => h1 r rfl⟩

instance (c : DrdCfg) (e : RdEnv) (s : Drd) (i : DrdIn) : Decidable (CplOk c e s i) := by
  unfold CplOk; split <;> infer_instance

instance decCplsOk (c : DrdCfg) : (e : RdEnv) → (s : Drd) → (is : List DrdIn) → Decidable (CplsOk c e s is)
  | _, _, [] => isTrue trivial
  | e, s, i :: is =>
    have := decCplsOk c (e.step c s i) (drdStep c s i) is
    inferInstanceAs (Decidable ((drdTransfer s i = true → CplOk c e s i) ∧ CplsOk c (e.step c s i) (drdStep c s i) is))

/-- The header of a completion with data. -/
def cplEx (dws count tag lower : Nat) : TlpHdr :=
  { dw0 := 2 * 2 ^ 29 + 0xa * 2 ^ 24 + dws, dw1 := count, dw2 := 0x123 * 2 ^ 16 + tag * 2 ^ 8 + lower, dw3 := 0 }

/-- The header of a completion with this status. -/
def cplErrEx (status tag : Nat) : TlpHdr :=
  { dw0 := 0xa * 2 ^ 24, dw1 := status * 2 ^ 13 + 4, dw2 := 0x123 * 2 ^ 16 + tag * 2 ^ 8, dw3 := 0 }

/-- A transfer on the completion interface. -/
def drdCpl (h : TlpHdr) (sop eop : Bool) (b : UInt8) : DrdIn :=
  { drdIdle with rxHdr := h, rxValid := true, rxSop := sop, rxEop := eop, rxData := fun k => b + k.toUInt8 }

/-- A descriptor of 140 bytes at address 0xff1 for RAM address 6. The first request, for 15 bytes, is answered by two
completions; the second, for 125 bytes, by a completer abort. There is an unexpected completion before it. -/
def drdCplEx : List DrdIn :=
  List.replicate 6 drdIdle ++ [{ drdIdle with addr := 0xff1, len := 140, ram := 6, tag := 1, valid := true }] ++
    List.replicate 3 drdIdle ++
    [drdCpl (cplEx 2 15 0 0x71) true false 0x10, drdCpl (cplEx 2 15 0 0x71) false true 0x14,
     drdCpl (cplEx 2 8 0 0x78) true false 0x18, drdCpl (cplErrEx 0 0) false true 0x1c,
     drdCpl (cplEx 1 4 3 0) true true 0, drdCpl (cplErrEx 4 1) true true 0] ++ List.replicate 7 drdIdle

theorem drdCplEx_ok : DrdCfgOk (drdC 13) ∧ (∀ i ∈ drdCplEx, i.rst = false) ∧
    (∀ i ∈ drdR :: drdCplEx, i.mrrs = 0 ∧ i.requesterId = 0x123) ∧
    (∀ d ∈ drdAccepted (drdC 13) (drdStep (drdC 13) drdState0 drdR) drdCplEx, d.addr % 4 + d.len < 2 ^ max (drdC 13).lenW 13) ∧
    CplsOk (drdC 13) rdEnv0 (drdStep (drdC 13) drdState0 drdR) drdCplEx := by
  refine ⟨⟨by decide, by decide, by decide, by decide, by decide, by decide⟩, by decide, by decide, by decide +kernel, by decide +kernel⟩

/-- In this history there are outstanding requests with different tags, and pulses for the unexpected completion and for the
completer abort. -/
example : let s := drdStep (drdC 13) drdState0 drdR
    ((rdEnv0.run (drdC 13) s (drdCplEx.take 12)).out.map fun r => (r.tag, r.off, r.stop)) = [(0, 7, 15), (1, 15, 140)] ∧
    (List.range 17).map (fun n => (drdRun (drdC 13) s (drdCplEx.take n)).rx.errCor) =
      List.replicate 15 false ++ [true, true] := by
  decide +kernel

example : let e := rdEnv0.run (drdC 13) (drdStep (drdC 13) drdState0 drdR) drdCplEx
    e.out = [] ∧ e.evs.map (fun v => (v.finish, v.error, v.status)) =
      [(false, 0, none), (false, 0, none), (false, 0, none), (true, 0, none), (true, 11, some (1, 11))] ∧
    e.evs.flatMap (·.writes) = (List.range 15).map fun k => (0, 6 + k, (0x11 + k).toUInt8) := by
  decide +kernel

/-- A descriptor of 4 bytes, its completion twice in a row, and a descriptor of 640 bytes. -/
def drdDupEx : List DrdIn :=
  List.replicate 6 drdIdle ++ [{ drdIdle with addr := 0x1000, len := 4, valid := true }] ++ List.replicate 3 drdIdle ++
    List.replicate 2 (drdCpl (cplEx 1 4 0 0) true true 0) ++ List.replicate 5 drdIdle ++
    [{ drdIdle with addr := 0x2000, len := 640, valid := true }] ++ List.replicate 7 drdIdle

/-- C61 fails when a completion comes twice, the second time in the cycle after the first: the tag is freed twice and used for
two requests. -/
theorem C61_duplicate_fails : ∃ (c : DrdCfg) (s : Drd) (r : DrdIn) (is : List DrdIn), DrdCfgOk c ∧ r.rst = true ∧
    (∀ i ∈ is, i.rst = false) ∧ (∀ i ∈ r :: is, i.mrrs = 0 ∧ i.requesterId = 0x123) ∧
    (∀ d ∈ drdAccepted c (drdStep c s r) is, d.addr % 4 + d.len < 2 ^ max c.lenW 13) ∧
    ¬ ((rdEnv0.run c (drdStep c s r) is).out.map (·.tag)).Nodup := by
  refine ⟨drdC 13, drdState0, drdR, drdDupEx, ⟨by decide, by decide, by decide, by decide, by decide, by decide⟩, rfl, by decide,
    by decide, by decide +kernel, by decide +kernel⟩

/-- C62 fails in the same history: the second completion is unexpected, and no error is reported. -/
theorem C62_duplicate_fails : ∃ (c : DrdCfg) (s : Drd) (r : DrdIn) (is : List DrdIn) (i : DrdIn), DrdCfgOk c ∧ r.rst = true ∧
    (∀ i ∈ is, i.rst = false) ∧ (∀ i ∈ r :: is, i.mrrs = 0 ∧ i.requesterId = 0x123) ∧
    (∀ d ∈ drdAccepted c (drdStep c s r) is, d.addr % 4 + d.len < 2 ^ max c.lenW 13) ∧
    CplsOk c rdEnv0 (drdStep c s r) is ∧ i.rst = false ∧
    rdPulse c (rdEnv0.run c (drdStep c s r) is) (drdRun c (drdStep c s r) is) i = (true, false) ∧
    (drdStep c (drdRun c (drdStep c s r) is) i).rx.errCor = false := by
  refine ⟨drdC 13, drdState0, drdR, drdDupEx.take 11, drdCpl (cplEx 1 4 0 0) true true 0,
    ⟨by decide, by decide, by decide, by decide, by decide, by decide⟩, rfl, by decide,
    by decide, by decide +kernel, by decide +kernel, rfl, by decide +kernel, by decide +kernel⟩

end Verif.Props
