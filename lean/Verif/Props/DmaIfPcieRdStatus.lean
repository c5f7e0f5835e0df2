import Verif.Props.DmaIfPcieRdWrite
import Verif.Proofs.DrdLive
import Verif.Proofs.DrdOnce
/-!
C64: the statuses of the PCIe DMA read interface.
-/
namespace Verif.Props
open Verif Verif.Model Verif.Spec Verif.Proofs

/-- C64. After two cycles of reset, under the conditions of C61, with at least 32 PCIe tags and a RAM that reports as many writes
as it has taken at most: the statuses that have been given are those of the first completions, in the order of completion, and
all that these completions had to write has been reported by the RAM as done. So no status is given before the data is in
the RAM. When a descriptor is complete, and with which tag and error, is said by the specification (`RdEnv.emit`), see also
`C64_once_partial`.

Missing from the property: fewer than 32 tags, see `C64_tags_fails`; and the cases missing from C60, C61 and C63. -/
theorem C64_status_partial (c : DrdCfg) (hc : DrdCfgOk c) (hw : 5 ≤ c.tagW) (mrrs rid : Nat) (hm : mrrs ≤ 4) (hrid : rid < 2 ^ 16)
    (s : Drd) (r1 r2 : DrdIn) (is : List DrdIn) (h1 : r1.rst = true) (h2 : r2.rst = true) (his : ∀ i ∈ is, i.rst = false)
    (hin : ∀ i ∈ r2 :: is, i.mrrs = mrrs ∧ i.requesterId = rid)
    (hd : ∀ d ∈ drdAccepted c (drdStep c (drdStep c s r1) r2) is, d.addr % 4 + d.len < 2 ^ max c.lenW 13)
    (hk : CplsOk c rdEnv0 (drdStep c (drdStep c s r1) r2) is)
    (hram : DrdRamOk c (fun _ => 0) (drdStep c (drdStep c s r1) r2) is) :
    let evs := (rdEnv0.run c (drdStep c (drdStep c s r1) r2) is).evs
    ∃ n ≤ evs.length,
      drdStatuses c (drdStep c (drdStep c s r1) r2) is = (evs.take n).filterMap (·.status) ∧
      ∀ k < c.segs, (drdSegParts c k (evs.take n)).length ≤ drdDoneCount k is := by
  have hi := List.forall_mem_cons.mp hin
  have hh : DrdHist c mrrs rid rdEnv0 (drdStep c (drdStep c s r1) r2) is := ⟨his, hi.2, hd, hk⟩
  obtain ⟨opOf, n, pend, A, g1, g2, g3, -, g5, -⟩ := drd_status hc hw hm hrid is s r1 r2 h1 h2 hi.1.1 hh hram
  refine ⟨n, g1, g2, fun k hks => ?_⟩
  have hwr := congrArg List.length (drd_writes hc hm hrid is s r1 r2 h1 h2 hi.1.1 hh hks)
  rw [List.length_map, List.length_append] at hwr
  exact status_done hks g3 (g5 k hks) hwr

/-- C64. Under the same conditions, a descriptor is completed at most once, and it is completed exactly if all of it has been
requested and no request for it is outstanding; descriptors are numbered in the order in which they were accepted. -/
theorem C64_once_partial (c : DrdCfg) (hc : DrdCfgOk c) (hw : 5 ≤ c.tagW) (mrrs rid : Nat) (hm : mrrs ≤ 4) (hrid : rid < 2 ^ 16)
    (s : Drd) (r1 r2 : DrdIn) (is : List DrdIn) (h1 : r1.rst = true) (h2 : r2.rst = true) (his : ∀ i ∈ is, i.rst = false)
    (hin : ∀ i ∈ r2 :: is, i.mrrs = mrrs ∧ i.requesterId = rid)
    (hd : ∀ d ∈ drdAccepted c (drdStep c (drdStep c s r1) r2) is, d.addr % 4 + d.len < 2 ^ max c.lenW 13)
    (hk : CplsOk c rdEnv0 (drdStep c (drdStep c s r1) r2) is)
    (hram : DrdRamOk c (fun _ => 0) (drdStep c (drdStep c s r1) r2) is) :
    let e := rdEnv0.run c (drdStep c (drdStep c s r1) r2) is
    ((e.evs.filter (·.status.isSome)).map (·.num)).Nodup ∧
    ∀ m < (drdAccepted c (drdStep c (drdStep c s r1) r2) is).length,
      m ∈ (e.evs.filter (·.status.isSome)).map (·.num) ↔ (∀ t ∈ e.todo, t.num ≠ m) ∧ ∀ r ∈ e.out, r.num ≠ m := by
  have hi := List.forall_mem_cons.mp hin
  have hh : DrdHist c mrrs rid rdEnv0 (drdStep c (drdStep c s r1) r2) is := ⟨his, hi.2, hd, hk⟩
  obtain ⟨opOf, n, pend, A, -, -, -, g4, -, g6⟩ := drd_status hc hw hm hrid is s r1 r2 h1 h2 hi.1.1 hh hram
  have hcount : (rdEnv0.run c (drdStep c (drdStep c s r1) r2) is).count = (drdAccepted c (drdStep c (drdStep c s r1) r2) is).length := by
    rw [run_count]; simp [rdEnv0]
  intro e
  rw [← hcount]
  exact evInv_once g6 g4.ev

/-- C64. Under the same conditions, a status is given within 98 cycles of the moment when all completions received so far have
been written and reported as done. -/
theorem C64_delivered_partial (c : DrdCfg) (hc : DrdCfgOk c) (hw : 5 ≤ c.tagW) (mrrs rid : Nat) (hm : mrrs ≤ 4) (hrid : rid < 2 ^ 16)
    (s : Drd) (r1 r2 : DrdIn) (is1 is2 : List DrdIn) (h1 : r1.rst = true) (h2 : r2.rst = true) (his : ∀ i ∈ is1 ++ is2, i.rst = false)
    (hin : ∀ i ∈ r2 :: (is1 ++ is2), i.mrrs = mrrs ∧ i.requesterId = rid)
    (hd : ∀ d ∈ drdAccepted c (drdStep c (drdStep c s r1) r2) (is1 ++ is2), d.addr % 4 + d.len < 2 ^ max c.lenW 13)
    (hk : CplsOk c rdEnv0 (drdStep c (drdStep c s r1) r2) (is1 ++ is2))
    (hram : DrdRamOk c (fun _ => 0) (drdStep c (drdStep c s r1) r2) (is1 ++ is2))
    (hdone : ∀ k < c.segs,
      (drdSegParts c k (rdEnv0.run c (drdStep c (drdStep c s r1) r2) is1).evs).length ≤ drdDoneCount k is1)
    (hlen : 98 ≤ is2.length) :
    (rdEnv0.run c (drdStep c (drdStep c s r1) r2) is1).evs.filterMap (·.status) <+:
      drdStatuses c (drdStep c (drdStep c s r1) r2) (is1 ++ is2) := by
  have hi := List.forall_mem_cons.mp hin
  have hh : DrdHist c mrrs rid rdEnv0 (drdStep c (drdStep c s r1) r2) (is1 ++ is2) := ⟨his, hi.2, hd, hk⟩
  obtain ⟨n, g1, g2⟩ := drd_live hc hw hm hrid (is1 ++ is2) s r1 r2 h1 h2 hi.1.1 hh hram
  have ht : (is1 ++ is2).take is1.length = is1 := List.take_left
  have h3 := g2 is1.length (by simp) (by rw [ht]; exact hdone) (by simp; omega)
  rw [ht] at h3
  obtain ⟨E, hE⟩ := run_evs c (drdStep c (drdStep c s r1) r2) rdEnv0 is1 is2
  rw [g1, hE, List.take_append, List.filterMap_append, List.take_of_length_le h3]
  exact List.prefix_append _ _

/-! ### Examples -/

/-- A configuration with this tag width. -/
def drdCw (w : Nat) : DrdCfg := { drdC 13 with tagW := w }

/-- The state after two cycles of reset. -/
def drdSw (w : Nat) : Drd := drdStep (drdCw w) (drdStep (drdCw w) drdState0 drdR) drdR

/-- A completion that is not successful. -/
def cplUr (tag : Nat) : DrdIn := drdCpl (cplErrEx 1 tag) true true 0

/-- The RAM reports a write in segment 0. -/
def drdDone0 : DrdIn := { drdIdle with done := fun k => k == 0 }

/-- Two descriptors, each of four bytes across a 4096 byte boundary. The requests are answered out of order, the last of
them by an error. -/
def drdStatEx : List DrdIn :=
  List.replicate 33 drdIdle ++ [{ drdIdle with addr := 0xffe, len := 4, tag := 1, valid := true }] ++ List.replicate 3 drdIdle ++
    List.replicate 1 { drdIdle with addr := 0x1ffe, len := 4, ram := 8, tag := 2, valid := true } ++ List.replicate 4 drdIdle ++
    [drdCpl (cplEx 1 2 2 0x7e) true true 0x10, drdCpl (cplEx 1 2 1 0) true true 0x20, drdIdle, cplUr 3,
      drdCpl (cplEx 1 2 0 0x7e) true true 0x30, drdIdle, drdIdle, drdDone0, drdDone0, drdIdle, drdDone0]

instance decDrdRamOk (c : DrdCfg) : (pend : Nat → Nat) → (s : Drd) → (is : List DrdIn) → Decidable (DrdRamOk c pend s is)
  | _, _, [] => isTrue trivial
  | pend, s, i :: is =>
    have := decDrdRamOk c (drdPendNext s i pend) (drdStep c s i) is
    inferInstanceAs (Decidable (_ ∧ _))

theorem drdStatEx_ok : DrdCfgOk (drdCw 5) ∧ (∀ i ∈ drdStatEx ++ List.replicate 98 drdIdle, i.rst = false) ∧
    (∀ i ∈ drdR :: (drdStatEx ++ List.replicate 98 drdIdle), i.mrrs = 0 ∧ i.requesterId = 0x123) ∧
    (∀ d ∈ drdAccepted (drdCw 5) (drdSw 5) (drdStatEx ++ List.replicate 98 drdIdle), d.addr % 4 + d.len < 2 ^ max (drdCw 5).lenW 13) ∧
    CplsOk (drdCw 5) rdEnv0 (drdSw 5) (drdStatEx ++ List.replicate 98 drdIdle) ∧
    DrdRamOk (drdCw 5) (fun _ => 0) (drdSw 5) (drdStatEx ++ List.replicate 98 drdIdle) ∧
    ∀ k < (drdCw 5).segs, (drdSegParts (drdCw 5) k (rdEnv0.run (drdCw 5) (drdSw 5) drdStatEx).evs).length ≤ drdDoneCount k drdStatEx := by
  refine ⟨⟨by decide, by decide, by decide, by decide, by decide, by decide⟩, by decide +kernel, by decide +kernel, by decide +kernel,
    by decide +kernel, by decide +kernel, by decide +kernel⟩

/-- The descriptor whose first request is answered last is complete last. At the end of the example its status has not yet
been given, two cycles later it has. -/
example : let e := rdEnv0.run (drdCw 5) (drdSw 5) drdStatEx
    e.evs.map (fun v => (v.num, v.status)) = [(1, none), (0, none), (1, some (2, 10)), (0, some (1, 0))] ∧
    drdStatuses (drdCw 5) (drdSw 5) drdStatEx = [(2, 10)] ∧
    drdStatuses (drdCw 5) (drdSw 5) (drdStatEx ++ List.replicate 2 drdIdle) = [(2, 10), (1, 0)] := by
  decide +kernel

/-- A descriptor with nine requests, of which only the first is successful; its write is reported when all have been answered. -/
def drdEarlyEx : List DrdIn :=
  List.replicate 6 drdIdle ++ [{ drdIdle with addr := 0xffc, len := 1028, tag := 1, valid := true }] ++ List.replicate 6 drdIdle ++
    [drdCpl (cplEx 1 4 0 0x7c) true true 0x10, cplUr 1, cplUr 2, cplUr 3, drdIdle, drdIdle, drdIdle, cplUr 1, cplUr 2, cplUr 3,
      cplUr 0, drdIdle, drdIdle, cplUr 1, drdIdle, drdIdle, drdDone0] ++ List.replicate 14 drdIdle

/-- C64 fails with four tags: the number of requests of a descriptor that have been issued and not dealt with is kept in three
bits, but it can be larger, because a tag is free again when its completion has been received, before the data is written. The
example has two statuses for one descriptor, the first without an error although eight of its nine requests have failed. -/
theorem C64_tags_fails : ∃ (c : DrdCfg) (s : Drd) (r1 r2 : DrdIn) (is : List DrdIn), DrdCfgOk c ∧ r1.rst = true ∧ r2.rst = true ∧
    (∀ i ∈ is, i.rst = false) ∧ (∀ i ∈ r2 :: is, i.mrrs = 0 ∧ i.requesterId = 0x123) ∧
    (∀ d ∈ drdAccepted c (drdStep c (drdStep c s r1) r2) is, d.addr % 4 + d.len < 2 ^ max c.lenW 13) ∧
    CplsOk c rdEnv0 (drdStep c (drdStep c s r1) r2) is ∧ DrdRamOk c (fun _ => 0) (drdStep c (drdStep c s r1) r2) is ∧
    (drdAccepted c (drdStep c (drdStep c s r1) r2) is).map (·.tag) = [1] ∧
    (rdEnv0.run c (drdStep c (drdStep c s r1) r2) is).evs.filterMap (·.status) = [(1, 10)] ∧
    drdStatuses c (drdStep c (drdStep c s r1) r2) is = [(1, 0), (1, 10)] := by
  refine ⟨drdCw 2, drdState0, drdR, drdR, drdEarlyEx, ⟨by decide, by decide, by decide, by decide, by decide, by decide⟩, rfl, rfl,
    by decide +kernel, by decide +kernel, by decide +kernel, by decide +kernel, by decide +kernel, by decide +kernel,
    by decide +kernel, by decide +kernel⟩

end Verif.Props
