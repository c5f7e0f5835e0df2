import Verif.Props.DmaIfPcieRdCpl
import Verif.Proofs.DrdWrite
/-!
C63: the writes to the RAM of the PCIe DMA read interface.
-/
namespace Verif.Props
open Verif Verif.Model Verif.Spec Verif.Proofs

/-- C63. After two cycles of reset, under the conditions of C61, whatever the RAM does: the commands that the RAM has taken on
a segment write exactly what the completions so far have to write in this segment, in this order, up to the commands not yet
taken. In particular no byte that arrived in a completion is changed, lost, written twice or written to another address, and
nothing else is written.

Missing from the property: reset for only one cycle, see `C63_reset_fails`; and the cases missing from C60 and C61. -/
theorem C63_writes_partial (c : DrdCfg) (hc : DrdCfgOk c) (mrrs rid : Nat) (hm : mrrs ≤ 4) (hrid : rid < 2 ^ 16) (s : Drd)
    (r1 r2 : DrdIn) (is : List DrdIn) (h1 : r1.rst = true) (h2 : r2.rst = true) (his : ∀ i ∈ is, i.rst = false)
    (hin : ∀ i ∈ r2 :: is, i.mrrs = mrrs ∧ i.requesterId = rid)
    (hd : ∀ d ∈ drdAccepted c (drdStep c (drdStep c s r1) r2) is, d.addr % 4 + d.len < 2 ^ max c.lenW 13)
    (hk : CplsOk c rdEnv0 (drdStep c (drdStep c s r1) r2) is) (k : Nat) (hs : k < c.segs) :
    (drdTakenCmds c k (drdStep c (drdStep c s r1) r2) is).map (drdCmdWrites c k) <+:
      drdSegParts c k (rdEnv0.run c (drdStep c (drdStep c s r1) r2) is).evs := by
  have hi := List.forall_mem_cons.mp hin
  rw [← drd_writes hc hm hrid is s r1 r2 h1 h2 hi.1.1 ⟨his, hi.2, hd, hk⟩ hs, List.map_append]
  exact List.prefix_append _ _

/-! ### Examples -/

/-- The state after two cycles of reset. -/
def drdS2 : Drd := drdStep (drdC 13) (drdStep (drdC 13) drdState0 drdR) drdR

/-- The history of the example for C61, with a RAM that takes no commands for segment 0 for a while. -/
def drdWrEx : List DrdIn :=
  (drdCplEx.take 14).map (fun i => { i with cmdReady := fun k => k != 0 }) ++ drdCplEx.drop 14

theorem drdWrEx_ok : DrdCfgOk (drdC 13) ∧ (∀ i ∈ drdWrEx, i.rst = false) ∧
    (∀ i ∈ drdR :: drdWrEx, i.mrrs = 0 ∧ i.requesterId = 0x123) ∧
    (∀ d ∈ drdAccepted (drdC 13) drdS2 drdWrEx, d.addr % 4 + d.len < 2 ^ max (drdC 13).lenW 13) ∧
    CplsOk (drdC 13) rdEnv0 drdS2 drdWrEx := by
  refine ⟨⟨by decide, by decide, by decide, by decide, by decide, by decide⟩, by decide, by decide, by decide +kernel, by decide +kernel⟩

/-- The commands that the RAM has taken, and at the end they are all. -/
example : (drdTakenCmds (drdC 13) 0 drdS2 drdWrEx).map (drdCmdWrites (drdC 13) 0) =
      [[(0, 8, 0x13)], [(0, 9, 0x14), (0, 10, 0x15), (0, 11, 0x16)], [(0, 16, 0x1b)], [(0, 17, 0x1c), (0, 18, 0x1d), (0, 19, 0x1e)]] ∧
    (drdTakenCmds (drdC 13) 1 drdS2 (drdWrEx.take 15)).map (drdCmdWrites (drdC 13) 1) =
      [[(0, 6, 0x11), (0, 7, 0x12)]] ∧
    ∀ k < 2, (drdTakenCmds (drdC 13) k drdS2 drdWrEx).map (drdCmdWrites (drdC 13) k) =
      drdSegParts (drdC 13) k (rdEnv0.run (drdC 13) drdS2 drdWrEx).evs := by
  decide +kernel

/-- C63 fails if reset lasts only one cycle: `ram_wr_cmd_valid_pipe_reg` is not reset, and data from before the reset is written
after it, although there has been no completion and no descriptor. -/
theorem C63_reset_fails : ∃ (c : DrdCfg) (s : Drd) (r : DrdIn) (is : List DrdIn) (k : Nat), DrdCfgOk c ∧
    (∃ s0 r0 is0, r0.rst = true ∧ s = drdRun c (drdStep c (drdStep c s0 r0) r0) is0 ∧ (∀ i ∈ is0, i.rst = false) ∧
      CplsOk c rdEnv0 (drdStep c (drdStep c s0 r0) r0) is0) ∧ r.rst = true ∧
    (∀ i ∈ is, i.rst = false ∧ i.valid = false ∧ i.rxValid = false) ∧ k < c.segs ∧
    (drdTakenCmds c k (drdStep c s r) is).map (drdCmdWrites c k) ≠ [] ∧
    drdSegParts c k (rdEnv0.run c (drdStep c s r) is).evs = [] := by
  refine ⟨drdC 13, drdRun (drdC 13) drdS2 (drdCplEx.take 11), drdR, List.replicate 4 drdIdle, 1,
    ⟨by decide, by decide, by decide, by decide, by decide, by decide⟩,
    ⟨drdState0, drdR, drdCplEx.take 11, rfl, rfl, by decide, by decide +kernel⟩, rfl, by decide, by decide, by decide +kernel,
    by decide +kernel⟩

end Verif.Props
