import Verif.Proofs.CfgMonitor
/-! C91: the configuration monitors for the H-, L- and P-tile cores. -/
namespace Verif.Props
open Verif Verif.Model Verif.Spec Verif.Proofs

/-- **C91**, L-tile: after a reset, for every sequence of words on the configuration bus: each bit of the field of each
function is the bit of the last word that the core showed for this function at an address where the field is found. -/
theorem C91_ltile (pf : Nat) (s : Cm) (r : CmIn) (hr : r.rst = true) (is : List CmIn) (hi : ∀ i ∈ is, i.rst = false) (o : CmOut)
    (f k : Nat) (hf : f < pf) (hk : k < s10Width o) :
    cmRun tileL pf (cmStep tileL pf s r) is o (f * s10Width o + k) = cmBit 4 (cmFieldsL o) f k is false := by
  have := cmRun_bit tileL cmFieldsL o (cmGood_L o) pf is hi (cmStep tileL pf s r) f k hf hk
  simpa [cmStep, hr, tileL] using this

/-- **C91**, H-tile. -/
theorem C91_htile (pf : Nat) (s : Cm) (r : CmIn) (hr : r.rst = true) (is : List CmIn) (hi : ∀ i ∈ is, i.rst = false) (o : CmOut)
    (f k : Nat) (hf : f < pf) (hk : k < s10Width o) :
    cmRun tileH pf (cmStep tileH pf s r) is o (f * s10Width o + k) = cmBit 5 (cmFieldsH o) f k is false := by
  have := cmRun_bit tileH cmFieldsH o (cmGood_H o) pf is hi (cmStep tileH pf s r) f k hf hk
  simpa [cmStep, hr, tileH] using this

/-- **C91**, P-tile, for all outputs but the AER masks and severities, for which it is false (`C91_aer_fails`). -/
theorem C91_ptile_partial (pf : Nat) (s : Cm) (r : CmIn) (hr : r.rst = true) (is : List CmIn) (hi : ∀ i ∈ is, i.rst = false)
    (o : CmOut) (ho : cmNotAer o = true) (f k : Nat) (hf : f < pf) (hk : k < ptileWidth o) :
    cmRun tileP pf (cmStep tileP pf s r) is o (f * ptileWidth o + k) = cmBit 5 (cmFieldsP o) f k is false := by
  have := cmRun_bit tileP cmFieldsP o (cmGood_P o ho) pf is hi (cmStep tileP pf s r) f k hf hk
  simpa [cmStep, hr, tileP] using this

/-- The 32 bits of the mask of function `f`. -/
def cmMask (s : Cm) (f : Nat) : Nat :=
  (List.range 32).foldl (fun v k => v + if s .aer_uncor_err_mask (f * 32 + k) then 2 ^ k else 0) 0

/-- **C91 fails** for the P-tile: with two functions, after the words 0x1234 (address 0x0E) and 0x5678 (address 0x0F) for
function 0 its AER mask is 0x00001234 instead of 0x56781234; the upper half has gone to function 1, whose mask is 0x5678,
although the core has shown nothing for it. -/
theorem C91_aer_fails :
    let s := cmRun tileP 2 (cmStep tileP 2 (fun _ _ => true) ⟨true, 0, 0, 0⟩) [⟨false, 0x1234, 0x0E, 0⟩, ⟨false, 0x5678, 0x0F, 0⟩]
    cmMask s 0 = 0x1234 ∧ cmMask s 1 = 0x5678 ∧
      ¬ ∀ f < 2, ∀ k < 32, s .aer_uncor_err_mask (f * 32 + k) =
        cmBit 5 (cmFieldsP .aer_uncor_err_mask) f k [⟨false, 0x1234, 0x0E, 0⟩, ⟨false, 0x5678, 0x0F, 0⟩] false := by
  decide +kernel

/-- A case: two functions; the last word for function 1 at address 0 sets its maximum payload size to 3 and its maximum
read request size to 5; function 0 keeps its own. -/
example : ((List.range 6).map (cmRun tileH 2 (cmStep tileH 2 (fun _ _ => true) ⟨true, 0, 0, 0⟩)
      [⟨false, 0x2A, 0, 1⟩, ⟨false, 0x11, 0, 0⟩, ⟨false, 0x2B, 0, 1⟩, ⟨false, 0xFFFF, 6, 1⟩] .max_payload_size) =
        [true, false, false, true, true, false]) ∧
    ((List.range 6).map (cmRun tileH 2 (cmStep tileH 2 (fun _ _ => true) ⟨true, 0, 0, 0⟩)
      [⟨false, 0x2A, 0, 1⟩, ⟨false, 0x11, 0, 0⟩, ⟨false, 0x2B, 0, 1⟩, ⟨false, 0xFFFF, 6, 1⟩] .max_read_request_size) =
        [false, true, false, true, false, true]) := by decide +kernel

end Verif.Props
