import Verif.Proofs.BridgeConfig
/-! Properties of the type 1 configuration header. -/
namespace Verif.Props
open Verif Verif.Model Verif.Spec Verif.Proofs

/-- C48: a configuration write to register 4 to 14 of a bridge succeeds and changes the register
bit by bit as the type 1 header attributes and byte enables say; no other register changes, and
the windows keep their granularity (base registers end in zeros, limit registers in ones).
Missing: the secondary status bits of register 7 (`C48_secondary_status_fails`) and register 15
(`C48_bridge_control_fails`). -/
theorem C48_bridge_write_partial (b : Bridge) (h : BridgeWf b) (reg data mask : Nat) (h4 : 4 ≤ reg)
    (h15 : reg < 15) (hm : mask < 16) :
    ∃ b' v v', b.writeConfig reg data mask = some b' ∧ BridgeWf b' ∧ b'.fn.bar_mask = b.fn.bar_mask ∧
      b'.id = b.id ∧ b'.root = b.root ∧
      b.readConfig reg = some v ∧ b'.readConfig reg = some v' ∧
      (∀ i, i < 32 → (reg = 7 → i < 16) → v'.testBit i = writtenBit (bridgeAttr b.fn.bar_mask reg) v data mask i) ∧
      (∀ r, r ≠ reg → b'.readConfig r = b.readConfig r) :=
  bridge_write b h reg data mask h4 h15 hm

/-- A bridge as constructed. -/
theorem fresh_bridge_wf : BridgeWf ({} : Bridge) := by
  constructor <;> decide

example : ∃ b', ({} : Bridge).writeConfig 8 0x90109000 0xf = some b' ∧ BridgeWf b' :=
  let ⟨b', _, _, h1, h2, _⟩ := C48_bridge_write_partial {} fresh_bridge_wf 8 0x90109000 0xf (by decide) (by decide) (by decide)
  ⟨b', h1, h2⟩

/-- C48: error bits of the secondary status register cannot be cleared: line 2587 uses the enable
of the low byte for bits that lie in the high byte. -/
theorem C48_secondary_status_fails : ∃ b : Bridge, BridgeWf b ∧ ∃ b' v v',
    b.writeConfig 7 0xf9000000 0xf = some b' ∧ b.readConfig 7 = some v ∧ b'.readConfig 7 = some v' ∧
    v'.testBit 31 = true ∧ writtenBit (bridgeAttr b.fn.bar_mask 7) v 0xf9000000 0xf 31 = false := by
  refine ⟨{ sec_status := 0x8000 }, ?_, ?_⟩
  · constructor <;> decide
  · exact ⟨_, _, _, rfl, rfl, rfl, by decide +kernel, by decide +kernel⟩

/-- C48: every write to register 15 (interrupt line, interrupt pin, bridge control) raises
`AttributeError`: line 2606 reads an attribute that bridges do not have. -/
theorem C48_bridge_control_fails (b : Bridge) (data mask : Nat) : b.writeConfig 15 data mask = none := rfl

end Verif.Props
