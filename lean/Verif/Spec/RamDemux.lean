import Verif.Model.RamDemux
/-! Specification of the RAM demultiplexers. -/
namespace Verif.Spec
open Verif.Model

/-- The port named by a select field: the number in its upper `⌈log₂ PORTS⌉` bits. -/
def selPort (c : DemuxCfg) (sel : Nat) : Nat :=
  if c.ports = 1 then 0 else sel % 2 ^ c.mSel / 2 ^ (c.mSel - clog2 c.ports)

/-- The select bits of every offered command name a port. -/
def RdSelOk {δ : Type} (c : DemuxCfg) (is : List (RdDemuxIn δ)) : Prop :=
  ∀ i ∈ is, i.cmdValid = true → selPort c i.cmd.sel < c.ports

/-- The commands for port `p`, as the port is to see them: the port is named by the upper bits of the
select field, of which the lower `S_RAM_SEL_WIDTH` bits are passed on. -/
def rdFor (c : DemuxCfg) (p : Nat) (l : List RdCmd) : List RdCmd :=
  (l.filter fun x => selPort c x.sel == p).map fun x => ⟨x.sel % 2 ^ c.sSel, x.addr⟩

/-- The select bits of every offered command name a port. -/
def WrSelOk (c : DemuxCfg) (is : List WrDemuxIn) : Prop :=
  ∀ i ∈ is, i.cmdValid = true → selPort c i.cmd.sel < c.ports

/-- The write commands for port `p`, as the port is to see them. -/
def wrFor (c : DemuxCfg) (p : Nat) (l : List WrCmd) : List WrCmd :=
  (l.filter fun x => selPort c x.sel == p).map fun x => ⟨x.sel % 2 ^ c.sSel, x.be, x.addr, x.data⟩

end Verif.Spec
