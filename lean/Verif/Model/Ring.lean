/-!
Model of the pointer FIFOs used throughout the RTL: `2^aw` entries, and read and write pointers of
`aw + 1` bits. Cited here for `rtl/dma_ram_demux_rd.v`; other modules cite their own instances.
-/
namespace Verif.Model

/-- `rtl/dma_ram_demux_rd.v` lines 99-102: the pointers and the memory. -/
structure Ring (α : Type) where
  wr : Nat := 0
  rd : Nat := 0
  mem : Nat → α

/-- `rtl/dma_ram_demux_rd.v` line 104: `fifo_empty`. -/
def ringEmpty {α : Type} (r : Ring α) : Bool := r.wr == r.rd

/-- `rtl/dma_ram_demux_rd.v` line 105: `fifo_full`. -/
def ringFull {α : Type} (aw : Nat) (r : Ring α) : Bool := r.wr == (r.rd ^^^ (1 <<< aw))

/-- `rtl/dma_ram_demux_rd.v` lines 161-162: a write. -/
def ringPush {α : Type} (aw : Nat) (r : Ring α) (x : α) : Ring α :=
  { r with
    mem := fun a => if a = r.wr % 2 ^ aw then x else r.mem a
    wr := (r.wr + 1) % 2 ^ (aw + 1) }

/-- `rtl/dma_ram_demux_rd.v` line 269: the entry at the read pointer. -/
def ringHead {α : Type} (aw : Nat) (r : Ring α) : α := r.mem (r.rd % 2 ^ aw)

/-- `rtl/dma_ram_demux_rd.v` line 286: a read. -/
def ringPop {α : Type} (aw : Nat) (r : Ring α) : Ring α := { r with rd := (r.rd + 1) % 2 ^ (aw + 1) }

/-- `rtl/dma_ram_demux_rd.v` line 316: `$unsigned(wr_ptr - rd_ptr)`. -/
def ringCount {α : Type} (aw : Nat) (r : Ring α) : Nat := (r.wr + 2 ^ (aw + 1) - r.rd) % 2 ^ (aw + 1)

/-- Pointers to zero, as on reset: `rtl/dma_ram_demux_rd.v` lines 166 and 290. -/
def ringReset {α : Type} (r : Ring α) : Ring α := { r with wr := 0, rd := 0 }

end Verif.Model
