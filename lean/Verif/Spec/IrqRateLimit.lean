import Verif.Model.IrqRateLimit
/-! Specification of interrupt rate limiting. -/
namespace Verif.Spec
open Verif.Model

/-- The deadline of an interrupt, computed in the 17-bit time counter, does not wrap around. -/
def NoWrap (e : IrqEvent) : Prop := e.tick % 2 ^ 17 + e.interval < 2 ^ 17

/-- Two interrupts, the first presented before the second, keep the minimum interval of the first: more
than that many ticks lie between them. (An interval of zero imposes nothing.) -/
def Spaced (e f : IrqEvent) : Prop := e.source = f.source → e.interval ≠ 0 → e.tick + e.interval < f.tick

end Verif.Spec
