import Verif.Model.DmaPsdpRamAsync
import Verif.Spec.DmaPsdpRam
/-! Specification of the segmented RAM with two clocks: what has been written before an instant. -/
namespace Verif.Spec
open Verif.Model

/-- The signals at the edges of the write clock, in order. -/
def psaWrites (is : List PsaIn) : List PsRamIn := (is.filter (·.wrEdge)).map (·.sig)

end Verif.Spec
