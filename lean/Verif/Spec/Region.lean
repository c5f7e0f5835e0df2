import Verif.Spec.Mem
import Verif.Model.Region
/-!
Specification of address regions: address ranges, disjointness and the memory they make up.
-/
namespace Verif.Spec
open Verif.Model

/-- Address `a` lies in the half-open range of region `r`. -/
def InRegion (r : Region) (a : Nat) : Prop := r.base ≤ a ∧ a < r.base + r.size

/-- No address lies in two regions. -/
def DisjointRegions (rs : List Region) : Prop :=
  rs.Pairwise fun r s => ∀ a, ¬ (InRegion r a ∧ InRegion s a)

/-- Every region's backing store has the region's size. -/
def Backed (rs : List Region) : Prop := ∀ r ∈ rs, r.mem.length = r.size

/-- `m` is the memory made up by the regions: at an address of a region it is the region's byte. -/
def MemoryOf (rs : List Region) (m : Mem) : Prop :=
  ∀ r ∈ rs, ∀ a, InRegion r a → m a = r.mem.getD (a - r.base) 0

/-- Same regions, possibly different content. -/
def SameLayout (rs rs' : List Region) : Prop :=
  rs.map (fun r => (r.base, r.size)) = rs'.map (fun r => (r.base, r.size))

end Verif.Spec
