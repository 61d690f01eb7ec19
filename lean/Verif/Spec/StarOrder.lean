import Verif.Model.Starify
import Mathlib.Data.Multiset.Defs

/-! # Specification: cluster obstacles of convex obstacles in any order -/

namespace Starworlds.Spec

/-- What is seen of a cluster obstacle if the order of its members is left out. -/
def seenStar (s : ClusterObs) : Multiset ConvObs × Option (Set (Pt ℝ)) × Option (Pt ℝ) := (s.members, s.hull, s.xr)

end Starworlds.Spec
