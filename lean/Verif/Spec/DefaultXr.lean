import Verif.Model.DefaultXr
import Verif.Spec.Kernel

/-! # Specification: the shapely operations on areas -/

namespace Starworlds.Spec

/-- What shapely does: a polygon contains the points in its interior, and the representative point is one of them if there is
one. -/
structure IsArea (geo : AreaOps) : Prop where
  contains : ∀ v p, geo.contains v p = true ↔ p ∈ interior (filled v)
  representative : ∀ v, (interior (filled v)).Nonempty → geo.representative v ∈ interior (filled v)

end Starworlds.Spec
