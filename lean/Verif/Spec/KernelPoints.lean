import Verif.Model.KernelPoints
import Verif.Spec.Plane
import Mathlib.Topology.Instances.Real.Lemmas
import Mathlib.Topology.Closure

/-! # Specification: the geometry operations of `compute_kernel_points` -/

namespace Starworlds.Spec

variable {G : Type}

/-- `pts g` are the points of the geometry `g`. -/
structure OpsOk (geo : PolyOps G) (pts : G → Set (Pt ℝ)) : Prop where
  inter : ∀ a b, pts (geo.intersection a b) = pts a ∩ pts b
  diff : ∀ a b, pts (geo.difference a b) ⊆ pts a

/-- The border of the polygon `g` is its exterior ring, that is `g` has no holes; the distance from the exterior is at
most the distance from any border point. -/
def NoHoles (geo : PolyOps G) (pts : G → Set (Pt ℝ)) (g : G) : Prop :=
  ∀ c d, geo.exteriorDistance g c = .ok d → 0 ≤ d ∧ ∀ r ∈ frontier (pts g), d ≤ √(normSq (r - c))

/-- A polygon, or a collection of polygons, without holes. -/
def Simple (geo : PolyOps G) (pts : G → Set (Pt ℝ)) (g : G) : Prop :=
  if geo.isPolygon g then NoHoles geo pts g
  else (∀ p ∈ pts g, ∃ h ∈ geo.geoms g, p ∈ pts h) ∧ ∀ h ∈ geo.geoms g, NoHoles geo pts h ∧ pts h ⊆ pts g

end Starworlds.Spec
