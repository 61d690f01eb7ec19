import Verif.Spec.Plane
import Verif.Model.PolygonHull

/-! # What the shapely operations of `polygon_kernel_starshaped_hull` mean -/

namespace Starworlds.Spec

/-- The points and nodes listed by a geometry. -/
def nodesOf : Meet → List (Pt ℝ)
  | .empty => []
  | .point p => [p]
  | .multiPoint l => l
  | .lineString l => l
  | .multiLineString ls => ls.flatten
  | .collection ps ls => ps ++ ls.flatten

/-- Intersections with a segment consist of points of the segment. -/
structure HullOpsOk (ops : HullOps) : Prop where
  polygon : ∀ a b, ∀ p ∈ nodesOf (ops.meetPolygon a b), OnSegment a b p
  line : ∀ s t, ∀ p ∈ nodesOf (ops.meetLine s t), OnSegment s.1 s.2 p ∧ OnSegment t.1 t.2 p

end Starworlds.Spec
